import Verif.Props.WholeSample
import Verif.Model.Registry

/-! # C112: what any merge method is given, from the configuration to the files -/

set_option linter.unusedSectionVars false

namespace Verif.WholeMerge

open Verif.ModelRef (Str Ref)
open Verif.LoadTask (LoadTensor WeightInfo Casts Loader ownTensors typeNames wanted)
open Verif.Plan
open Verif.Config
open Verif.Pipeline

section
variable {K : Type} [Field K] [LinearOrder K] [IsStrictOrderedRing K] [FloorRing K]

/-! ## Specification -/

/-- What the configuration has for it: settings of the slice come before those of the module and those of the whole configuration, those of a
source before all of these; where nothing is set there is the method's default; a required one must be set, except for the base model. -/
structure SeenAt (env : Env K) (c : MergeConfig K) (d : OutModule K) (w : WeightInfo) (sl : OutSlice K) (t : K) (ins : List (Ref × WeightInfo))
    (v : View K) : Prop where
  weight : v.weight = w
  base : ∀ b, v.base = some b ↔ BaseIs c sl b
  known : ∀ i ∈ ins, v.known i.1 = true
  param : ∀ q ∈ env.params, ∃ x, Reads w.name t [sl.parameters.get q.name, d.parameters.get q.name, c.parameters.get q.name] x ∧
    (q.required = true → x ≠ none) ∧ v.value q.name = some (x.or q.default)
  noParam : ∀ key, key ∉ env.params.map (·.name) → v.value key = none
  modelParam : ∀ i ∈ ins, ∀ src ∈ sl.sources, src.model = i.1 → ∀ q ∈ env.tensorParams, ∃ x,
    Reads i.2.name t [src.parameters.get q.name, sl.parameters.get q.name, d.parameters.get q.name, c.parameters.get q.name] x ∧
    (q.required = true → x ≠ none ∨ BaseIs c sl i.1) ∧ v.valueOf i.1 q.name = some (x.or q.default)
  noModelParam : ∀ i ∈ ins, ∀ key, key ∉ env.tensorParams.map (·.name) → v.valueOf i.1 key = none

/-- All that is needed at a place: the tensors are there, the type to store exists, the settings can be read and the required ones are given, and
the method works on them. -/
structure Ready {T E : Type} (env : Env K) (c : MergeConfig K) (s : Setup K T E) (f : View K → List (Ref × T) → Except E (Option T))
    (own : Ref → WeightInfo → T) (d : OutModule K) (w : WeightInfo) (sl : OutSlice K) (t : K) (ins : List (Ref × WeightInfo)) : Prop where
  loads : ∀ i ∈ ins, (wanted s.dtype i.2).execute s.casts (s.loaders i.1) = .ok (some (own i.1 i.2))
  type : storedType s.outDtype w = none ∨ ∃ n d, storedType s.outDtype w = some n ∧ (n, d) ∈ typeNames
  params : ∀ q ∈ env.params, ∃ x, Reads w.name t [sl.parameters.get q.name, d.parameters.get q.name, c.parameters.get q.name] x ∧
    (q.required = true → x ≠ none)
  modelParams : ∀ i ∈ ins, ∀ src ∈ sl.sources, src.model = i.1 → ∀ q ∈ env.tensorParams, ∃ x,
    Reads i.2.name t [src.parameters.get q.name, sl.parameters.get q.name, d.parameters.get q.name, c.parameters.get q.name] x ∧
    (q.required = true → x ≠ none ∨ BaseIs c sl i.1)
  works : ∀ v, SeenAt env c d w sl t ins v → ∃ y, f v (ins.map (fun i => (i.1, own i.1 i.2))) = .ok (some y)

/-- What is right for a place: what the method gives for the settings and the models' own tensors. -/
def Outcome {T E : Type} (env : Env K) (c : MergeConfig K) (s : Setup K T E) (f : View K → List (Ref × T) → Except E (Option T))
    (own : Ref → WeightInfo → T) (e : String × OutModule K) (w : WeightInfo) (sl : OutSlice K) (t : K) (ins : List (Ref × WeightInfo)) (z : T) : Prop :=
  ∃ v y, SeenAt env c e.2 w sl t ins v ∧ f v (ins.map (fun i => (i.1, own i.1 i.2))) = .ok (some y) ∧ Stored s w y z

/-! ## Lemmas -/

theorem param_absent {env : Env K} {r : Reader K} {w : WeightInfo} {ins : List (Ref × WeightInfo)} {p : Planned K}
    (h : TensorPlan env r w ins (some p)) (key : Str) (hk : key ∉ env.params.map (·.name)) : lookup p.params key = none := by
  cases h with
  | planned _ _ _ _ hparams =>
    unfold lookup
    rw [List.find?_eq_none.2, Option.map_none]
    intro e he
    obtain ⟨pd, hpd, h3, _⟩ := forall₂_mem_right hparams e he
    simp only [decide_eq_true_eq]
    intro hek
    exact hk (List.mem_map.2 ⟨pd, hpd, by rw [← h3, hek]⟩)

/-- A method has no parameters for models but those it asks for. -/
theorem modelParam_absent {env : Env K} {r : Reader K} {w : WeightInfo} {ins : List (Ref × WeightInfo)} {p : Planned K}
    (h : TensorPlan env r w ins (some p)) (hins : (ins.map Prod.fst).Nodup) (m : Ref) (key : Str) (hk : key ∉ env.tensorParams.map (·.name)) :
    (lookup p.tensorParams m).bind (fun x => lookup x key) = none := by
  cases h with
  | planned _ _ _ _ _ htensor =>
    obtain ⟨tp, htp, hf⟩ := htensor
    cases hl : lookup p.tensorParams m with
    | none => rfl
    | some d =>
      simp only [Option.bind_some]
      have hmem : ∃ k, (k, d) ∈ tp := by
        unfold lookup at hl
        rw [Option.map_eq_some_iff] at hl
        obtain ⟨e, he, rfl⟩ := hl
        have := List.mem_of_find?_eq_some he
        rw [htp, Verif.Plan.dictOf_nodup tp (by rw [forall₂_keys hf]; exact hins)] at this
        exact ⟨e.1, this⟩
      obtain ⟨k, hkd⟩ := hmem
      obtain ⟨i, hi, _, h2⟩ := forall₂_mem_right hf _ hkd
      simp only at h2
      unfold lookup
      rw [List.find?_eq_none.2, Option.map_none]
      intro e he
      obtain ⟨pd, hpd, h3, _⟩ := forall₂_mem_right h2 e he
      simp only [decide_eq_true_eq]
      intro hek
      exact hk (List.mem_map.2 ⟨pd, hpd, by rw [← h3, hek]⟩)

/-- Every model of a task has an entry. -/
theorem tensorParam_known {env : Env K} {r : Reader K} {w : WeightInfo} {ins : List (Ref × WeightInfo)} {p : Planned K}
    (h : TensorPlan env r w ins (some p)) (hins : (ins.map Prod.fst).Nodup) (i : Ref × WeightInfo) (hi : i ∈ ins) :
    (lookup p.tensorParams i.1).isSome = true := by
  cases h with
  | planned _ _ _ _ _ htensor =>
    obtain ⟨tp, htp, hf⟩ := htensor
    rw [htp, Verif.Plan.dictOf_nodup tp (by rw [forall₂_keys hf]; exact hins)]
    unfold lookup
    rw [Option.isSome_map, List.find?_isSome]
    have : i.1 ∈ tp.map Prod.fst := by rw [forall₂_keys hf]; exact List.mem_map.2 ⟨i, hi, rfl⟩
    obtain ⟨e, he, h2⟩ := List.mem_map.1 this
    exact ⟨e, he, by simpa using h2⟩

theorem base_reader_iff {c c' : MergeConfig K} {d : OutModule K} {s : OutSlice K} {t : K} (hb : c'.baseModel = c.baseModel) (b : Ref) :
    (sliceReader c' d s t).baseModel = some b ↔ BaseIs c s b := by
  constructor
  · intro h
    unfold Reader.baseModel at h
    simp only [sliceReader, hb] at h
    cases hs : s.baseModel with
    | none => rw [hs] at h; exact Or.inr ⟨hs, h⟩
    | some x => rw [hs] at h; cases h; exact Or.inl hs
  · exact base_reader hb

/-! ## The theorem -/

/-- Wherever a place is ready, what is needed can be read, and what the method gives is expected. -/
theorem ready_expected {T E : Type} (env : Env K) (hpn : (env.params.map (·.name)).Nodup) (htn : (env.tensorParams.map (·.name)).Nodup)
    (c : MergeConfig K) (l : List (String × OutModule K))
    (s : Setup K T E) (f : View K → List (Ref × T) → Except E (Option T)) (hf : ∀ p ts, s.method p ts = f (viewOf p) ts)
    (own : Ref → WeightInfo → T)
    (hready : ∀ e ∈ l, ∀ w sl t ins, Place env e.1 (e.2.slices.getD []) w sl t ins → ¬ LeftOut env w ins → Ready env c s f own e.2 w sl t ins) :
    ∀ c' : MergeConfig K, c'.baseModel = c.baseModel → c'.parameters = c.parameters → ∀ e ∈ l, ∀ w sl t ins,
      Place env e.1 (e.2.slices.getD []) w sl t ins → ¬ LeftOut env w ins → (ins.map Prod.fst).Nodup →
      Readable env (sliceReader c' e.2 sl t) w ins ∧
      ∀ p, TensorPlan env (sliceReader c' e.2 sl t) w ins (some p) → p.inputs = ins → p.weight = w →
        p.baseModel = (sliceReader c' e.2 sl t).baseModel → ∃ z, Outcome env c s f own e w sl t ins z ∧ Expected s p (some z) := by
  intro c' hb hpar e he w sl t ins hpl hno hnd
  obtain ⟨hsl, hms⟩ := hpl.models
  obtain ⟨hloads, htype, hparams, hmodel, hworks⟩ := hready e he w sl t ins hpl hno
  have hsn : (sl.sources.map (·.model)).Nodup := by rw [← hms]; exact hnd
  have hsrcOf : ∀ i ∈ ins, ∃ src ∈ sl.sources, src.model = i.1 := by
    intro i hi
    have : i.1 ∈ sl.sources.map (·.model) := by rw [← hms]; exact List.mem_map.2 ⟨i, hi, rfl⟩
    obtain ⟨src, h1, h2⟩ := List.mem_map.1 this
    exact ⟨src, h1, h2⟩
  have hp : ∀ q ∈ env.params, ∀ x, Reads w.name t [sl.parameters.get q.name, e.2.parameters.get q.name, c.parameters.get q.name] x →
      (q.required = true → x ≠ none) →
      ((sliceReader c' e.2 sl t).forTensor w.name).parameter q.name none q.default q.required = .ok (x.or q.default) := by
    intro q hq x hx hreq
    have hlev := levels_global c' e.2 sl t w.name q.name
    rw [hpar] at hlev
    refine reads_parameter (r := (sliceReader c' e.2 sl t).forTensor w.name) hx rfl hlev q.default q.required ?_
    by_cases h : q.required = true
    · exact Or.inl (hreq h)
    · exact Or.inr (by simpa using h)
  have hm : ∀ i ∈ ins, ∀ src ∈ sl.sources, src.model = i.1 → ∀ q ∈ env.tensorParams, ∀ x,
      Reads i.2.name t [src.parameters.get q.name, sl.parameters.get q.name, e.2.parameters.get q.name, c.parameters.get q.name] x →
      (q.required = true → x ≠ none ∨ BaseIs c sl i.1) →
      ((sliceReader c' e.2 sl t).forTensor i.2.name).parameter q.name (some i.1) q.default
        (q.required && !decide (some i.1 = (sliceReader c' e.2 sl t).baseModel)) = .ok (x.or q.default) := by
    intro i hi src hsrc hmod q hq x hx hreq
    have hlev := levels_source c' e.2 sl t i.2.name q.name src hsrc hsn
    rw [hpar, hmod] at hlev
    refine reads_parameter (r := (sliceReader c' e.2 sl t).forTensor i.2.name) hx rfl hlev q.default _ ?_
    by_cases h : q.required = true
    · rcases hreq h with h | h
      · exact Or.inl h
      · exact Or.inr (by rw [(base_reader_iff hb i.1).2 h]; simp)
    · exact Or.inr (by simp [h])
  refine ⟨⟨?_, ?_⟩, ?_⟩
  · intro q hq
    obtain ⟨x, hx, hreq⟩ := hparams q hq
    exact ⟨_, hp q hq x hx hreq⟩
  · intro i hi q hq
    obtain ⟨src, hsrc, hmod⟩ := hsrcOf i hi
    obtain ⟨x, hx, hreq⟩ := hmodel i hi src hsrc hmod q hq
    exact ⟨_, hm i hi src hsrc hmod q hq x hx hreq⟩
  · intro p htp hin hw hpb
    have hseen : SeenAt env c e.2 w sl t ins (viewOf p) := by
      refine ⟨hw, ?_, ?_, ?_, ?_, ?_, ?_⟩
      · intro b
        rw [← base_reader_iff (d := e.2) (t := t) hb b, ← hpb]
        rfl
      · intro i hi
        exact tensorParam_known htp hnd i hi
      · intro q hq
        obtain ⟨x, hx, hreq⟩ := hparams q hq
        obtain ⟨v, h1, h2⟩ := param_value htp hpn q hq
        rw [hp q hq x hx hreq, Except.ok.injEq] at h2
        exact ⟨x, hx, hreq, by rw [h2]; exact h1⟩
      · intro key hk
        exact param_absent htp key hk
      · intro i hi src hsrc hmod q hq
        obtain ⟨x, hx, hreq⟩ := hmodel i hi src hsrc hmod q hq
        obtain ⟨v, h1, h2⟩ := tensorParam_value htp htn hnd i hi q hq
        rw [hm i hi src hsrc hmod q hq x hx hreq, Except.ok.injEq] at h2
        exact ⟨x, hx, hreq, by rw [h2]; exact h1⟩
      · intro i hi key hk
        exact modelParam_absent htp hnd i.1 key hk
    obtain ⟨y, hy⟩ := hworks _ hseen
    obtain ⟨z, hz⟩ := exists_stored s w y htype
    have hts := ownTensors_all own ins hloads
    rw [← hin] at hts
    refine ⟨z, ⟨_, y, hseen, hy, hz⟩, ⟨_, hts, Or.inl ⟨y, z, ?_, hw ▸ hz, rfl⟩⟩⟩
    rw [hf, hin]
    exact hy

/-- **C112** Any merge method, from the configuration to the files.  The method is any function of the tensors and of what it looks up by name.
If every place that is not left out is ready, then - whatever order the executor chooses, with or without writer threads, for any shard size and
either format - planning succeeds and the merge ends without an exception; the output lists exactly the names of the places not left out; and
what is read for a place is (in the type asked for) what the method gives for the models' own tensors there with exactly those parameters that
the configuration sets for it, with the method's defaults elsewhere. -/
theorem C112_any_method {T E : Type} (env : Env K) (hpn : (env.params.map (·.name)).Nodup) (htn : (env.tensorParams.map (·.name)).Nodup)
    (c : MergeConfig K) (l : List (String × OutModule K)) (hl : Sections env c l) (hu : Usable env l)
    (s : Setup K T E) (f : View K → List (Ref × T) → Except E (Option T)) (hf : ∀ p ts, s.method p ts = f (viewOf p) ts)
    (own : Ref → WeightInfo → T)
    (hready : ∀ e ∈ l, ∀ w sl t ins, Place env e.1 (e.2.slices.getD []) w sl t ins → ¬ LeftOut env w ins → Ready env c s f own e.2 w sl t ins) :
    Delivers env c l s (Outcome env c s f own) :=
  usable_delivers env c l hl hu s _ (ready_expected env hpn htn c l s f hf own hready)

/-- What is right for a place may be weakened. -/
theorem delivers_mono {T E : Type} {env : Env K} {c : MergeConfig K} {l : List (String × OutModule K)} {s : Setup K T E}
    {right right' : String × OutModule K → WeightInfo → OutSlice K → K → List (Ref × WeightInfo) → T → Prop} (h : Delivers env c l s right)
    (hr : ∀ e ∈ l, ∀ w sl t ins z, Place env e.1 (e.2.slices.getD []) w sl t ins → ¬ LeftOut env w ins → right e w sl t ins z →
      right' e w sl t ins z) : Delivers env c l s right' := by
  intro group prio pop conf size hstd
  obtain ⟨mods, hp, trace, ht, fs, h1, h2, idx, h3, h4, h5⟩ := h group prio pop conf size hstd
  refine ⟨mods, hp, trace, ht, fs, h1, h2, idx, h3, h4, ?_⟩
  intro e he w sl t ins hpl hno
  obtain ⟨z, h6, h7⟩ := h5 e he w sl t ins hpl hno
  exact ⟨z, hr e he w sl t ins z hpl hno h6, h7⟩

/-- The same with what is right said by a property of the method's result. -/
theorem method_delivers {T E : Type} (env : Env K) (hpn : (env.params.map (·.name)).Nodup) (htn : (env.tensorParams.map (·.name)).Nodup)
    (c : MergeConfig K) (l : List (String × OutModule K)) (hl : Sections env c l) (hu : Usable env l)
    (s : Setup K T E) (f : View K → List (Ref × T) → Except E (Option T)) (hf : ∀ p ts, s.method p ts = f (viewOf p) ts)
    (own : Ref → WeightInfo → T) (good : String × OutModule K → WeightInfo → OutSlice K → K → List (Ref × WeightInfo) → T → Prop)
    (h : ∀ e ∈ l, ∀ w sl t ins, Place env e.1 (e.2.slices.getD []) w sl t ins → ¬ LeftOut env w ins → (ins.map Prod.fst).Nodup →
      (∀ i ∈ ins, ∃ src ∈ sl.sources, src.model = i.1) →
      (∀ i ∈ ins, (wanted s.dtype i.2).execute s.casts (s.loaders i.1) = .ok (some (own i.1 i.2))) ∧
      (storedType s.outDtype w = none ∨ ∃ n d, storedType s.outDtype w = some n ∧ (n, d) ∈ typeNames) ∧
      (∀ q ∈ env.params, ∃ x, Reads w.name t [sl.parameters.get q.name, e.2.parameters.get q.name, c.parameters.get q.name] x ∧
        (q.required = true → x ≠ none)) ∧
      (∀ i ∈ ins, ∀ src ∈ sl.sources, src.model = i.1 → ∀ q ∈ env.tensorParams, ∃ x,
        Reads i.2.name t [src.parameters.get q.name, sl.parameters.get q.name, e.2.parameters.get q.name, c.parameters.get q.name] x ∧
        (q.required = true → x ≠ none ∨ BaseIs c sl i.1)) ∧
      ∀ v, SeenAt env c e.2 w sl t ins v → ∃ y, f v (ins.map (fun i => (i.1, own i.1 i.2))) = .ok (some y) ∧ good e w sl t ins y) :
    Delivers env c l s (fun e w sl t ins z => ∃ y, good e w sl t ins y ∧ Stored s w y z) := by
  have hnd : ∀ e ∈ l, ∀ w sl t ins, Place env e.1 (e.2.slices.getD []) w sl t ins → (ins.map Prod.fst).Nodup ∧
      ∀ i ∈ ins, ∃ src ∈ sl.sources, src.model = i.1 := by
    intro e he w sl t ins hp
    obtain ⟨h1, h2⟩ := hp.models
    refine ⟨by rw [h2]; exact hu.once e he sl h1, fun i hi => ?_⟩
    have : i.1 ∈ sl.sources.map (·.model) := by rw [← h2]; exact List.mem_map.2 ⟨i, hi, rfl⟩
    obtain ⟨src, h3, h4⟩ := List.mem_map.1 this
    exact ⟨src, h3, h4⟩
  refine delivers_mono (C112_any_method env hpn htn c l hl hu s f hf own ?_) ?_
  · intro e he w sl t ins hp hno
    obtain ⟨h1, h2⟩ := hnd e he w sl t ins hp
    obtain ⟨h3, h4, h5, h6, h7⟩ := h e he w sl t ins hp hno h1 h2
    exact ⟨h3, h4, h5, h6, fun v hv => (h7 v hv).imp (fun y hy => hy.1)⟩
  · rintro e he w sl t ins z hp hno ⟨v, y, hv, hy, hz⟩
    obtain ⟨h1, h2⟩ := hnd e he w sl t ins hp
    obtain ⟨y', h8, h9⟩ := (h e he w sl t ins hp hno h1 h2).2.2.2.2 v hv
    rw [hy] at h8
    cases h8
    exact ⟨y, h9, hz⟩

/-! ## The methods modelled so far look up parameters by name only -/

theorem viewOf_eq {p p' : Planned K} (h : viewOf p = viewOf p') :
    p.weight = p'.weight ∧ p.baseModel = p'.baseModel ∧ lookup p.params = lookup p'.params ∧
    (∀ m key, (lookup p.tensorParams m).bind (fun x => lookup x key) = (lookup p'.tensorParams m).bind (fun x => lookup x key)) ∧
    ∀ m, (lookup p.tensorParams m).isSome = (lookup p'.tensorParams m).isSome :=
  ⟨congrArg View.weight h, congrArg View.base h, congrArg View.value h, fun m key => congrFun (congrFun (congrArg View.valueOf h) m) key,
    fun m => congrFun (congrArg View.known h) m⟩

theorem viewOf_weightOf {p p' : Planned K} (h : viewOf p = viewOf p') : weightOf p = weightOf p' := by
  funext m
  unfold weightOf
  rw [(viewOf_eq h).2.2.2.1]

/-- The linear method asks for nothing else. -/
theorem viewOf_linear (p p' : Planned K) (h : viewOf p = viewOf p') (ts : List (Ref × Tensor.Tensor K)) : linearTask p ts = linearTask p' ts := by
  have h1 : normalizeOf p = normalizeOf p' := by
    unfold normalizeOf
    rw [(viewOf_eq h).2.2.1]
  unfold linearTask
  rw [viewOf_weightOf h, h1, (viewOf_eq h).1]

/-- Stacking asks for nothing else. -/
theorem viewOf_passthrough (p p' : Planned K) (h : viewOf p = viewOf p') (ts : List (Ref × Tensor.Tensor K)) :
    passthroughTask p ts = passthroughTask p' ts := by
  have h1 : scaleOf p = scaleOf p' := by
    funext m
    have h3 := (viewOf_eq h).2.2.2.1 m "scale".toList
    have h4 := (viewOf_eq h).2.2.2.2 m
    unfold scaleOf
    cases ha : lookup p.tensorParams m <;> cases hb : lookup p'.tensorParams m <;> rw [ha, hb] at h3 h4
    · cases h4
    · cases h4
    · simp only [Option.bind_some] at h3
      simp only
      rw [h3]
  unfold passthroughTask
  rw [h1]

/-- Task arithmetic and its relatives ask for nothing else. -/
theorem viewOf_gta (g : GtaVariant) (tools : Tools K) (p p' : Planned K) (h : viewOf p = viewOf p') (ts : List (Ref × Tensor.Tensor K)) :
    gtaMethod g tools p ts = gtaMethod g tools p' ts := by
  have h1 : keywordOf p = keywordOf p' := by
    funext m key d
    unfold keywordOf
    rw [(viewOf_eq h).2.2.2.1]
  have h2 : truthOf p = truthOf p' := by
    funext key
    unfold truthOf
    rw [(viewOf_eq h).2.2.1]
  have h3 : flagOf p = flagOf p' := by
    funext key
    unfold flagOf
    rw [(viewOf_eq h).2.2.1]
  have h4 : numberOf p = numberOf p' := by
    funext key
    unfold numberOf
    rw [(viewOf_eq h).2.2.1]
  have h5 : sparsifyOf g tools p = sparsifyOf g tools p' := by
    funext m d
    unfold sparsifyOf
    rw [h1, h2, (viewOf_eq h).1]
  unfold gtaMethod
  rw [(viewOf_eq h).2.1, h3, h4, h5, viewOf_weightOf h, (viewOf_eq h).1]

end

/-- Spherical interpolation asks for nothing else. -/
theorem viewOf_slerp (p p' : Planned ℝ) (h : viewOf p = viewOf p') (ts : List (Ref × Tensor.Tensor ℝ)) : slerpMethod p ts = slerpMethod p' ts := by
  have h1 : fractionOf p = fractionOf p' := by
    unfold fractionOf
    rw [(viewOf_eq h).2.2.1]
  unfold slerpMethod
  rw [h1, (viewOf_eq h).2.1, (viewOf_eq h).1]

end Verif.WholeMerge
