import Verif.Props.WholeMerge
import Verif.Props.Plan
import Verif.Props.Config

/-! # C104 for a linear merge given as a list of models -/

set_option linter.unusedSectionVars false

namespace Verif.WholeMerge

open Verif.ModelRef (Str Ref)
open Verif.LoadTask (LoadTensor WeightInfo Casts Loader ownTensors typeNames)
open Verif.Plan
open Verif.Config
open Verif.Tensor (Tensor)
open Verif.Merge (OneShape weightedSum totalWeight)
open Verif.Pipeline

section
variable {K : Type} [Field K] [LinearOrder K] [IsStrictOrderedRing K] [FloorRing K]

/-- The planner's tensors. -/
def planned (mods : List (ModulePlan K)) : List (Planned K) := mods.flatMap ModulePlan.tensors

/-- What the linear method asks for: `normalize`, true unless set; a `weight` for each model, required. -/
structure LinearEnv (env : Env K) : Prop where
  params : env.params = [⟨"normalize".toList, false, some (.num 1)⟩]
  tensorParams : env.tensorParams = [⟨"weight".toList, true, none⟩]

/-- Whether a configuration asks for normalization: by default, or by any number that is not zero (`false` is zero). -/
inductive AsksNormalize : Option (Setting K) → Bool → Prop
  | unset : AsksNormalize none true
  | on (v : K) : v ≠ 0 → AsksNormalize (some (.scalar (.num v))) true
  | off : AsksNormalize (some (.scalar (.num 0))) false

/-- A configuration that lists models, each with a number as weight, and leaves everything else at its default, except that it may switch
normalization (`nz`) on or off. -/
structure Simple (c : MergeConfig K) (ms : List (InModel K)) (w : Ref → K) (nz : Bool) : Prop where
  models : c.models = some ms
  slices : c.slices = none
  base : c.baseModel = none
  normalize : AsksNormalize (c.parameters.get "normalize".toList) nz
  some_model : ms ≠ []
  once : (ms.map (·.model)).Nodup
  weight : ∀ m ∈ ms, m.parameters.get "weight".toList = some (.scalar (.num (w m.model)))

theorem planModules_mem (env : Env K) (c : MergeConfig K) : ∀ (l : List (String × OutModule K)) (mods : List (ModulePlan K)),
    planModules env c l = .ok mods → ∀ mp ∈ mods, ∃ e ∈ l, planModule env c e.1 e.2 = .ok mp := by
  intro l
  induction l with
  | nil => intro mods h mp hmp; simp only [planModules, Except.ok.injEq] at h; subst h; cases hmp
  | cons e l ih =>
    intro mods h mp hmp
    obtain ⟨n, d⟩ := e
    unfold planModules at h
    split at h
    · cases h
    · rename_i p hp
      split at h
      · cases h
      · rename_i ps hps
        cases h
        rcases List.mem_cons.1 hmp with rfl | hmp
        · exact ⟨(n, d), by simp, hp⟩
        · obtain ⟨e, he, h⟩ := ih _ hps mp hmp
          exact ⟨e, by simp [he], h⟩

theorem forall₂_fst {Q : InSlice K → Ref × WeightInfo → Prop} {sources : List (InSlice K)} {ins : List (Ref × WeightInfo)}
    (h : List.Forall₂ (fun src i => i.1 = src.model ∧ Q src i) sources ins) : ins.map Prod.fst = sources.map (·.model) := by
  induction h with
  | nil => rfl
  | cons a _ ih => simp only [List.map_cons, a.1, ih]

/-- Every planned tensor of such a configuration takes exactly the listed models. -/
theorem simple_inputs (env : Env K) (c : MergeConfig K) (ms : List (InModel K)) (w : Ref → K) (nz : Bool) (hc : Simple c ms w nz)
    (mods : List (ModulePlan K)) (hplan : plan env c = .ok mods) (p : Planned K) (hp : p ∈ planned mods) :
    ∃ (c' : MergeConfig K) (sources : List (InSlice K)) (t : K) (ins : List (Ref × WeightInfo)),
      c'.parameters = c.parameters ∧ c'.baseModel = none ∧
      sources.map (·.model) = ms.map (·.model) ∧
      (∀ src ∈ sources, src.parameters.get "weight".toList = some (.scalar (.num (w src.model)))) ∧
      ins.map Prod.fst = ms.map (·.model) ∧
      TensorPlan env (sliceReader c' ⟨some [⟨sources, none, []⟩], none, []⟩ ⟨sources, none, []⟩ t) p.weight ins (some p) := by
  obtain ⟨m0, ms', hms⟩ : ∃ m0 ms', ms = m0 :: ms' := by
    cases ms with
    | nil => exact absurd rfl hc.some_model
    | cons a b => exact ⟨a, b, rfl⟩
  obtain ⟨c', h1, h2, h3, _, _, h6⟩ := C29_models env c m0 ms' (hms ▸ hc.models) hc.slices
  unfold plan at hplan
  rw [h1] at hplan
  simp only [h6, Option.getD_some] at hplan
  obtain ⟨mp, hmp, hpm⟩ := List.mem_flatMap.1 hp
  obtain ⟨e, he, hmod⟩ := planModules_mem env c' _ mods hplan mp hmp
  obtain ⟨n, _, rfl⟩ := List.mem_map.1 he
  rw [hc.base] at h2 hmod
  set sources := fullDepth env none n (m0 :: ms') with hsrc
  have hs1 : sources.map (·.model) = ms.map (·.model) := by
    rw [hsrc, hms]; simp [fullDepth, Function.comp_def]
  have hs2 : ∀ src ∈ sources, src.parameters.get "weight".toList = some (.scalar (.num (w src.model))) := by
    intro src hin
    rw [hsrc] at hin
    simp only [fullDepth, List.append_nil] at hin
    obtain ⟨m, hm, rfl⟩ := List.mem_map.1 hin
    exact hc.weight m (hms ▸ hm)
  have hedge : ∀ wt : WeightInfo, ((sources.map (·.model)).zip (List.replicate sources.length wt)).map Prod.fst = ms.map (·.model) := by
    intro wt
    rw [List.map_fst_zip (by simp), hs1]
  obtain ⟨sl, ss, hsl, g⟩ := planModule_ok env c' n _ mp hmod
  simp only [Option.some.injEq, List.cons.injEq] at hsl
  obtain ⟨rfl, rfl⟩ := hsl
  have weight_of : ∀ {r : Reader K} {wt ins}, TensorPlan env r wt ins (some p) → p.weight = wt := by
    intro r wt ins h
    cases h with
    | planned _ hw => exact hw
  unfold ModulePlan.tensors at hpm
  obtain ⟨o, ho, hop⟩ := List.mem_filterMap.1 hpm
  simp only [id] at hop
  subst hop
  rcases List.mem_append.1 ho with ho | ho
  · rcases List.mem_append.1 ho with ho | ho
    · obtain ⟨wt, _, ht⟩ := forall₂_mem_right g.pre _ ho
      refine ⟨c', sources, 0, _, h3, h2, hs1, hs2, hedge wt, ?_⟩
      rw [weight_of ht]; exact ht
    · obtain ⟨l, hl, hpl⟩ := List.mem_flatten.1 ho
      obtain ⟨j, hj, rfl⟩ := List.getElem_of_mem hl
      have hj' : j < (layout [⟨sources, none, []⟩]).length := by rw [← g.count]; exact hj
      obtain ⟨k, hk, hkp⟩ := List.getElem_of_mem hpl
      obtain ⟨q1, q2⟩ := g.layer j _ ((layout [⟨sources, none, []⟩])[j]).1 ((layout [⟨sources, none, []⟩])[j]).2
        (List.getElem?_eq_getElem hj) (List.getElem?_eq_getElem hj')
      have hx : ((layout [(⟨sources, none, []⟩ : OutSlice K)])[j]).1 = ⟨sources, none, []⟩ := by
        have hin : ∀ e ∈ layout [(⟨sources, none, []⟩ : OutSlice K)], e.1 = ⟨sources, none, []⟩ := by
          intro e he
          simp only [layout, List.flatMap_cons, List.flatMap_nil, List.append_nil] at he
          obtain ⟨o, _, rfl⟩ := List.mem_map.1 he
          rfl
        exact hin _ (List.getElem_mem hj')
      rw [hx] at q2
      have hk' : k < (env.outLayer n j).length := by rw [← q1]; exact hk
      obtain ⟨ins, hins, ht⟩ := q2 k _ (some p) (List.getElem?_eq_getElem hk') (by rw [List.getElem?_eq_getElem hk, hkp])
      have hfst : ins.map Prod.fst = ms.map (·.model) := by
        rw [← hs1]
        exact forall₂_fst hins
      rw [← weight_of ht] at ht
      exact ⟨c', sources, _, ins, h3, h2, hs1, hs2, hfst, ht⟩
  · obtain ⟨wt, _, ht⟩ := forall₂_mem_right g.post _ ho
    refine ⟨c', sources, 0, _, h3, h2, hs1, hs2, hedge wt, ?_⟩
    rw [weight_of ht]; exact ht

theorem filterMap_head (sources : List (InSlice K)) (w : Ref → K)
    (h : ∀ src ∈ sources, src.parameters.get "weight".toList = some (.scalar (.num (w src.model)))) (m : Ref)
    (hm : m ∈ sources.map (·.model)) :
    ∃ post, sources.filterMap (fun src => if src.model = m then src.parameters.get "weight".toList else none) =
      Setting.scalar (.num (w m)) :: post := by
  induction sources with
  | nil => cases hm
  | cons s l ih =>
    by_cases hs : s.model = m
    · refine ⟨l.filterMap (fun src => if src.model = m then src.parameters.get "weight".toList else none), ?_⟩
      rw [List.filterMap_cons, if_pos hs, h s List.mem_cons_self, hs]
    · rw [List.filterMap_cons, if_neg hs]
      apply ih (fun src hsrc => h src (List.mem_cons_of_mem _ hsrc))
      rcases List.mem_cons.1 hm with h' | h'
      · exact absurd h'.symm hs
      · exact h'

theorem lookup_mem {A V : Type} [DecidableEq A] {d : List (A × V)} {k : A} (h : k ∈ d.map Prod.fst) :
    ∃ v, (k, v) ∈ d ∧ lookup d k = some v := by
  unfold lookup
  cases hf : d.find? (fun e => decide (e.1 = k)) with
  | none =>
    rw [List.find?_eq_none] at hf
    obtain ⟨e, he, rfl⟩ := List.mem_map.1 h
    exact absurd (by simp) (hf e he)
  | some e =>
    have h1 := List.mem_of_find?_eq_some hf
    have h2 := List.find?_some hf
    simp only [decide_eq_true_eq] at h2
    exact ⟨e.2, by rw [← h2]; exact h1, rfl⟩

/-- The parameters reach every planned tensor: each model's weight, and normalization. -/
theorem simple_params (env : Env K) (henv : LinearEnv env) (c : MergeConfig K) (ms : List (InModel K)) (w : Ref → K) (nz : Bool)
    (hc : Simple c ms w nz) (mods : List (ModulePlan K)) (hplan : plan env c = .ok mods) (p : Planned K) (hp : p ∈ planned mods) :
    p.inputs.map Prod.fst = ms.map (·.model) ∧ (∀ m ∈ ms.map (·.model), weightOf p m = some (w m)) ∧ normalizeOf p = nz := by
  obtain ⟨c', sources, t, ins, h1, h2, h3, h4, h5, h6⟩ := simple_inputs env c ms w nz hc mods hplan p hp
  generalize hrd : sliceReader c' ⟨some [⟨sources, none, []⟩], none, []⟩ ⟨sources, none, []⟩ t = r at h6
  cases h6 with
  | planned _ hw hopt hin hparams htensor hbase =>
    have hnd : (ins.map Prod.fst).Nodup := by rw [h5]; exact hc.once
    rw [Verif.Plan.dictOf_nodup ins hnd] at hin
    refine ⟨by rw [hin, h5], ?_, ?_⟩
    · intro m hm
      obtain ⟨tp, htp, hf⟩ := htensor
      have hfst : tp.map Prod.fst = ins.map Prod.fst := by
        clear htp hnd hin hopt h5
        induction hf with
        | nil => rfl
        | cons a _ ih => simp only [List.map_cons, a.1, ih]
      rw [Verif.Plan.dictOf_nodup tp (by rw [hfst]; exact hnd)] at htp
      obtain ⟨v, hv, hl⟩ := lookup_mem (d := p.tensorParams) (k := m) (by rw [htp, hfst, h5]; exact hm)
      rw [htp] at hv
      obtain ⟨i, hi, hi1, hi2⟩ := forall₂_mem_right hf _ hv
      simp only at hi1 hi2
      rw [henv.tensorParams] at hi2
      cases hi2 with
      | cons a rest =>
        cases rest
        rename_i e'
        obtain ⟨k, val⟩ := e'
        obtain ⟨rfl, hval⟩ := a
        simp only at hval
        obtain ⟨post, hpost⟩ := filterMap_head sources w h4 i.1 (by rw [h3]; rw [← hi1]; exact hm)
        have hlev : levels (r.forTensor i.2.name) "weight".toList (some i.1) = [] ++ Setting.scalar (.num (w i.1)) ::
            (post ++ (levels (r.forTensor i.2.name) "weight".toList none)) := by
          subst hrd
          simp only [levels, Reader.forTensor, sliceReader, List.nil_append]
          rw [hpost]
          simp [Params.get]
        have := C22_most_specific (r.forTensor i.2.name) "weight".toList (some i.1) none
          (true && !decide (some i.1 = r.baseModel)) [] _ (.scalar (.num (w i.1))) (.num (w i.1)) hlev (by simp)
          (by simp [evaluateSetting])
        rw [this] at hval
        cases hval
        unfold weightOf
        rw [hl]
        simp [lookup, hi1]
    · rw [henv.params] at hparams
      generalize hpp : p.params = pp at hparams
      cases hparams with
      | cons a rest =>
        cases rest
        rename_i e'
        obtain ⟨k, val⟩ := e'
        obtain ⟨rfl, hval⟩ := a
        simp only at hval
        have hlev : levels (r.forTensor p.weight.name) "normalize".toList none = (c.parameters.get "normalize".toList).toList := by
          subst hrd
          simp only [levels, Reader.forTensor, sliceReader, h1]
          simp [Params.get]
        unfold normalizeOf
        rw [hpp]
        have hnz := hc.normalize
        generalize c.parameters.get "normalize".toList = o at hlev hnz
        cases hnz with
        | unset =>
          rw [(C22_no_value (r.forTensor p.weight.name) "normalize".toList none (some (.num 1)) (by rw [hlev]; simp)).2] at hval
          cases hval
          simp [lookup]
        | on v hv =>
          rw [C22_most_specific (r.forTensor p.weight.name) "normalize".toList none (some (.num 1)) false [] [] (.scalar (.num v)) (.num v)
            (by rw [hlev]; rfl) (by simp) (by simp [evaluateSetting])] at hval
          cases hval
          simp [lookup, hv]
        | off =>
          rw [C22_most_specific (r.forTensor p.weight.name) "normalize".toList none (some (.num 1)) false [] [] (.scalar (.num 0)) (.num 0)
            (by rw [hlev]; rfl) (by simp) (by simp [evaluateSetting])] at hval
          cases hval
          simp [lookup]

/-- What a linear merge makes of the models' own tensors: their weighted mean, or their weighted sum without normalization. -/
theorem expected_mean (s : Setup K (Tensor K) MethodErr) (hmeth : s.method = linearTask) (p : Planned K) (w : Ref → K) (nz : Bool)
    (ts : List (Ref × Tensor K)) (hts : ownTensors s.casts s.loaders s.dtype p.inputs = .ok ts)
    (hw : ∀ e ∈ ts, weightOf p e.1 = some (w e.1)) (hn : normalizeOf p = nz) (hne : ts ≠ [])
    (sh : List Nat) (hsh : OneShape ts sh) (htot : nz = true → totalWeight w ts ≠ 0)
    (htype : storedType s.outDtype p.weight = none ∨ ∃ n d, storedType s.outDtype p.weight = some n ∧ (n, d) ∈ typeNames) :
    ∃ y z, Stored s p.weight y z ∧ Expected s p (some z) ∧ y.shape = sh ∧
      ∀ i, (nz = true → y.get i * totalWeight w ts = weightedSum w ts i) ∧ (nz = false → y.get i = weightedSum w ts i) := by
  have e1 : totalWeight (fun m => (weightOf p m).getD 0) ts = totalWeight w ts := by
    unfold totalWeight
    congr 1
    apply List.map_congr_left
    intro e he
    simp [hw e he]
  have e2 : ∀ i, weightedSum (fun m => (weightOf p m).getD 0) ts i = weightedSum w ts i := by
    intro i
    unfold weightedSum
    congr 1
    apply List.map_congr_left
    intro e he
    simp [hw e he]
  obtain ⟨y, h1, h2, h3⟩ : ∃ y, Merge.linear p.weight.isEmbed nz (fun m => (weightOf p m).getD 0) ts = .ok y ∧ y.shape = sh ∧
      ∀ i, (nz = true → y.get i * totalWeight w ts = weightedSum w ts i) ∧ (nz = false → y.get i = weightedSum w ts i) := by
    have hh := Merge.C33_weighted_mean p.weight.isEmbed (fun m => (weightOf p m).getD 0) ts sh hsh hne
    cases nz with
    | true =>
      obtain ⟨y, h1, h2, h3⟩ := hh.2 (by rw [e1]; exact htot rfl)
      exact ⟨y, h1, h2, fun i => ⟨fun _ => by rw [← e1, h3 i, e2 i], (by intro h; cases h)⟩⟩
    | false =>
      obtain ⟨y, h1, h2, h3⟩ := hh.1
      exact ⟨y, h1, h2, fun i => ⟨(by intro h; cases h), fun _ => by rw [h3 i, e2 i]⟩⟩
  have hm : s.method p ts = .ok (some y) := by
    rw [hmeth]
    unfold linearTask
    rw [if_pos (by
      rw [List.all_eq_true]
      intro e he
      rw [hw e he]
      rfl), hn, h1]
  obtain ⟨z, hz⟩ : ∃ z, Stored s p.weight y z := by
    rcases htype with h | ⟨n, d, h, hd⟩
    · exact ⟨y, .unchanged (Or.inl h)⟩
    · refine ⟨_, .cast n d h ?_ hd⟩
      rintro rfl
      simp [typeNames] at hd
  exact ⟨y, z, hz, ⟨ts, hts, Or.inl ⟨y, z, hm, hz, rfl⟩⟩, h2, h3⟩

/-- **C104** A linear merge, from the configuration to the files.  The configuration lists models with a number as weight each; every
planned weight is there in the models, in one shape, the weights do not add up to zero (unless normalization is switched off), and the data types are ones that exist.
Then - whatever order the executor chooses, with or without writer threads, for any shard size and either format - the merge ends without
an exception, the output lists exactly the planned names, and what is read under a name, whatever was read before, is (in the type asked
for) the mean of the models' tensors of that weight, each weighted as configured - or the sum, if normalization is switched off. -/
theorem C104_linear (env : Env K) (henv : LinearEnv env) (c : MergeConfig K) (ms : List (InModel K)) (w : Ref → K) (nz : Bool)
    (hc : Simple c ms w nz) (mods : List (ModulePlan K)) (hplan : plan env c = .ok mods)
    (hnames : ∀ p ∈ planned mods, ∀ q ∈ planned mods, p.weight.name = q.weight.name → p = q)
    (hplain : ∀ m ∈ ms, m.model.Plain) (hcolon : ∀ p ∈ planned mods, ∀ e ∈ p.inputs, ':' ∉ e.2.name)
    (hsome : planned mods ≠ [])
    (s : Setup K (Tensor K) MethodErr) (hmeth : s.method = linearTask)
    (own : Planned K → List (Ref × Tensor K))
    (hown : ∀ p ∈ planned mods, ownTensors s.casts s.loaders s.dtype p.inputs = .ok (own p) ∧ own p ≠ [] ∧
      (∃ sh, OneShape (own p) sh) ∧ (nz = true → totalWeight w (own p) ≠ 0) ∧
      (storedType s.outDtype p.weight = none ∨ ∃ n d, storedType s.outDtype p.weight = some n ∧ (n, d) ∈ typeNames))
    (group : Job K → String) (prio : Job K → Int) (pop : ∀ n, Graph.PopOracle n)
    (conf : Writer.Conf) (hstd : conf.Standard) (size : Tensor K → Nat) :
    ∃ trace, runTasks (jobs K s.dtype) group prio (execJob s) pop (targets (planned mods)) = some (trace, .finished) ∧
      let acts := writerRun conf size {} (handed (universeOf (jobs K s.dtype) (targets (planned mods))).1 trace)
      ∃ fs, Writer.applyOps (fun _ => none) (Writer.syncOps acts) = some fs ∧
        (∀ r, Relation.ReflTransGen Writer.Step ⟨fun _ => none, [], acts⟩ r → (∀ r', ¬ Writer.Step r r') → r.fs = fs) ∧
        ∃ idx, Writer.fromDisk fs = .ok idx ∧
          (∀ name, name ∈ idx.tensorPaths.map Prod.fst ↔ ∃ p ∈ planned mods, name = String.ofList p.weight.name) ∧
          ∀ p ∈ planned mods, ∃ y z, Stored s p.weight y z ∧ (∀ e ∈ own p, y.shape = e.2.shape) ∧
            (∀ i, (nz = true → y.get i * totalWeight w (own p) = weightedSum w (own p) i) ∧ (nz = false → y.get i = weightedSum w (own p) i)) ∧
            ∀ hist aliases raise, (Writer.getTensor fs idx (Writer.afterHistory fs idx none hist)
              (String.ofList p.weight.name) aliases raise).1 = .ok (some z) := by
  have hpar := simple_params env henv c ms w nz hc mods hplan
  have htold : ∀ p ∈ planned mods, Told p := by
    intro p hp
    refine ⟨by rw [(hpar p hp).1]; exact hc.once, ?_, hcolon p hp⟩
    intro e he
    have : e.1 ∈ ms.map (·.model) := by rw [← (hpar p hp).1]; exact List.mem_map.2 ⟨e, he, rfl⟩
    obtain ⟨m, hm, hme⟩ := List.mem_map.1 this
    rw [← hme]
    exact hplain m hm
  have hexp : ∀ p ∈ planned mods, ∃ y z, Stored s p.weight y z ∧ Expected s p (some z) ∧ (∀ e ∈ own p, y.shape = e.2.shape) ∧
      ∀ i, (nz = true → y.get i * totalWeight w (own p) = weightedSum w (own p) i) ∧ (nz = false → y.get i = weightedSum w (own p) i) := by
    intro p hp
    obtain ⟨h1, h2, ⟨sh, h3⟩, h4, h5⟩ := hown p hp
    have hw : ∀ e ∈ own p, weightOf p e.1 = some (w e.1) := by
      intro e he
      obtain ⟨wi, hwi, _⟩ := (LoadTask.C19_own_tensors s.casts s.loaders s.dtype p.inputs (own p) h1 e.1 e.2).1 he
      apply (hpar p hp).2.1
      rw [← (hpar p hp).1]
      exact List.mem_map.2 ⟨_, hwi, rfl⟩
    obtain ⟨y, z, a, b, d, e⟩ := expected_mean s hmeth p w nz (own p) h1 hw (hpar p hp).2.2 h2 sh h3 h4 h5
    exact ⟨y, z, a, b, fun x hx => by rw [d, h3 x hx], e⟩
  obtain ⟨trace, o, hr, hiff, hdisk⟩ := C104_merge_to_disk s (planned mods) htold hnames group prio pop conf hstd size
  have ho : o = .finished := hiff.2 (fun p hp => by obtain ⟨_, z, _, h, _⟩ := hexp p hp; exact ⟨_, h⟩)
  subst ho
  refine ⟨trace, hr, ?_⟩
  obtain ⟨p0, hp0⟩ := List.exists_mem_of_ne_nil _ hsome
  obtain ⟨_, z0, _, hz0, _⟩ := hexp p0 hp0
  obtain ⟨fs, g1, g2, idx, g3, g4, g5⟩ := hdisk rfl ⟨p0, hp0, z0, hz0⟩
  refine ⟨fs, g1, g2, idx, g3, ?_, ?_⟩
  · intro name
    rw [g4 name]
    constructor
    · rintro ⟨p, hp, _, _, hn⟩
      exact ⟨p, hp, hn⟩
    · rintro ⟨p, hp, hn⟩
      obtain ⟨_, z, _, h, _⟩ := hexp p hp
      exact ⟨p, hp, z, h, hn⟩
  · intro p hp
    obtain ⟨y, z, a, b, d, e⟩ := hexp p hp
    exact ⟨y, z, a, d, e, g5 p hp z b⟩

end

/-! ## A concrete case -/

/-- Two models with four layers, merged linearly with weights 1 and 3. -/
def demoEnv : Env ℚ := { sampleEnv with
  params := [⟨"normalize".toList, false, some (.num 1)⟩]
  tensorParams := [⟨"weight".toList, true, none⟩] }

def demoModels : List (InModel ℚ) :=
  [{ model := refA, parameters := [("weight".toList, .scalar (.num 1))] },
   { model := refB, parameters := [("weight".toList, .scalar (.num 3))] }]

def demoWeight (m : Ref) : ℚ := if m = refA then 1 else 3

example : LinearEnv demoEnv := ⟨rfl, rfl⟩

/-- Its plan: six weights, from both models each, with the weights configured. -/
example : ∃ mods, plan demoEnv { models := some demoModels } = .ok mods ∧
    (planned mods).map (fun p => (p.weight.name, p.inputs.map Prod.fst, weightOf p refA, weightOf p refB)) =
      [(['e'], [refA, refB], some 1, some 3), (['w'], [refA, refB], some 1, some 3), (['w', '|'], [refA, refB], some 1, some 3),
       (['w', '|', '|'], [refA, refB], some 1, some 3), (['w', '|', '|', '|'], [refA, refB], some 1, some 3),
       (['n'], [refA, refB], some 1, some 3)] := ⟨_, rfl, by decide +kernel⟩

/-- Loaders that know every name and give a vector of length one. -/
def demoLoader (x : ℚ) : Loader (Tensor ℚ) where
  names := ["e", "w", "w|", "w||", "w|||", "n"]
  fetch := fun _ => .ok ⟨[1], fun _ => x⟩
  convert := fun _ => .ok none

def demoSetup : Setup ℚ (Tensor ℚ) MethodErr where
  casts := ⟨fun _ => .float32, fun _ x => x⟩
  loaders := fun m => demoLoader (if m = refA then 2 else 10)
  dtype := none
  outDtype := none
  method := linearTask

/-- The own tensors of a weight of the plan, and their weighted mean: (1 * 2 + 3 * 10) / 4 = 8. -/
example : ∃ ts, ownTensors demoSetup.casts demoSetup.loaders demoSetup.dtype [(refA, nm 'w' 2), (refB, nm 'w' 2)] = .ok ts ∧
    OneShape ts [1] ∧ totalWeight demoWeight ts = 4 ∧ weightedSum demoWeight ts 0 / totalWeight demoWeight ts = 8 := by
  refine ⟨[(refA, ⟨[1], fun _ => 2⟩), (refB, ⟨[1], fun _ => 10⟩)], rfl, ?_, ?_, ?_⟩
  · intro e he
    simp only [List.mem_cons, List.not_mem_nil, or_false] at he
    rcases he with rfl | rfl <;> rfl
  · simp only [totalWeight, demoWeight]; decide +kernel
  · simp only [totalWeight, weightedSum, demoWeight]; decide +kernel

/-- The plan as a value. -/
def demoMods : List (ModulePlan ℚ) :=
  match plan demoEnv { models := some demoModels } with
  | .ok mods => mods
  | .error _ => []

theorem demo_plan : plan demoEnv { models := some demoModels } = .ok demoMods := rfl

theorem demo_inputs : ∀ p ∈ planned demoMods, p.inputs = [(refA, p.weight), (refB, p.weight)] ∧
    p.weight ∈ [nm 'e' 0, nm 'w' 0, nm 'w' 1, nm 'w' 2, nm 'w' 3, nm 'n' 0] := by
  decide +kernel

theorem demo_simple : Simple ({ models := some demoModels } : MergeConfig ℚ) demoModels demoWeight true where
  models := rfl
  slices := rfl
  base := rfl
  normalize := .unset
  some_model := by simp [demoModels]
  once := by decide
  weight := by
    intro m hm
    simp only [demoModels, List.mem_cons, List.not_mem_nil, or_false] at hm
    rcases hm with rfl | rfl
    · rfl
    · rfl

/-- All hypotheses of C104 are met for it. -/
example (pop : ∀ n, Graph.PopOracle n) : ∃ trace, runTasks (jobs ℚ demoSetup.dtype) (fun _ => "") (fun _ => 0) (execJob demoSetup) pop
      (targets (planned demoMods)) = some (trace, .finished) := by
  have plainA : refA.Plain := ⟨⟨by unfold ModelRef.NoSep; decide, (by rintro r hr; cases hr)⟩, (by rintro l hl; cases hl), rfl⟩
  have plainB : refB.Plain := ⟨⟨by unfold ModelRef.NoSep; decide, (by rintro r hr; cases hr)⟩, (by rintro l hl; cases hl), rfl⟩
  obtain ⟨trace, h, _⟩ := C104_linear demoEnv ⟨rfl, rfl⟩ { models := some demoModels } demoModels demoWeight true demo_simple demoMods
    demo_plan (by decide +kernel)
    (by
      intro m hm
      simp only [demoModels, List.mem_cons, List.not_mem_nil, or_false] at hm
      rcases hm with rfl | rfl
      · exact plainA
      · exact plainB)
    (by decide +kernel) (by decide +kernel) demoSetup rfl
    (fun _ => [(refA, ⟨[1], fun _ => 2⟩), (refB, ⟨[1], fun _ => 10⟩)])
    (by
      intro p hp
      obtain ⟨h1, h2⟩ := demo_inputs p hp
      refine ⟨?_, by simp, ⟨[1], ?_⟩, ?_, Or.inl ?_⟩
      · rw [h1]
        simp only [List.mem_cons, List.not_mem_nil, or_false] at h2
        rcases h2 with h | h | h | h | h | h <;> rw [h] <;> rfl
      · intro e he
        simp only [List.mem_cons, List.not_mem_nil, or_false] at he
        rcases he with rfl | rfl <;> rfl
      · simp only [totalWeight, demoWeight]; decide +kernel
      · simp only [List.mem_cons, List.not_mem_nil, or_false] at h2
        rcases h2 with h | h | h | h | h | h <;> rw [h] <;> rfl)
    (fun _ => "") (fun _ => 0) pop ⟨100, true, none⟩ (by constructor <;> rfl) (fun _ => 4)
  exact ⟨trace, h⟩

end Verif.WholeMerge
