import Verif.Model.Genome
import Verif.Model.Sphere
import Verif.Props.Config
import Verif.Props.Plan
import Mathlib.Analysis.SpecialFunctions.Exp

/-! # C61: genomes describe complete models -/

namespace Verif.Genome

open Verif.ModelRef (Str Ref)
open Verif.Config (Scalar Cond Elem Setting Params InSlice InModel OutSlice MergeConfig Reader evaluateSetting numbers)

/-! ## Specification -/

section
variable {K : Type}

/-- A genotype has the right shape: one group of numbers per layer group (the groups make up the model, and there is a single one
without granularity), per model, per filter plus one, per parameter of the method. -/
structure RightShape (g : Genome) (x : Geno K) : Prop where
  layers : x.groups * (if 0 < g.definition.granularity then g.definition.granularity.toNat else g.numLayers) = g.numLayers
  single : g.definition.granularity ≤ 0 → x.groups = 1
  models : x.models = g.definition.models.length
  sets : x.sets = (g.definition.filters.getD []).length + 1
  params : x.params = g.definition.method.params.length

/-- The layers a source contributes, in order. -/
def layersOf (s : InSlice K) : List Int := (List.range (s.stop - s.start).toNat).map (fun (o : Nat) => s.start + o)

/-- The slices cover the layers 0..n-1 exactly once in order, and all sources of a slice take the same layers. -/
def Covers (slices : List (OutSlice K)) (n : Nat) : Prop :=
  (∀ s ∈ slices, s.sources ≠ [] ∧ ∀ a ∈ s.sources, ∀ b ∈ s.sources, a.start = b.start ∧ a.stop = b.stop) ∧
  slices.flatMap (fun s => (s.sources.head?.map layersOf).getD []) = (List.range n).map (fun (j : Nat) => (j : Int))

/-- A filter fits a tensor name: it is "*" or occurs in it. -/
def Fits (f n : Str) : Prop := f = ['*'] ∨ ∃ a b, n = a ++ f ++ b

/-- The parameter set for a tensor: that of the first filter that fits, and the last one if none does. -/
def IsSet (filters : List Str) (n : Str) (s : Nat) : Prop :=
  s ≤ filters.length ∧ (∀ f, filters[s]? = some f → Fits f n) ∧ ∀ j < s, ∀ f, filters[j]? = some f → ¬ Fits f n

/-- The first place of a model among the models. -/
def FirstAt (models : List Ref) (k : Nat) (m : Ref) : Prop := models[k]? = some m ∧ ∀ j < k, models[j]? ≠ some m

end

/-! ## The parts of a configuration -/

section
variable {K : Type} [Field K] [LinearOrder K]

theorem mapM_eq {A B E : Type} (f : A → Except E B) (h : A → B) (l : List A) (hf : ∀ a ∈ l, f a = .ok (h a)) :
    l.mapM f = .ok (l.map h) := by
  induction l with
  | nil => rfl
  | cons a l ih =>
    rw [List.mapM_cons, hf a (by simp), ih (fun b hb => hf b (by simp [hb]))]
    rfl

theorem filterAt_ok (d : Definition) (fs : List Str) (hfs : d.filters = some fs) (s : Nat) (hs : s ≤ fs.length) :
    filterAt d s = .ok fs[s]? := by
  unfold filterAt
  rw [hfs]
  have : (fs.map some ++ [none])[s]? = some fs[s]? := by
    rcases Nat.lt_or_eq_of_le hs with h | h
    · rw [List.getElem?_append_left (by simpa using h)]
      simp [h]
    · subst h
      rw [List.getElem?_append_right (by simp)]
      simp
  simp only [this]

/-- A value by itself. -/
def form : Scalar K ⊕ List (Scalar K) → Setting K
  | .inl x => .scalar x
  | .inr l => .list (l.map .scalar)

/-- The setting for given filters. -/
def settingOf (fs : List Str) (value : Nat → Scalar K ⊕ List (Scalar K)) : Setting K :=
  if fs = [] then form (value 0) else .list ((List.range (fs.length + 1)).map (fun s => .cond ⟨value s, fs[s]?⟩))

theorem setting_eq (d : Definition) (value : Nat → Scalar K ⊕ List (Scalar K)) :
    setting d ((d.filters.getD []).length + 1) value = .ok (settingOf (d.filters.getD []) value) := by
  unfold setting settingOf
  by_cases h : d.filters.getD [] = []
  · rw [h]
    simp only [List.length_nil, Nat.zero_add, lt_irrefl, if_false, one_ne_zero, if_true]
    cases value 0 <;> rfl
  · have hl : 1 < (d.filters.getD []).length + 1 := by
      have := List.length_pos_iff.2 h; omega
    rw [if_pos hl, if_neg h]
    cases hf : d.filters with
    | none => simp [hf] at h
    | some fs =>
      simp only [Option.getD_some]
      rw [mapM_eq (entry d value) (fun s => .cond ⟨value s, fs[s]?⟩)]
      intro s hs
      unfold entry
      rw [filterAt_ok d fs hf s (by have := List.mem_range.1 hs; omega)]

/-- The parameters of a model. -/
def paramsOf (d : Definition) (value : Str → Nat → Nat → Scalar K ⊕ List (Scalar K)) : Params K :=
  d.method.params.zipIdx.map (fun e => (e.1, settingOf (d.filters.getD []) (value e.1 e.2)))

theorem modelParams_eq (d : Definition) (value : Str → Nat → Nat → Scalar K ⊕ List (Scalar K)) :
    modelParams d ((d.filters.getD []).length + 1) value = .ok (paramsOf d value) := by
  unfold modelParams paramsOf
  refine mapM_eq _ _ _ ?_
  intro e _
  unfold oneParam
  rw [setting_eq]

theorem paramsOf_get (d : Definition) (value : Str → Nat → Nat → Scalar K ⊕ List (Scalar K)) (q : Nat) (p : Str)
    (hp : d.method.params[q]? = some p) :
    (paramsOf d value).get p = some (settingOf (d.filters.getD []) (value p q)) := by
  unfold paramsOf Params.get
  cases hm : d.method <;> rw [hm] at hp <;> simp only [Method.params] at hp ⊢ <;>
    rcases q with _ | _ | q <;> simp at hp <;> subst hp <;> simp [List.zipIdx]

variable [FloorRing K]

theorem eval_settingOf (fs : List Str) (value : Nat → Scalar K ⊕ List (Scalar K)) (n : Str) (hn : n ≠ []) (s : Nat)
    (hs : IsSet fs n s) (t : K) :
    evaluateSetting (some n) (settingOf fs value) t = evaluateSetting (some n) (form (value s)) t := by
  obtain ⟨h1, h2, h3⟩ := hs
  unfold settingOf
  by_cases hf : fs = []
  · subst hf
    have : s = 0 := by simpa using h1
    subst this
    simp
  · rw [if_neg hf]
    have hsplit : List.range (fs.length + 1) = List.range s ++ s :: (List.range' (s + 1) (fs.length - s)) := by
      rw [List.range_eq_range', List.range_eq_range']
      have : s :: List.range' (s + 1) (fs.length - s) = List.range' s (fs.length - s + 1) := by
        rw [List.range'_succ]
      rw [this]
      have h4 := List.range'_append (s := 0) (m := s) (n := fs.length - s + 1) (step := 1)
      simp only [one_mul, zero_add] at h4
      rw [h4]
      congr 1
      omega
    have hl : (List.range (fs.length + 1)).map (fun s => Elem.cond (⟨value s, fs[s]?⟩ : Cond K)) =
        (((List.range s).map (fun s => (⟨value s, fs[s]?⟩ : Cond K))) ++ (⟨value s, fs[s]?⟩ : Cond K) ::
          ((List.range' (s + 1) (fs.length - s)).map (fun s => (⟨value s, fs[s]?⟩ : Cond K)))).map Elem.cond := by
      rw [hsplit]
      simp [Function.comp_def]
    rw [hl, Config.C21_first_match]
    · unfold Cond.setting form
      cases value s <;> rfl
    · intro c hc
      obtain ⟨j, hj, rfl⟩ := List.mem_map.1 hc
      have hj := List.mem_range.1 hj
      have hlt : j < fs.length := by omega
      rintro (h | h | ⟨f, n', hf', hn', _, a, b, hab⟩)
      · simp [hlt] at h
      · exact h3 j hj _ h (Or.inl rfl)
      · cases hn'
        exact h3 j hj f hf' (Or.inr ⟨a, b, hab⟩)
    · cases hcase : fs[s]? with
      | none => exact Or.inl rfl
      | some f =>
        rcases h2 f hcase with rfl | ⟨a, b, hab⟩
        · exact Or.inr (Or.inl rfl)
        · exact Or.inr (Or.inr ⟨f, n, rfl, rfl, hn, a, b, hab⟩)

theorem parameter_first (r : Reader K) (s : OutSlice K) (hs : r.sliceOut = some s) (name : Str) (m : Ref)
    (pre post : List (InSlice K)) (src : InSlice K) (hsrc : s.sources = pre ++ src :: post)
    (hpre : ∀ p ∈ pre, p.model ≠ m) (hm : src.model = m) (st : Setting K) (hget : src.parameters.get name = some st)
    (v : Scalar K) (hv : evaluateSetting r.tensorName st r.t = .ok (some v)) (default : Option (Scalar K)) (required : Bool) :
    r.parameter name (some m) default required = .ok (some v) := by
  have hl : ∃ post', Config.levels r name (some m) = [] ++ st :: post' := by
    unfold Config.levels
    rw [hs]
    simp only [hsrc, List.filterMap_append, List.filterMap_cons, hm, if_true, hget]
    have : pre.filterMap (fun src => if src.model = m then src.parameters.get name else none) = [] := by
      rw [List.filterMap_eq_nil_iff]
      intro p hp
      rw [if_neg (hpre p hp)]
    rw [this]
    simp only [List.nil_append, List.cons_append]
    exact ⟨_, rfl⟩
  obtain ⟨post', hl⟩ := hl
  exact Config.C22_most_specific r name (some m) default required [] post' st v hl (by simp) hv

end

/-! ## Slices -/

section
variable {K : Type} [Field K] [LinearOrder K]

/-- The source of model `m` in slice `i`. -/
def sourceOf (g : Genome) (x : Geno K) (i : Nat) (e : Ref × Nat) : InSlice K :=
  { model := e.1, start := (i * g.step : Nat), stop := ((i + 1) * g.step : Nat),
    parameters := paramsOf g.definition (groupValue g.definition x i e.2) }

/-- Slice `i`. -/
def sliceOf (g : Genome) (x : Geno K) (i : Nat) : OutSlice K :=
  { sources := g.definition.models.zipIdx.map (sourceOf g x i) ++ baseSources g i }

theorem discreteSlice_eq (g : Genome) (x : Geno K) (h : x.sets = (g.definition.filters.getD []).length + 1) (i : Nat) :
    discreteSlice g x i = .ok (sliceOf g x i) := by
  unfold discreteSlice
  rw [mapM_eq (source g x i) (sourceOf g x i)]
  · rfl
  · intro e _
    unfold source
    rw [h, modelParams_eq]
    rfl

theorem groups_step (g : Genome) (x : Geno K) (h : RightShape g x) : x.groups * g.step = g.numLayers := by
  unfold Genome.step
  exact h.layers

theorem shapeOk_of (g : Genome) (x : Geno K) (h : RightShape g x) : shapeOk g x = true := by
  unfold shapeOk
  have h1 := h.layers
  simp only [h.models, h.params, Bool.and_eq_true, decide_eq_true_eq, and_true, Bool.or_eq_true, Bool.not_eq_true',
    decide_eq_false_iff_not]
  by_cases hg : g.definition.granularity > 0
  · right
    rw [if_pos hg] at h1
    have : g.definition.granularity = (g.definition.granularity.toNat : Int) := by omega
    rw [this]
    exact_mod_cast h1
  · left; exact hg

theorem groups_pos (g : Genome) (x : Geno K) (h : RightShape g x) (hn : 0 < g.numLayers) : 0 < x.groups := by
  have := groups_step g x h
  rcases Nat.eq_zero_or_pos x.groups with h0 | h0
  · rw [h0] at this; omega
  · exact h0

theorem blocks (step : Nat) (n : Nat) :
    (List.range n).flatMap (fun i => (List.range step).map (fun (o : Nat) => ((i * step : Nat) : Int) + o)) =
      (List.range (n * step)).map (fun (j : Nat) => (j : Int)) := by
  induction n with
  | zero => simp
  | succ n ih =>
    rw [List.range_succ, List.flatMap_append, ih, Nat.succ_mul, List.range_add]
    simp

/-- Slices whose sources all take the i-th block of layers cover the model. -/
theorem covers_of (step n : Nat) (f : Nat → OutSlice K)
    (h : ∀ i, (f i).sources ≠ [] ∧ ∀ a ∈ (f i).sources, a.start = (i * step : Nat) ∧ a.stop = ((i + 1) * step : Nat)) :
    Covers ((List.range n).map f) (n * step) := by
  constructor
  · intro s hs
    obtain ⟨i, _, rfl⟩ := List.mem_map.1 hs
    refine ⟨(h i).1, ?_⟩
    intro a ha b hb
    have h1 := (h i).2 a ha
    have h2 := (h i).2 b hb
    exact ⟨h1.1.trans h2.1.symm, h1.2.trans h2.2.symm⟩
  · rw [← blocks, List.flatMap_map]
    congr 1
    funext i
    obtain ⟨hne, hall⟩ := h i
    obtain ⟨a, l, hal⟩ := List.exists_cons_of_ne_nil hne
    have ha := hall a (by rw [hal]; simp)
    rw [hal]
    simp only [List.head?_cons, Option.map_some, Option.getD_some, layersOf, ha.1, ha.2]
    have : (((i + 1) * step : Nat) : Int) - ((i * step : Nat) : Int) = (step : Int) := by push_cast; ring
    rw [this]
    simp

theorem baseSources_range (g : Genome) (i : Nat) (a : InSlice K) (ha : a ∈ baseSources g i) :
    a.start = (i * g.step : Nat) ∧ a.stop = ((i + 1) * g.step : Nat) := by
  unfold baseSources at ha
  obtain ⟨b, _, rfl⟩ := List.mem_map.1 ha
  exact ⟨rfl, rfl⟩

theorem sliceOf_range (g : Genome) (x : Geno K) (hm : g.definition.models ≠ []) (i : Nat) :
    (sliceOf g x i).sources ≠ [] ∧
      ∀ a ∈ (sliceOf g x i).sources, a.start = (i * g.step : Nat) ∧ a.stop = ((i + 1) * g.step : Nat) := by
  unfold sliceOf
  constructor
  · obtain ⟨m, ms, hmm⟩ := List.exists_cons_of_ne_nil hm
    simp [hmm, List.zipIdx]
  · intro a ha
    rcases List.mem_append.1 ha with h | h
    · obtain ⟨e, _, rfl⟩ := List.mem_map.1 h
      exact ⟨rfl, rfl⟩
    · exact baseSources_range g i a h

theorem sliceOf_models (g : Genome) (x : Geno K) (i : Nat) :
    (sliceOf g x i).sources.map (·.model) = g.definition.models ++ extraBase g.definition := by
  have h1 : (sliceOf g x i).sources.map (·.model) =
      (g.definition.models.zipIdx.map (sourceOf g x i)).map (·.model) ++ (baseSources (K := K) g i).map (·.model) := by
    simp [sliceOf]
  have h2 : (g.definition.models.zipIdx.map (sourceOf g x i)).map (·.model) = g.definition.models := by
    rw [List.map_map]
    have : ((·.model) ∘ sourceOf g x i) = Prod.fst := rfl
    rw [this]
    simp
  rw [h1, h2]
  simp [baseSources, Function.comp_def]

theorem truthy_range_map {α : Type} (n : Nat) (h : 0 < n) (f : Nat → α) :
    Config.truthy (some ((List.range n).map f)) = true := by
  cases n with
  | zero => omega
  | succ n => rw [List.range_succ_eq_map]; rfl

theorem assemble_valid_slices (d : Definition) (ss : List (OutSlice K)) (h : Config.truthy (some ss) = true) :
    (assemble d (some ss, none)).valid = true := by
  cases ss with
  | nil => simp [Config.truthy] at h
  | cons a l =>
    simp [MergeConfig.valid, MergeConfig.validModules, MergeConfig.validInputs, MergeConfig.validTokenizer, assemble,
      Config.truthy]

theorem assemble_valid_models (d : Definition) (ms : List (InModel K)) (h : Config.truthy (some ms) = true) :
    (assemble d (none, some ms)).valid = true := by
  cases ms with
  | nil => simp [Config.truthy] at h
  | cons a l =>
    simp [MergeConfig.valid, MergeConfig.validModules, MergeConfig.validInputs, MergeConfig.validTokenizer, assemble,
      Config.truthy]

theorem mergeConfig_discrete (ops : Ops K) (g : Genome) (x : Geno K) (h : RightShape g x) (hn : 0 < g.numLayers)
    (hs : g.definition.method ≠ .slerp) (hsm : g.definition.smooth = false) :
    mergeConfig ops g (.four x) = .ok (assemble g.definition (some ((List.range x.groups).map (sliceOf g x)), none)) := by
  unfold mergeConfig
  simp only [Genome.toTorch, shapeOk_of g x h, if_true]
  have hsec : sections ops g x = .ok (some ((List.range x.groups).map (sliceOf g x)), none) := by
    unfold sections
    rw [if_neg hs, hsm]
    simp only [Bool.false_eq_true, if_false]
    rw [mapM_eq (discreteSlice g x) (sliceOf g x) _ (fun i _ => discreteSlice_eq g x h.sets i)]
  rw [hsec]
  simp only
  rw [if_pos (assemble_valid_slices _ _ (truthy_range_map _ (groups_pos g x h hn) _))]

/-- The numbers of the genotype as they are meant: densities within [0,1], weights not negative unless allowed. -/
def meaning (d : Definition) (param : Str) (v : K) : K :=
  if param = cs!"density" then min |v| 1 else if d.allowNegative then v else |v|

theorem processed_eq [IsStrictOrderedRing K] (d : Definition) (hs : d.method ≠ .slerp) (q : Nat) (p : Str) (hp : d.method.params[q]? = some p) (v : K) :
    processed d.allowNegative p v = meaning d p v := by
  have hpp : p = cs!"weight" ∨ p = cs!"density" := by
    cases hm : d.method <;> rw [hm] at hp <;> simp only [Method.params] at hp <;>
      rcases q with _ | _ | q <;> simp at hp <;> subst hp <;> simp_all
  unfold processed meaning
  rcases hpp with rfl | rfl
  · have : (cs!"weight" : Str) ≠ cs!"density" := by decide
    rw [if_neg this, if_neg this]
    cases d.allowNegative <;> simp
  · have h1 : (cs!"density" : Str) ≠ cs!"weight" := by decide
    have h2 : (cs!"density" : Str) ≠ cs!"t" := by decide
    simp [h1, h2, abs_nonneg]

end

/-- **C61** Every genotype of the right shape becomes a configuration made of one slice per layer group; the slices cover the
layers 0..n-1 exactly once in order, every model takes part in every slice, and a base model that is not among the models takes
part as well. -/
theorem C61_slices {K : Type} [Field K] [LinearOrder K] (ops : Ops K) (g : Genome) (x : Geno K) (h : RightShape g x)
    (hn : 0 < g.numLayers) (hm : g.definition.models ≠ []) (hs : g.definition.method ≠ .slerp)
    (hsm : g.definition.smooth = false) :
    ∃ c slices, mergeConfig ops g (.four x) = .ok c ∧ c.valid = true ∧ c.slices = some slices ∧ c.models = none ∧
      c.modules = none ∧ c.baseModel = g.definition.baseModel ∧ slices.length = x.groups ∧ Covers slices g.numLayers ∧
      ∀ s ∈ slices, s.baseModel = none ∧ s.parameters.map Prod.fst = [] ∧
        ∀ m, m ∈ s.sources.map (·.model) ↔ m ∈ g.definition.models ∨ g.definition.baseModel = some m := by
  refine ⟨_, _, mergeConfig_discrete ops g x h hn hs hsm,
    assemble_valid_slices _ _ (truthy_range_map _ (groups_pos g x h hn) _), rfl, rfl, rfl, rfl, by simp, ?_, ?_⟩
  · rw [← groups_step g x h]
    exact covers_of _ _ _ (sliceOf_range g x hm)
  · intro s hs
    obtain ⟨i, _, rfl⟩ := List.mem_map.1 hs
    refine ⟨rfl, rfl, ?_⟩
    intro m
    rw [sliceOf_models, List.mem_append]
    unfold extraBase
    cases hb : g.definition.baseModel with
    | none => simp
    | some b =>
      by_cases hbm : b ∈ g.definition.models
      · simp only [hbm, if_true, List.not_mem_nil, or_false, Option.some.injEq]
        constructor
        · exact Or.inl
        · rintro (h | rfl) <;> assumption
      · simp [hbm, eq_comm]

section
variable {K : Type} [Field K] [LinearOrder K] [FloorRing K]

theorem firstAt_split (g : Genome) (x : Geno K) (i k : Nat) (m : Ref) (h : FirstAt g.definition.models k m) :
    ∃ pre post, (sliceOf g x i).sources = pre ++ sourceOf g x i (m, k) :: post ∧ ∀ p ∈ pre, p.model ≠ m := by
  obtain ⟨h1, h2⟩ := h
  obtain ⟨hk, hmk⟩ := List.getElem?_eq_some_iff.1 h1
  have hz : g.definition.models.zipIdx[k]? = some (m, k) := by
    rw [List.getElem?_zipIdx, h1]; simp
  obtain ⟨hkz, hzz⟩ := List.getElem?_eq_some_iff.1 hz
  have hsplit : g.definition.models.zipIdx = g.definition.models.zipIdx.take k ++ (m, k) :: g.definition.models.zipIdx.drop (k + 1) := by
    rw [← hzz, List.cons_getElem_drop_succ, List.take_append_drop]
  refine ⟨(g.definition.models.zipIdx.take k).map (sourceOf g x i),
    (g.definition.models.zipIdx.drop (k + 1)).map (sourceOf g x i) ++ baseSources g i, ?_, ?_⟩
  · unfold sliceOf
    simp only
    conv_lhs => rw [hsplit]
    simp
  · intro p hp
    obtain ⟨e, he, rfl⟩ := List.mem_map.1 hp
    obtain ⟨j, hj, hej⟩ := List.mem_iff_getElem.1 he
    have hjk : j < k := by
      have := hj; rw [List.length_take] at this; omega
    have hj' : j < g.definition.models.length := by omega
    have : e.1 = g.definition.models[j] := by
      rw [← hej, List.getElem_take, List.getElem_zipIdx]
    show e.1 ≠ m
    rw [this]
    intro hh
    exact h2 j hjk (by rw [List.getElem?_eq_getElem hj', hh])

/-- **C61** What the merge reads: in the slice of layer group `i`, for a tensor named `n`, the parameter `p` of a model is the number
of the genotype for that group, model, parameter and the parameter set of the tensor - as a density clamped to [0,1], as a weight
without sign unless negative weights are allowed. -/
theorem C61_values [IsStrictOrderedRing K] (ops : Ops K) (g : Genome) (x : Geno K) (h : RightShape g x) (hn : 0 < g.numLayers)
    (hs : g.definition.method ≠ .slerp) (hsm : g.definition.smooth = false) :
    ∃ c slices, mergeConfig ops g (.four x) = .ok c ∧ c.slices = some slices ∧
      ∀ i s, slices[i]? = some s → ∀ r : Reader K, r.sliceOut = some s → ∀ n, r.tensorName = some n → n ≠ [] →
        ∀ set, IsSet (g.definition.filters.getD []) n set → ∀ k m, FirstAt g.definition.models k m →
        ∀ q p, g.definition.method.params[q]? = some p → ∀ default required,
          r.parameter p (some m) default required = .ok (some (.num (
            if p = cs!"density" then min |x.at' i k set q| 1
            else if g.definition.allowNegative then x.at' i k set q else |x.at' i k set q|))) := by
  refine ⟨_, _, mergeConfig_discrete ops g x h hn hs hsm, rfl, ?_⟩
  intro i s hi r hr n hname hn0 set hset k m hk q p hp default required
  rw [List.getElem?_map] at hi
  obtain ⟨i', hi', rfl⟩ := Option.map_eq_some_iff.1 hi
  obtain ⟨hlt, hii⟩ := List.getElem?_eq_some_iff.1 hi'
  rw [List.getElem_range] at hii
  subst hii
  obtain ⟨pre, post, hsplit, hpre⟩ := firstAt_split g x i k m hk
  refine parameter_first r _ hr p m pre post _ hsplit hpre rfl _ (paramsOf_get _ _ q p hp) _ ?_ default required
  rw [hname, eval_settingOf _ _ n hn0 set hset]
  simp only [groupValue, form, evaluateSetting, processed_eq g.definition hs q p hp, meaning]

end

/-! ## Smooth genomes -/

section
variable {K : Type} [Field K] [LinearOrder K]

/-- The entry of a model. -/
def modelOf (d : Definition) (x : Geno K) (e : Ref × Nat) : InModel K :=
  { model := e.1, parameters := paramsOf d (smoothValue d x e.2) }

theorem smoothModels_eq (d : Definition) (x : Geno K) (h : x.sets = (d.filters.getD []).length + 1) :
    smoothModels d x = .ok (d.models.zipIdx.map (modelOf d x) ++ (extraBase d).map (fun b => { model := b })) := by
  unfold smoothModels
  rw [mapM_eq (smoothModel d x) (modelOf d x)]
  intro e _
  unfold smoothModel
  rw [h, modelParams_eq]
  rfl

theorem mergeConfig_smooth (ops : Ops K) (g : Genome) (x : Geno K) (h : RightShape g x) (hm : g.definition.models ≠ [])
    (hs : g.definition.method ≠ .slerp) (hsm : g.definition.smooth = true) :
    mergeConfig ops g (.four x) = .ok (assemble g.definition (none, some (g.definition.models.zipIdx.map (modelOf g.definition x) ++
      (extraBase g.definition).map (fun b => { model := b })))) := by
  unfold mergeConfig
  simp only [Genome.toTorch, shapeOk_of g x h, if_true]
  have hsec : sections ops g x = .ok (none, some (g.definition.models.zipIdx.map (modelOf g.definition x) ++
      (extraBase g.definition).map (fun b => { model := b }))) := by
    unfold sections
    rw [if_neg hs, hsm, if_pos rfl, smoothModels_eq _ _ h.sets]
  rw [hsec]
  simp only
  rw [if_pos (assemble_valid_models _ _ ?_)]
  obtain ⟨m, ms, hmm⟩ := List.exists_cons_of_ne_nil hm
  rw [hmm, List.zipIdx_cons]
  rfl

theorem unpack_numbers [FloorRing K] [IsStrictOrderedRing K] (nm : Option Str) (l : List K) (hl : l ≠ []) (t : K) :
    evaluateSetting nm (form (unpack (l.map .num))) t = evaluateSetting nm (numbers l) t := by
  rcases l with _ | ⟨a, _ | ⟨b, l⟩⟩
  · exact absurd rfl hl
  · rw [Config.C20_single]; rfl
  · simp [unpack, form, numbers, Function.comp_def]

end

/-- **C61** Smooth genomes: the configuration lists every model (and a base model not among them), and a merge that takes all of them
reads for each parameter a value that runs through the numbers of the layer groups: that of group `i` at depth i/(groups-1), and between
the smallest and the largest of them everywhere - in particular densities stay within [0,1] and weights are not negative unless
allowed. -/
theorem C61_smooth {K : Type} [Field K] [LinearOrder K] [FloorRing K] [IsStrictOrderedRing K] (ops : Ops K) (g : Genome)
    (x : Geno K) (h : RightShape g x) (hn : 0 < g.numLayers) (hm : g.definition.models ≠ [])
    (hs : g.definition.method ≠ .slerp) (hsm : g.definition.smooth = true) :
    ∃ c ms, mergeConfig ops g (.four x) = .ok c ∧ c.valid = true ∧ c.models = some ms ∧ c.slices = none ∧ c.modules = none ∧
      c.baseModel = g.definition.baseModel ∧
      (∀ m, m ∈ ms.map (·.model) ↔ m ∈ g.definition.models ∨ g.definition.baseModel = some m) ∧
      ∀ r : Reader K, ∀ s, r.sliceOut = some s → (∃ depth : Ref → Int, s.sources = ms.map (fun e => ⟨e.model, 0, depth e.model, e.parameters⟩)) →
        ∀ n, r.tensorName = some n → n ≠ [] →
        ∀ set, IsSet (g.definition.filters.getD []) n set → ∀ k m, FirstAt g.definition.models k m →
        ∀ q p, g.definition.method.params[q]? = some p → ∀ default required,
          (0 ≤ r.t → r.t ≤ 1 → ∀ lo hi, (∀ i < x.groups, lo ≤ meaning g.definition p (x.at' i k set q) ∧ meaning g.definition p (x.at' i k set q) ≤ hi) →
            ∃ v, r.parameter p (some m) default required = .ok (some (.num v)) ∧ lo ≤ v ∧ v ≤ hi) ∧
          (∀ i < x.groups, 2 ≤ x.groups → r.t = (i : K) / ((x.groups : K) - 1) →
            r.parameter p (some m) default required = .ok (some (.num (meaning g.definition p (x.at' i k set q))))) ∧
          (x.groups = 1 → r.parameter p (some m) default required = .ok (some (.num (meaning g.definition p (x.at' 0 k set q))))) := by
  have hg := groups_pos g x h hn
  refine ⟨_, _, mergeConfig_smooth ops g x h hm hs hsm, ?_, rfl, rfl, rfl, rfl, ?_, ?_⟩
  · apply assemble_valid_models
    obtain ⟨m, ms, hmm⟩ := List.exists_cons_of_ne_nil hm
    rw [hmm, List.zipIdx_cons]
    rfl
  · intro m
    have h1 : (g.definition.models.zipIdx.map (modelOf g.definition x)).map (·.model) = g.definition.models := by
      rw [List.map_map]
      have : ((·.model) ∘ modelOf g.definition x) = Prod.fst := rfl
      rw [this]; simp
    rw [List.map_append, h1]
    unfold extraBase
    cases hb : g.definition.baseModel with
    | none => simp
    | some b =>
      by_cases hbm : b ∈ g.definition.models
      · simp only [hbm, if_true, List.map_nil, List.append_nil, Option.some.injEq]
        constructor
        · exact Or.inl
        · rintro (h | rfl) <;> assumption
      · simp [hbm, eq_comm]
  · rintro r s hr ⟨depth, hsrc⟩ n hname hn0 set hset k m hk q p hp default required
    obtain ⟨h1, h2⟩ := hk
    have hz : g.definition.models.zipIdx[k]? = some (m, k) := by
      rw [List.getElem?_zipIdx, h1]; simp
    obtain ⟨hkz, hzz⟩ := List.getElem?_eq_some_iff.1 hz
    have hsplit : g.definition.models.zipIdx = g.definition.models.zipIdx.take k ++ (m, k) :: g.definition.models.zipIdx.drop (k + 1) := by
      rw [← hzz, List.cons_getElem_drop_succ, List.take_append_drop]
    let src : InModel K → InSlice K := fun e => ⟨e.model, 0, depth e.model, e.parameters⟩
    have hsrc' : s.sources = (g.definition.models.zipIdx.take k).map (fun e => src (modelOf g.definition x e)) ++
        src (modelOf g.definition x (m, k)) :: ((g.definition.models.zipIdx.drop (k + 1)).map (fun e => src (modelOf g.definition x e)) ++
          (extraBase g.definition).map (fun b => src { model := b })) := by
      rw [hsrc]
      conv_lhs => rw [hsplit]
      simp [src, Function.comp_def]
    have hpre : ∀ e ∈ (g.definition.models.zipIdx.take k).map (fun e => src (modelOf g.definition x e)), e.model ≠ m := by
      intro p hp
      obtain ⟨e, he, rfl⟩ := List.mem_map.1 hp
      obtain ⟨j, hj, hej⟩ := List.mem_iff_getElem.1 he
      have hjk : j < k := by
        have := hj; rw [List.length_take] at this; omega
      have hj' : j < g.definition.models.length := by
        have := hj; rw [List.length_take, List.length_zipIdx] at this; omega
      have : e.1 = g.definition.models[j] := by
        rw [← hej, List.getElem_take, List.getElem_zipIdx]
      show e.1 ≠ m
      rw [this]
      intro hh
      exact h2 j hjk (by rw [List.getElem?_eq_getElem hj', hh])
    let l := (List.range x.groups).map (fun i => meaning g.definition p (x.at' i k set q))
    have hll : l.length = x.groups := by simp [l]
    have hlne : l ≠ [] := by
      intro h0; rw [h0] at hll; simp at hll; omega
    have heval : ∀ v, evaluateSetting r.tensorName (numbers l) r.t = .ok (some v) →
        r.parameter p (some m) default required = .ok (some v) := by
      intro v hv
      refine parameter_first r s hr p m _ _ _ hsrc' hpre rfl _ (paramsOf_get _ _ q p hp) _ ?_ default required
      rw [hname, eval_settingOf _ _ n hn0 set hset, ← hv, hname, ← unpack_numbers (some n) l hlne]
      congr 2
      unfold smoothValue
      congr 1
      simp only [l, List.map_map, Function.comp_def, processed_eq g.definition hs q p hp]
    refine ⟨?_, ?_, ?_⟩
    · intro t0 t1 lo hi hb
      obtain ⟨v, hv, hlo, hhi⟩ := Config.C20_bounds r.tensorName l hlne r.t lo hi t0 t1 (by
        intro y hy
        obtain ⟨i, hi', rfl⟩ := List.mem_map.1 hy
        exact hb i (List.mem_range.1 hi'))
      exact ⟨v, heval _ hv, hlo, hhi⟩
    · intro i hi h2' ht
      apply heval
      rw [ht, ← hll, Config.C20_points r.tensorName l i (by omega) (by omega)]
      simp [l]
    · intro h1'
      apply heval
      have : l = [meaning g.definition p (x.at' 0 k set q)] := by simp [l, h1']
      rw [this, Config.C20_single]

/-! ## Spherical interpolation -/

/-- What is asked of the choice of the two largest elements: different places, the first with the largest element, the second with the largest
of the others. -/
structure IsTop2 {K : Type} [LinearOrder K] [Zero K] (w : List K) (c : Nat × Nat) : Prop where
  first : c.1 < w.length
  second : c.2 < w.length
  ne : c.1 ≠ c.2
  best : ∀ j < w.length, (w[j]?).getD 0 ≤ (w[c.1]?).getD 0
  next : ∀ j < w.length, j ≠ c.1 → (w[j]?).getD 0 ≤ (w[c.2]?).getD 0

section
variable {K : Type} [Field K] [LinearOrder K]

/-- A source of a slice for spherical interpolation. -/
def slerpSourceOf (g : Genome) (i : Nat) (weight : K) (r : Ref) : InSlice K :=
  { model := r, start := (i * g.step : Nat), stop := ((i + 1) * g.step : Nat),
    parameters := if g.definition.tokenizerSource then [(cs!"weight", .scalar (.num weight))] else [] }

/-- A slice for spherical interpolation. -/
def slerpSliceOf (ops : Ops K) (g : Genome) (x : Geno K) (i : Nat) : OutSlice K :=
  let w := weightsOf x i
  let c := ops.topk w
  let a := (g.definition.models[c.1]?).getD ⟨⟨[], none⟩, none, none⟩
  let b := (g.definition.models[c.2]?).getD ⟨⟨[], none⟩, none, none⟩
  { sources := [slerpSourceOf g i (1 - mixing ops w c) a, slerpSourceOf g i (mixing ops w c) b] ++ baseSources g i,
    baseModel := some a, parameters := [(cs!"t", .scalar (.num (mixing ops w c)))] }

theorem weightsOf_length (x : Geno K) (i : Nat) : (weightsOf x i).length = x.models := by simp [weightsOf]

theorem weightsOf_get (x : Geno K) (i j : Nat) (hj : j < x.models) : ((weightsOf x i)[j]?).getD 0 = x.at' i j 0 0 := by
  simp [weightsOf, hj]

theorem slerpSlice_eq (ops : Ops K) (htop : ∀ w : List K, 2 ≤ w.length → IsTop2 w (ops.topk w)) (g : Genome) (x : Geno K)
    (h : RightShape g x) (h2 : 2 ≤ g.definition.models.length) (i : Nat) :
    slerpSlice ops g x i = .ok (slerpSliceOf ops g x i) := by
  have hx := h.models
  have ht := htop (weightsOf x i) (by rw [weightsOf_length, hx]; exact h2)
  have hf := ht.first
  have hsec := ht.second
  rw [weightsOf_length, hx] at hf hsec
  unfold slerpSlice slerpWith slerpSliceOf slerpSource
  rw [if_neg (by rw [h.sets]; omega), if_neg (by omega)]
  simp only [List.getElem?_eq_getElem hf, List.getElem?_eq_getElem hsec, Option.getD_some]
  rfl

theorem mergeConfig_slerp (ops : Ops K) (htop : ∀ w : List K, 2 ≤ w.length → IsTop2 w (ops.topk w)) (g : Genome) (x : Geno K)
    (h : RightShape g x) (hn : 0 < g.numLayers) (h2 : 2 ≤ g.definition.models.length) (hs : g.definition.method = .slerp) :
    mergeConfig ops g (.four x) = .ok (assemble g.definition (some ((List.range x.groups).map (slerpSliceOf ops g x)), none)) := by
  unfold mergeConfig
  simp only [Genome.toTorch, shapeOk_of g x h, if_true]
  have hsec : sections ops g x = .ok (some ((List.range x.groups).map (slerpSliceOf ops g x)), none) := by
    unfold sections
    rw [if_pos hs, mapM_eq (slerpSlice ops g x) (slerpSliceOf ops g x) _ (fun i _ => slerpSlice_eq ops htop g x h h2 i)]
  rw [hsec]
  simp only
  rw [if_pos (assemble_valid_slices _ _ (truthy_range_map _ (groups_pos g x h hn) _))]

theorem slerpSliceOf_range (ops : Ops K) (g : Genome) (x : Geno K) (i : Nat) :
    (slerpSliceOf ops g x i).sources ≠ [] ∧
      ∀ a ∈ (slerpSliceOf ops g x i).sources, a.start = (i * g.step : Nat) ∧ a.stop = ((i + 1) * g.step : Nat) := by
  unfold slerpSliceOf
  constructor
  · simp
  · intro a ha
    simp only [List.cons_append, List.nil_append, List.mem_cons] at ha
    rcases ha with rfl | rfl | h
    · exact ⟨rfl, rfl⟩
    · exact ⟨rfl, rfl⟩
    · exact baseSources_range g i a h

theorem mixing_bounds [IsStrictOrderedRing K] (ops : Ops K) (hpos : ∀ v, 0 < ops.exp v) (hmono : ∀ u v, u ≤ v → ops.exp u ≤ ops.exp v)
    (w : List K) (c : Nat × Nat) (hc : (w[c.2]?).getD 0 ≤ (w[c.1]?).getD 0) : 0 < mixing ops w c ∧ mixing ops w c ≤ 1 / 2 := by
  unfold mixing
  have h1 := hpos ((w[c.1]?).getD 0)
  have h2 := hpos ((w[c.2]?).getD 0)
  have h3 := hmono _ _ hc
  constructor
  · exact div_pos h2 (by linarith)
  · rw [div_le_div_iff₀ (by linarith) (by norm_num)]
    linarith

end

/-- **C61** Spherical interpolation, if the base model is not given or among the models: the slices cover the layers 0..n-1 exactly once in order;
each mixes two of the models, those with the two highest numbers, starting from the one with the highest; the mixing factor read for every tensor
is in (0, 1/2] and is the softmax weight of the second.  Missing from the full claim: a base model that is not among the models
(`C61_slerp_extra_base`). -/
theorem C61_slerp_partial {K : Type} [Field K] [LinearOrder K] [FloorRing K] [IsStrictOrderedRing K] (ops : Ops K)
    (htop : ∀ w : List K, 2 ≤ w.length → IsTop2 w (ops.topk w)) (hpos : ∀ v, 0 < ops.exp v)
    (hmono : ∀ u v, u ≤ v → ops.exp u ≤ ops.exp v) (g : Genome) (x : Geno K) (h : RightShape g x) (hn : 0 < g.numLayers)
    (h2 : 2 ≤ g.definition.models.length) (hs : g.definition.method = .slerp)
    (hb : ∀ b, g.definition.baseModel = some b → b ∈ g.definition.models) :
    ∃ c slices, mergeConfig ops g (.four x) = .ok c ∧ c.valid = true ∧ c.slices = some slices ∧ c.models = none ∧ c.modules = none ∧
      slices.length = x.groups ∧ Covers slices g.numLayers ∧
      ∀ i s, slices[i]? = some s → ∃ (a b : Nat) (ma mb : Ref) (t : K), a ≠ b ∧ g.definition.models[a]? = some ma ∧ g.definition.models[b]? = some mb ∧
        (∀ j < g.definition.models.length, x.at' i j 0 0 ≤ x.at' i a 0 0) ∧
        (∀ j < g.definition.models.length, j ≠ a → x.at' i j 0 0 ≤ x.at' i b 0 0) ∧
        s.sources.map (·.model) = [ma, mb] ∧ s.baseModel = some ma ∧ 0 < t ∧ t ≤ 1 / 2 ∧
        t = ops.exp (x.at' i b 0 0) / (ops.exp (x.at' i a 0 0) + ops.exp (x.at' i b 0 0)) ∧
        ∀ r : Reader K, r.sliceOut = some s → ∀ default required, r.parameter cs!"t" none default required = .ok (some (.num t)) := by
  refine ⟨_, _, mergeConfig_slerp ops htop g x h hn h2 hs,
    assemble_valid_slices _ _ (truthy_range_map _ (groups_pos g x h hn) _), rfl, rfl, rfl, by simp, ?_, ?_⟩
  · rw [← groups_step g x h]
    exact covers_of _ _ _ (slerpSliceOf_range ops g x)
  · intro i s hi
    rw [List.getElem?_map] at hi
    obtain ⟨i', hi', rfl⟩ := Option.map_eq_some_iff.1 hi
    obtain ⟨hlt, hii⟩ := List.getElem?_eq_some_iff.1 hi'
    rw [List.getElem_range] at hii
    subst hii
    have hx := h.models
    have ht := htop (weightsOf x i) (by rw [weightsOf_length, hx]; exact h2)
    obtain ⟨t1, t2, t3, t4, t5⟩ := ht
    have hmix := mixing_bounds ops hpos hmono (weightsOf x i) _ (t4 _ t2)
    rw [weightsOf_length] at t1 t2 t4 t5
    have hbase : baseSources (K := K) g i = [] := by
      unfold baseSources extraBase
      cases hbb : g.definition.baseModel with
      | none => rfl
      | some b => simp [hb b hbb]
    rw [hx] at t1 t2
    have e1 := List.getElem?_eq_getElem t1
    have e2 := List.getElem?_eq_getElem t2
    refine ⟨(ops.topk (weightsOf x i)).1, (ops.topk (weightsOf x i)).2, _, _, mixing ops (weightsOf x i) (ops.topk (weightsOf x i)), t3, e1, e2,
      ?_, ?_, ?_, ?_, hmix.1, hmix.2, ?_, ?_⟩
    · intro j hj
      rw [← weightsOf_get x i j (by omega), ← weightsOf_get x i _ (by omega : (ops.topk (weightsOf x i)).1 < x.models)]
      exact t4 j (by omega)
    · intro j hj hja
      rw [← weightsOf_get x i j (by omega), ← weightsOf_get x i _ (by omega : (ops.topk (weightsOf x i)).2 < x.models)]
      exact t5 j (by omega) hja
    · simp only [slerpSliceOf, hbase, e1, e2, Option.getD_some]
      rfl
    · simp only [slerpSliceOf, e1, Option.getD_some]
    · unfold mixing
      rw [weightsOf_get x i _ (by omega), weightsOf_get x i _ (by omega)]
    · intro r hr default required
      have hl : Config.levels r cs!"t" none = [] ++ Setting.scalar (.num (mixing ops (weightsOf x i) (ops.topk (weightsOf x i)))) ::
          ((match r.module with | some m => (m.parameters.get cs!"t").toList | none => []) ++ (r.config.parameters.get cs!"t").toList) := by
        unfold Config.levels
        rw [hr]
        simp only [slerpSliceOf, Params.get, List.find?_cons, decide_true, Option.map_some, Option.toList_some]
        simp only [List.nil_append, List.cons_append]
        cases r.module <;> rfl
      exact Config.C22_most_specific r _ none default required [] _ _ _ hl (by simp) rfl

/-- C61, refuted for spherical interpolation with a base model that is not among the models: every slice gets three sources, and the merge
method refuses three tensors. -/
theorem C61_slerp_extra_base (ops : Ops ℝ) (htop : ∀ w : List ℝ, 2 ≤ w.length → IsTop2 w (ops.topk w)) (g : Genome) (x : Geno ℝ)
    (h : RightShape g x) (hn : 0 < g.numLayers) (h2 : 2 ≤ g.definition.models.length) (hs : g.definition.method = .slerp)
    (b : Ref) (hb : g.definition.baseModel = some b) (hbm : b ∉ g.definition.models) :
    ∃ c slices, mergeConfig ops g (.four x) = .ok c ∧ c.valid = true ∧ c.slices = some slices ∧ slices ≠ [] ∧
      ∀ s ∈ slices, s.sources.length = 3 ∧ ∀ (isEmbed : Bool) (base : Ref) (t : ℝ) (tensors : List (Ref × Verif.Tensor.Tensor ℝ)),
        tensors.map Prod.fst = s.sources.map (·.model) → Sphere.slerpTask isEmbed base t tensors = .error .count := by
  refine ⟨_, _, mergeConfig_slerp ops htop g x h hn h2 hs,
    assemble_valid_slices _ _ (truthy_range_map _ (groups_pos g x h hn) _), rfl, ?_, ?_⟩
  · have := groups_pos g x h hn
    intro h0
    have := congrArg List.length h0
    simp at this
    omega
  · intro s hs'
    obtain ⟨i, _, rfl⟩ := List.mem_map.1 hs'
    have hlen : (slerpSliceOf ops g x i).sources.length = 3 := by
      simp [slerpSliceOf, baseSources, extraBase, hb, hbm]
    refine ⟨hlen, ?_⟩
    intro isEmbed base t tensors hts
    have : tensors.length = 3 := by
      have := congrArg List.length hts
      simpa [hlen] using this
    match tensors, this with
    | [_, _, _], _ => rfl

/-- **C61** Spherical interpolation needs two models: with a single one no genotype becomes a configuration. -/
theorem C61_slerp_single {K : Type} [Field K] [LinearOrder K] (ops : Ops K) (g : Genome) (input : Input K)
    (h1 : g.definition.models.length < 2) (hs : g.definition.method = .slerp) : ∀ c, mergeConfig ops g input ≠ .ok c := by
  intro c hc
  unfold mergeConfig at hc
  cases ht : g.toTorch input with
  | error e => rw [ht] at hc; cases hc
  | ok x =>
    rw [ht] at hc
    simp only at hc
    split at hc
    · rename_i hsh
      have hx : x.models = g.definition.models.length := by
        unfold shapeOk at hsh
        simp only [Bool.and_eq_true, decide_eq_true_eq] at hsh
        exact hsh.1.2
      have hsec : ∀ p, sections ops g x = .ok p → p = (some [], none) := by
        intro p hp
        unfold sections at hp
        rw [if_pos hs] at hp
        have : ∀ i, ∃ e, slerpSlice ops g x i = .error e := by
          intro i
          unfold slerpSlice
          by_cases h0 : x.sets = 0
          · exact ⟨_, if_pos h0⟩
          · rw [if_neg h0, if_pos (by omega)]; exact ⟨_, rfl⟩
        cases hg : x.groups with
        | zero => rw [hg] at hp; cases hp; rfl
        | succ n =>
          rw [hg, List.range_succ_eq_map, List.mapM_cons] at hp
          obtain ⟨e, he⟩ := this 0
          rw [he] at hp
          cases hp
      cases hse : sections ops g x with
      | error e => rw [hse] at hc; cases hc
      | ok p =>
        rw [hse] at hc
        rw [hsec p hse] at hc
        have : (assemble (K := K) g.definition (some [], none)).valid = false := by
          simp [MergeConfig.valid, MergeConfig.validModules, MergeConfig.validInputs, assemble, Config.truthy]
        simp only [this] at hc
        cases hc
    · cases hc

/-! ## Shapes -/

section
variable {K : Type} [Field K] [LinearOrder K]

/-- **C61** A vector of the right length is read as a genotype of the right shape, row by row; a vector of any other length is refused. -/
theorem C61_vector (ops : Ops K) (d : Definition) (layersOf : Ref → Nat) (g : Genome) (hg : create d layersOf = .ok g)
    (hn : 0 < g.numLayers) (l : List K) :
    (l.length = g.groups * g.definition.models.length * g.sets * g.definition.method.params.length →
      ∃ x : Geno K, RightShape g x ∧ mergeConfig ops g (.flat l) = mergeConfig ops g (.four x) ∧
        ∀ i < x.groups, ∀ m < x.models, ∀ s < x.sets, ∀ q < x.params,
          l[((i * x.models + m) * x.sets + s) * x.params + q]? = some (x.at' i m s q)) ∧
    (l.length ≠ g.groups * g.definition.models.length * g.sets * g.definition.method.params.length →
      ∃ e, mergeConfig ops g (.flat l) = .error e) := by
  have hdef : g.definition = d ∧ d.models ≠ [] ∧ (d.granularity < 1 ∨ (g.numLayers : Int) % d.granularity = 0) := by
    unfold create at hg
    split at hg
    · cases hg
    · rename_i m ms hm
      split at hg
      · rename_i hc
        cases hg
        exact ⟨rfl, by rw [hm]; simp, hc⟩
      · cases hg
  obtain ⟨rfl, hm, hgran⟩ := hdef
  have hlen : 0 < g.definition.models.length := List.length_pos_iff.2 hm
  have hsets : 0 < g.sets := by unfold Genome.sets; omega
  have hlay : g.groups * (if 0 < g.definition.granularity then g.definition.granularity.toNat else g.numLayers) = g.numLayers := by
    unfold Genome.groups
    by_cases h0 : 0 < g.definition.granularity
    · rw [if_pos h0, if_pos h0]
      refine Nat.div_mul_cancel ?_
      have : (g.numLayers : Int) % g.definition.granularity = 0 := by
        rcases hgran with h | h
        · omega
        · exact h
      have h3 : g.definition.granularity = (g.definition.granularity.toNat : Int) := by omega
      rw [h3] at this
      exact Nat.dvd_of_mod_eq_zero (by exact_mod_cast this)
    · rw [if_neg h0, if_neg h0, one_mul]
  have hgroups : 0 < g.groups := by
    rcases Nat.eq_zero_or_pos g.groups with h0 | h0
    · rw [h0] at hlay; omega
    · exact h0
  have hd : 0 < g.groups * g.definition.models.length * g.sets := by positivity
  constructor
  · intro hl
    have hmod : l.length % (g.groups * g.definition.models.length * g.sets) = 0 := by rw [hl]; exact Nat.mul_mod_right _ _
    have hdiv : l.length / (g.groups * g.definition.models.length * g.sets) = g.definition.method.params.length := by
      rw [hl]; exact Nat.mul_div_cancel_left _ hd
    have ht : g.toTorch (.flat l) = .ok ⟨g.groups, g.definition.models.length, g.sets, g.definition.method.params.length,
        fun i m s q => (l[((i * g.definition.models.length + m) * g.sets + s) * g.definition.method.params.length + q]?).getD 0⟩ := by
      simp only [Genome.toTorch]
      rw [if_neg (by push Not; exact ⟨by omega, hmod⟩), hdiv]
    refine ⟨_, ⟨hlay, ?_, rfl, rfl, rfl⟩, by unfold mergeConfig; rw [ht]; rfl, ?_⟩
    · intro h0
      show g.groups = 1
      unfold Genome.groups
      rw [if_neg (by omega)]
    · intro i hi m hm' s hs q hq
      simp only at hi hm' hs hq ⊢
      have b1 : i * g.definition.models.length + m < g.groups * g.definition.models.length := by
        calc _ < i * g.definition.models.length + g.definition.models.length := by omega
          _ = (i + 1) * g.definition.models.length := by ring
          _ ≤ _ := Nat.mul_le_mul_right _ hi
      have b2 : (i * g.definition.models.length + m) * g.sets + s < g.groups * g.definition.models.length * g.sets := by
        calc _ < (i * g.definition.models.length + m) * g.sets + g.sets := by omega
          _ = (i * g.definition.models.length + m + 1) * g.sets := by ring
          _ ≤ _ := Nat.mul_le_mul_right _ b1
      have b3 : ((i * g.definition.models.length + m) * g.sets + s) * g.definition.method.params.length + q < l.length := by
        rw [hl]
        calc _ < ((i * g.definition.models.length + m) * g.sets + s) * g.definition.method.params.length +
              g.definition.method.params.length := by omega
          _ = ((i * g.definition.models.length + m) * g.sets + s + 1) * g.definition.method.params.length := by ring
          _ ≤ _ := Nat.mul_le_mul_right _ b2
      rw [List.getElem?_eq_getElem b3]
      rfl
  · intro hl
    unfold mergeConfig
    simp only [Genome.toTorch]
    by_cases hmod : l.length % (g.groups * g.definition.models.length * g.sets) = 0
    · rw [if_neg (by push Not; exact ⟨by omega, hmod⟩)]
      simp only
      rw [if_neg]
      · exact ⟨_, rfl⟩
      · unfold shapeOk
        simp only [Bool.and_eq_true, decide_eq_true_eq, not_and]
        intro _ hp
        apply hl
        rw [← hp]
        exact (Nat.mul_div_cancel' (Nat.dvd_of_mod_eq_zero hmod)).symm
    · rw [if_pos (Or.inr hmod)]
      exact ⟨_, rfl⟩

/-- Every configuration made for a genome carries the genome's own base model and tokenizer source, and says whether weights are
normalized: as the genome asks, and otherwise exactly for linear, TIES and DARE-TIES. -/
theorem C61_options (ops : Ops K) (g : Genome) (input : Input K) (c : MergeConfig K) (h : mergeConfig ops g input = .ok c) :
    c.baseModel = g.definition.baseModel ∧ c.tokenizerSource = g.definition.tokenizerSource ∧
    c.parameters.lookup (cs!"int8_mask") = some (.scalar (.num 1)) ∧
    ∃ n : Bool, c.parameters.lookup (cs!"normalize") = some (.scalar (.num (if n then 1 else 0))) ∧
      (∀ b, g.definition.normalize = some b → n = b) ∧
      (g.definition.normalize = none → (n = true ↔ g.definition.method ∈ [Method.linear, .ties, .dareTies])) := by
  unfold mergeConfig at h
  cases hx : g.toTorch input with
  | error e => simp [hx] at h
  | ok x =>
    simp only [hx] at h
    split at h
    · cases hp : sections ops g x with
      | error e => simp [hp] at h
      | ok p =>
        simp only [hp] at h
        split at h
        · injection h with h
          subst h
          refine ⟨rfl, rfl, ?_, normalizes g.definition, ?_, ?_, ?_⟩
          · simp [assemble, List.lookup]
          · simp [assemble, List.lookup]
          · intro b hb
            simp [normalizes, hb]
          · intro hb
            simp only [normalizes, hb]
            cases g.definition.method <;> simp
        · simp at h
    · simp at h

/-- **C61** Genotypes of other shapes are refused: another number of dimensions, of models or of parameters, or - with a granularity - layer groups
that do not make up the model. -/
theorem C61_refused (ops : Ops K) (g : Genome) :
    mergeConfig ops g .other = .error .invalidGenotype ∧
    ∀ x : Geno K, x.models ≠ g.definition.models.length ∨ x.params ≠ g.definition.method.params.length ∨
      (0 < g.definition.granularity ∧ (x.groups : Int) * g.definition.granularity ≠ g.numLayers) →
      mergeConfig ops g (.four x) = .error .assertion := by
  refine ⟨rfl, ?_⟩
  intro x hx
  unfold mergeConfig
  simp only [Genome.toTorch]
  rw [if_neg]
  unfold shapeOk
  simp only [Bool.and_eq_true, decide_eq_true_eq, Bool.or_eq_true, Bool.not_eq_true', decide_eq_false_iff_not, not_and]
  rintro ⟨h1, h2⟩ h3
  rcases hx with hx | hx | ⟨hx, hy⟩
  · exact hx h2
  · exact hx h3
  · rcases h1 with h | h
    · exact h hx
    · exact hy h

/-- Without a granularity the number of layer groups is not checked: with two of them the slices go on past the last layer. -/
theorem C61_groups_unchecked (ops : Ops K) (g : Genome) (x : Geno K) (h0 : g.definition.granularity ≤ 0)
    (hm : g.definition.models ≠ []) (hx : x.models = g.definition.models.length) (hsets : x.sets = (g.definition.filters.getD []).length + 1)
    (hp : x.params = g.definition.method.params.length) (hgr : 2 ≤ x.groups) (hs : g.definition.method ≠ .slerp)
    (hsm : g.definition.smooth = false) (hn : 0 < g.numLayers) :
    ∃ c slices, mergeConfig ops g (.four x) = .ok c ∧ c.slices = some slices ∧ Covers slices (x.groups * g.numLayers) ∧
      g.numLayers < x.groups * g.numLayers := by
  have hshape : shapeOk g x = true := by
    unfold shapeOk
    have : ¬ g.definition.granularity > 0 := by omega
    simp [this, hx, hp]
  have hsec : sections ops g x = .ok (some ((List.range x.groups).map (sliceOf g x)), none) := by
    unfold sections
    rw [if_neg hs, hsm]
    simp only [Bool.false_eq_true, if_false]
    rw [mapM_eq (discreteSlice g x) (sliceOf g x) _ (fun i _ => discreteSlice_eq g x hsets i)]
  refine ⟨assemble g.definition (some ((List.range x.groups).map (sliceOf g x)), none), _, ?_, rfl, ?_, by nlinarith⟩
  · unfold mergeConfig
    simp only [Genome.toTorch, hshape, if_true, hsec]
    rw [if_pos (assemble_valid_slices _ _ (truthy_range_map _ (by omega) _))]
  · have hstep : g.step = g.numLayers := by unfold Genome.step; rw [if_neg (by omega)]
    have := covers_of g.step x.groups _ (sliceOf_range g x hm)
    rw [hstep] at this
    exact this

/-- **C61** The genotype the search starts from has the right shape, with equal weights that sum to one and densities one. -/
theorem C61_initial [IsStrictOrderedRing K] (d : Definition) (layersOf : Ref → Nat) (g : Genome) (hg : create d layersOf = .ok g) :
    RightShape g (g.initial (K := K)) ∧
    ∀ i s, ((List.range (g.initial (K := K)).models).map (fun m => (g.initial (K := K)).at' i m s 0)).sum = 1 ∧
      ∀ m q, 0 < q → (g.initial (K := K)).at' i m s q = 1 := by
  have hdef : g.definition = d ∧ d.models ≠ [] ∧ (d.granularity < 1 ∨ (g.numLayers : Int) % d.granularity = 0) := by
    unfold create at hg
    split at hg
    · cases hg
    · rename_i m ms hm
      split at hg
      · rename_i hc
        cases hg
        exact ⟨rfl, by rw [hm]; simp, hc⟩
      · cases hg
  obtain ⟨rfl, hm, hgran⟩ := hdef
  refine ⟨⟨?_, ?_, rfl, rfl, rfl⟩, ?_⟩
  · show g.groups * _ = _
    unfold Genome.groups
    by_cases h0 : 0 < g.definition.granularity
    · rw [if_pos h0, if_pos h0]
      refine Nat.div_mul_cancel ?_
      have : (g.numLayers : Int) % g.definition.granularity = 0 := by
        rcases hgran with h | h
        · omega
        · exact h
      have h3 : g.definition.granularity = (g.definition.granularity.toNat : Int) := by omega
      rw [h3] at this
      exact Nat.dvd_of_mod_eq_zero (by exact_mod_cast this)
    · rw [if_neg h0, if_neg h0, one_mul]
  · intro h0
    show g.groups = 1
    unfold Genome.groups
    rw [if_neg (by omega)]
  · intro i s
    constructor
    · have hpos : (0 : K) < (g.definition.models.length : K) := by exact_mod_cast List.length_pos_iff.2 hm
      simp only [Genome.initial, if_true, List.map_const', List.length_range, List.sum_replicate, nsmul_eq_mul]
      field_simp
    · intro m q hq
      simp only [Genome.initial]
      rw [if_neg (by omega)]

end

/-! ## Base models without parameters -/

/-- C61, refuted for linear merges with a base model that is not among the models: the configuration lists the base model in every slice, but gives it
no weight, and the merge method needs one for every model. -/
theorem C61_linear_extra_base {K : Type} [Field K] [LinearOrder K] [FloorRing K] (ops : Ops K) (g : Genome) (x : Geno K) (h : RightShape g x)
    (hn : 0 < g.numLayers) (hs : g.definition.method = .linear) (hsm : g.definition.smooth = false) (b : Ref)
    (hb : g.definition.baseModel = some b) (hbm : b ∉ g.definition.models) :
    ∃ c slices, mergeConfig ops g (.four x) = .ok c ∧ c.valid = true ∧ c.slices = some slices ∧ slices ≠ [] ∧
      ∀ s ∈ slices, b ∈ s.sources.map (·.model) ∧ ∀ r : Reader K, r.config.parameters = c.parameters → r.sliceOut = some s →
        (∀ m, r.module = some m → m.parameters = []) → r.parameter cs!"weight" (some b) none false = .ok none := by
  have hne : g.definition.method ≠ .slerp := by rw [hs]; decide
  refine ⟨_, _, mergeConfig_discrete ops g x h hn hne hsm,
    assemble_valid_slices _ _ (truthy_range_map _ (groups_pos g x h hn) _), rfl, ?_, ?_⟩
  · have := groups_pos g x h hn
    intro h0
    have := congrArg List.length h0
    simp at this
    omega
  · intro s hs'
    obtain ⟨i, _, rfl⟩ := List.mem_map.1 hs'
    have hex : extraBase g.definition = [b] := by simp [extraBase, hb, hbm]
    refine ⟨by rw [sliceOf_models, hex]; simp, ?_⟩
    intro r hc hr hmod
    refine (Config.C22_no_value r _ (some b) none ?_).2
    have : Config.levels r cs!"weight" (some b) = [] := by
      unfold Config.levels
      rw [hr, hc]
      have e1 : (sliceOf g x i).sources.filterMap (fun src => if src.model = b then src.parameters.get cs!"weight" else none) = [] := by
        rw [List.filterMap_eq_nil_iff]
        intro src hsrc
        unfold sliceOf at hsrc
        rcases List.mem_append.1 hsrc with h' | h'
        · obtain ⟨e, he, rfl⟩ := List.mem_map.1 h'
          rw [if_neg]
          intro heq
          apply hbm
          rw [← heq]
          exact List.fst_mem_of_mem_zipIdx he
        · unfold baseSources at h'
          obtain ⟨b', _, rfl⟩ := List.mem_map.1 h'
          simp [Params.get]
      simp only [e1]
      cases hmm : r.module with
      | none => simp [sliceOf, Params.get, assemble]
      | some m => simp [sliceOf, Params.get, assemble, hmod m hmm]
    rw [this]
    simp

/-! ## The merge planned -/

/-- **C61** The merge planned for a genotype: the output has as many layers as the models, and each of its layers is made of that layer of every model
(and of the base model). -/
theorem C61_planned {K : Type} [Field K] [LinearOrder K] [FloorRing K] (ops : Ops K) (g : Genome) (x : Geno K) (h : RightShape g x)
    (hn : 0 < g.numLayers) (hm : g.definition.models ≠ []) (hs : g.definition.method ≠ .slerp) (hsm : g.definition.smooth = false)
    (hnd : g.definition.models.Nodup) (c : MergeConfig K) (hc : mergeConfig ops g (.four x) = .ok c)
    (env : Plan.Env K) (n : String) (hmods : env.moduleNames = [n]) (ps : List (Plan.ModulePlan K)) (hp : Plan.plan env c = .ok ps) :
    ∃ mp, ps = [mp] ∧ mp.layers.length = g.numLayers ∧
      ∀ j < g.numLayers, ∃ l, mp.layers[j]? = some l ∧ l.length = (env.outLayer n j).length ∧
        ∀ (k : Nat) (p : Plan.Planned K), l[k]? = some (some p) → (env.outLayer n j)[k]? = some p.weight ∧
          ∀ m wi, (m, wi) ∈ p.inputs ↔
            (m ∈ g.definition.models ∨ g.definition.baseModel = some m) ∧ (env.inLayer m n j)[k]? = some wi := by
  rw [mergeConfig_discrete ops g x h hn hs hsm] at hc
  cases hc
  have hgp := groups_pos g x h hn
  obtain ⟨s0, ss, hss⟩ : ∃ s0 ss, (List.range x.groups).map (sliceOf g x) = s0 :: ss := by
    refine List.exists_cons_of_ne_nil ?_
    intro h0
    have := congrArg List.length h0
    simp at this
    omega
  obtain ⟨c', hc', hb', hmod'⟩ := (Plan.C29_slices env (assemble g.definition (some ((List.range x.groups).map (sliceOf g x)), none)) s0 ss
    (by rw [← hss]; rfl) rfl).1 n hmods
  unfold Plan.plan at hp
  rw [hc'] at hp
  simp only [hmod', Option.getD_some, Plan.planModules] at hp
  cases hpm : Plan.planModule env c' n ⟨some (s0 :: ss), none, []⟩ with
  | error e => rw [hpm] at hp; cases hp
  | ok mp =>
    rw [hpm] at hp
    cases hp
    obtain ⟨slices, hsl, hcount, hlay⟩ := Plan.C27_layers_partial env c' n _ mp hpm
    simp only [Option.some.injEq] at hsl
    subst hsl
    rw [← hss] at hcount hlay
    have hlen : ∀ i, Plan.OutSlice.len (sliceOf g x i) = g.step := by
      intro i
      obtain ⟨hne, hall⟩ := sliceOf_range g x hm i
      obtain ⟨a, l, hal⟩ := List.exists_cons_of_ne_nil hne
      have ha := hall a (by rw [hal]; simp)
      unfold Plan.OutSlice.len
      rw [hal]
      simp only [List.head?_cons, ha.1, ha.2]
      push_cast
      have : ((i : Int) + 1) * g.step - i * g.step = g.step := by ring
      simp [this]
    have hsum : ∀ k, (((List.range k).map (sliceOf g x)).map Plan.OutSlice.len).sum = k * g.step := by
      intro k
      rw [List.map_map]
      have : (Plan.OutSlice.len ∘ sliceOf g x) = fun _ => g.step := funext hlen
      rw [this]
      simp
    have htot : mp.layers.length = g.numLayers := by rw [hcount, hsum, groups_step g x h]
    refine ⟨mp, rfl, htot, ?_⟩
    intro j hj
    have hstep : 0 < g.step := by
      rcases Nat.eq_zero_or_pos g.step with h0 | h0
      · have := groups_step g x h
        rw [h0] at this; omega
      · exact h0
    have hi : j / g.step < x.groups := by
      rw [Nat.div_lt_iff_lt_mul hstep, groups_step g x h]; exact hj
    have hisl : Plan.IsLayer ((List.range x.groups).map (sliceOf g x)) j (sliceOf g x (j / g.step)) (j % g.step) := by
      refine ⟨(List.range (j / g.step)).map (sliceOf g x),
        ((List.range' (j / g.step + 1) (x.groups - j / g.step - 1))).map (sliceOf g x), ?_, ?_, ?_⟩
      · have : List.range x.groups = List.range (j / g.step) ++ (j / g.step) :: List.range' (j / g.step + 1) (x.groups - j / g.step - 1) := by
          rw [List.range_eq_range', List.range_eq_range']
          have h3 : (j / g.step) :: List.range' (j / g.step + 1) (x.groups - j / g.step - 1) =
              List.range' (j / g.step) (x.groups - j / g.step - 1 + 1) := by rw [List.range'_succ]
          rw [h3]
          have h4 := List.range'_append (s := 0) (m := j / g.step) (n := x.groups - j / g.step - 1 + 1) (step := 1)
          simp only [one_mul, zero_add] at h4
          rw [h4]
          congr 1
          omega
        rw [this]
        simp
      · rw [hlen]; exact Nat.mod_lt _ hstep
      · rw [hsum]
        rw [Nat.mul_comm]
        exact (Nat.div_add_mod j g.step).symm
    obtain ⟨l, hl1, hl2, hl3⟩ := hlay j _ _ hisl
    refine ⟨l, hl1, hl2, ?_⟩
    intro k p hk
    obtain ⟨h5, h6⟩ := hl3 k p hk
    refine ⟨h5, ?_⟩
    have hmodels := sliceOf_models g x (j / g.step)
    have hnodup : ((sliceOf g x (j / g.step)).sources.map (·.model)).Nodup := by
      rw [hmodels]
      unfold extraBase
      cases hb : g.definition.baseModel with
      | none => simpa using hnd
      | some b =>
        by_cases hbm : b ∈ g.definition.models
        · simpa [hbm] using hnd
        · simp only [hbm, if_false]
          rw [List.nodup_append]
          refine ⟨hnd, by simp, ?_⟩
          intro a ha b' hb'
          simp only [List.mem_singleton] at hb'
          subst hb'
          rintro rfl
          exact hbm ha
    intro m wi
    rw [h6 hnodup]
    have hmem : ∀ m, m ∈ (sliceOf g x (j / g.step)).sources.map (·.model) ↔ m ∈ g.definition.models ∨ g.definition.baseModel = some m := by
      intro m
      rw [hmodels, List.mem_append]
      unfold extraBase
      cases hb : g.definition.baseModel with
      | none => simp
      | some b =>
        by_cases hbm : b ∈ g.definition.models
        · simp only [hbm, if_true, List.not_mem_nil, or_false, Option.some.injEq]
          constructor
          · exact Or.inl
          · rintro (h | rfl) <;> assumption
        · simp [hbm, eq_comm]
    have hstart : ∀ src ∈ (sliceOf g x (j / g.step)).sources, src.start + ((j % g.step : Nat) : Int) = (j : Int) := by
      intro src hsrc
      rw [((sliceOf_range g x hm (j / g.step)).2 src hsrc).1]
      have := Nat.div_add_mod j g.step
      rw [Nat.mul_comm] at this
      exact_mod_cast this
    rw [← hmem]
    constructor
    · rintro ⟨src, hsrc, rfl, hw⟩
      rw [hstart src hsrc] at hw
      exact ⟨List.mem_map.2 ⟨src, hsrc, rfl⟩, hw⟩
    · rintro ⟨hin, hw⟩
      obtain ⟨src, hsrc, rfl⟩ := List.mem_map.1 hin
      refine ⟨src, hsrc, rfl, ?_⟩
      rw [hstart src hsrc]
      exact hw

/-! ## Examples -/

/-- The reference to a model by name. -/
def named (s : Str) : Ref := ⟨⟨s, none⟩, none, none⟩

/-- Two models in two groups of two layers, with a filter. -/
def sampleGenome : Genome :=
  { definition := { models := [named cs!"a", named cs!"b"], method := .ties, baseModel := some (named cs!"base"), granularity := 2,
                    filters := some [cs!"mlp"] },
    numLayers := 4 }

/-- Numbers all different, some of them negative or above one. -/
def sampleGeno : Geno ℚ :=
  { groups := 2, models := 2, sets := 2, params := 2, at' := fun i m s q => (i : ℚ) - 2 * m + 3 * s - q / 2 }

example : RightShape sampleGenome sampleGeno := by
  constructor <;> simp [sampleGenome, sampleGeno, Method.params]

example (ops : Ops ℚ) : ∃ c, mergeConfig ops sampleGenome (.four sampleGeno) = .ok c ∧ sampleGenome.definition.normalize = none ∧
    sampleGenome.definition.method ∈ [Method.linear, .ties, .dareTies] := by
  obtain ⟨c, _, h, _⟩ := C61_slices ops sampleGenome sampleGeno
    (by constructor <;> simp [sampleGenome, sampleGeno, Method.params]) (by decide) (by simp [sampleGenome]) (by simp [sampleGenome]) rfl
  exact ⟨c, h, rfl, by simp [sampleGenome]⟩

example : sampleGenome.definition.valid = true ∧ create sampleGenome.definition (fun _ => 4) = .ok sampleGenome := by
  refine ⟨rfl, ?_⟩
  simp [create, sampleGenome]

/-- The second set is for tensors without the filter's text. -/
example : IsSet (sampleGenome.definition.filters.getD []) cs!"layers.0.attn" 1 ∧ IsSet (sampleGenome.definition.filters.getD []) cs!"layers.0.mlp" 0 := by
  constructor
  · refine ⟨by simp [sampleGenome], by simp [sampleGenome], ?_⟩
    intro j hj f hf
    have : j = 0 := by omega
    subst this
    simp [sampleGenome] at hf
    subst hf
    rintro (h | ⟨a, b, h⟩)
    · exact absurd h (by decide)
    · have := (Config.substr_iff cs!"mlp" cs!"layers.0.attn").2 ⟨a, b, h⟩
      exact absurd this (by decide)
  · refine ⟨by simp, ?_, by simp⟩
    intro f hf
    simp [sampleGenome] at hf
    subst hf
    exact Or.inr ⟨cs!"layers.0.", [], by decide⟩

example : FirstAt sampleGenome.definition.models 1 (named cs!"b") := by
  refine ⟨rfl, ?_⟩
  intro j hj
  have : j = 0 := by omega
  subst this
  simp [sampleGenome, named]

/-- The first largest element and the largest of the others. -/
noncomputable def top2 {K : Type} [LinearOrder K] [Zero K] (w : List K) : Nat × Nat := by
  classical exact if h : ∃ c, IsTop2 w c then h.choose else (0, 0)

/-- There is such a choice for every list with two elements or more. -/
theorem top2_exists {K : Type} [LinearOrder K] [Zero K] (w : List K) (h : 2 ≤ w.length) : IsTop2 w (top2 w) := by
  have hex : ∃ c, IsTop2 w c := by
    obtain ⟨a, ha, hamax⟩ := Finset.exists_max_image (Finset.range w.length) (fun j => (w[j]?).getD 0) ⟨0, by simp; omega⟩
    have hne : ((Finset.range w.length).erase a).Nonempty := by
      rw [← Finset.card_pos, Finset.card_erase_of_mem ha]
      simp; omega
    obtain ⟨b, hb, hbmax⟩ := Finset.exists_max_image ((Finset.range w.length).erase a) (fun j => (w[j]?).getD 0) hne
    rw [Finset.mem_erase, Finset.mem_range] at hb
    refine ⟨(a, b), Finset.mem_range.1 ha, hb.2, fun h => hb.1 h.symm, fun j hj => hamax j (Finset.mem_range.2 hj), ?_⟩
    intro j hj hja
    exact hbmax j (Finset.mem_erase.2 ⟨hja, Finset.mem_range.2 hj⟩)
  unfold top2
  rw [dif_pos hex]
  exact hex.choose_spec

/-- The operations over the real numbers. -/
noncomputable def realOps : Ops ℝ := ⟨top2, Real.exp⟩

example : (∀ w : List ℝ, 2 ≤ w.length → IsTop2 w (realOps.topk w)) ∧ (∀ v, 0 < realOps.exp v) ∧
    ∀ u v, u ≤ v → realOps.exp u ≤ realOps.exp v :=
  ⟨top2_exists, Real.exp_pos, fun _ _ h => Real.exp_le_exp.2 h⟩

/-- Three models to interpolate between, in groups of one layer. -/
def slerpGenome (base : Option Ref) : Genome :=
  { definition := { models := [named cs!"a", named cs!"b", named cs!"c"], method := .slerp, granularity := 1, baseModel := base }, numLayers := 3 }

example (base : Option Ref) : RightShape (slerpGenome base)
    ({ groups := 3, models := 3, sets := 1, params := 1, at' := fun i m _ _ => (i : ℝ) - m } : Geno ℝ) := by
  constructor <;> simp [slerpGenome, Method.params]

example : ∀ b, (slerpGenome (some (named cs!"b"))).definition.baseModel = some b →
    b ∈ (slerpGenome (some (named cs!"b"))).definition.models := by
  intro b hb
  cases hb
  simp [slerpGenome]

example : (slerpGenome (some (named cs!"base"))).definition.valid = true ∧
    named cs!"base" ∉ (slerpGenome (some (named cs!"base"))).definition.models := by
  refine ⟨rfl, ?_⟩
  simp [slerpGenome, named]

/-- A linear genome with a base model that is not among the models is accepted. -/
example : ({ models := [named cs!"a"], method := .linear, baseModel := some (named cs!"base") } : Definition).valid = true ∧
    RightShape ⟨{ models := [named cs!"a"], method := .linear, baseModel := some (named cs!"base") }, 4⟩
      ({ groups := 1, models := 1, sets := 1, params := 1, at' := fun _ _ _ _ => 1 } : Geno ℚ) := by
  refine ⟨rfl, ?_⟩
  constructor <;> simp [Method.params]

end Verif.Genome
