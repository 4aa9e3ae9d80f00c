import Verif.Model.Config
import Mathlib.Tactic.Linarith
import Mathlib.Tactic.FieldSimp
import Mathlib.Data.Rat.Floor

/-! # C20 - C23 -/

namespace Verif.Config

open Verif.ModelRef (Str Ref)

section
variable {K : Type} [Field K] [LinearOrder K] [FloorRing K]

/-- A list of numbers as a parameter value. -/
def numbers (l : List K) : Setting K := .list (l.map (fun x => .scalar (.num x)))

theorem allNums_map (l : List K) : allNums (l.map Scalar.num) = some l := by
  induction l with
  | nil => rfl
  | cons x xs ih => simp [allNums, ih]

theorem allScalars_map (l : List (Scalar K)) : allScalars (l.map Elem.scalar) = some l := by
  induction l with
  | nil => rfl
  | cons x xs ih => simp [allScalars, ih]

theorem evaluate_numbers (nm : Option Str) (l : List K) (t : K) :
    evaluateSetting nm (numbers l) t = (match gradient l t with
      | .ok v => .ok (some (.num v))
      | .error e => .error e) := by
  have h : l.map (fun x => Elem.scalar (Scalar.num x)) = (l.map Scalar.num).map Elem.scalar := by simp
  simp only [numbers, evaluateSetting, h, allScalars_map, evalScalars, allNums_map]
  cases gradient l t <;> rfl

variable [IsStrictOrderedRing K]

theorem gradient_floor (l : List K) (t : K) (i : Nat) (hi : i < l.length) (h1 : (i : K) ≤ t * ((l.length : K) - 1))
    (h2 : t * ((l.length : K) - 1) < i + 1) :
    gradient l t = .ok ((1 - (t * ((l.length : K) - 1) - i)) * l[i] +
      (t * ((l.length : K) - 1) - i) * l[min (l.length - 1) (i + 1)]) := by
  have hfl : trunc (t * ((l.length : K) - 1)) = (i : Int) := by
    unfold trunc
    have h0 : (0 : K) ≤ t * ((l.length : K) - 1) := le_trans (Nat.cast_nonneg i) h1
    rw [if_pos h0, Int.floor_eq_iff]
    exact ⟨by exact_mod_cast h1, by exact_mod_cast h2⟩
  unfold gradient
  simp only [hfl]
  have ha : pyIndex l (i : Int) = some l[i] := by
    unfold pyIndex
    simp [hi]
  have hb : pyIndex l (min ((l.length : Int) - 1) ((i : Int) + 1)) = some l[min (l.length - 1) (i + 1)] := by
    have : min ((l.length : Int) - 1) ((i : Int) + 1) = ((min (l.length - 1) (i + 1) : Nat) : Int) := by omega
    rw [this]
    unfold pyIndex
    simp only [Int.natCast_nonneg, if_true, Int.toNat_natCast]
    rw [List.getElem?_eq_getElem]
  rw [ha, hb]
  simp

/-- **C20** Between two neighbouring points the value runs linearly from one to the other. -/
theorem C20_segment (nm : Option Str) (l : List K) (t : K) (i : Nat) (hi : i + 1 < l.length)
    (h1 : (i : K) / ((l.length : K) - 1) ≤ t) (h2 : t ≤ ((i : K) + 1) / ((l.length : K) - 1)) :
    evaluateSetting nm (numbers l) t =
      .ok (some (.num (l[i] + (t * ((l.length : K) - 1) - i) * (l[i + 1] - l[i])))) := by
  have hn : (0 : K) < (l.length : K) - 1 := by
    have : (1 : K) < (l.length : K) := by exact_mod_cast (by omega : 1 < l.length)
    linarith
  rw [div_le_iff₀ hn] at h1
  rw [le_div_iff₀ hn] at h2
  rw [evaluate_numbers]
  rcases lt_or_eq_of_le h2 with hlt | heq
  · rw [gradient_floor l t i (by omega) h1 hlt]
    have : min (l.length - 1) (i + 1) = i + 1 := by omega
    simp only [this]
    congr 3
    ring
  · rw [gradient_floor l t (i + 1) hi (by rw [heq]; push_cast; exact le_refl _) (by rw [heq]; push_cast; linarith)]
    rw [heq]
    push_cast
    congr 3
    ring

/-- **C20** At depth `i/(n-1)` the value is the `i`-th number. -/
theorem C20_points (nm : Option Str) (l : List K) (i : Nat) (hi : i < l.length) (hn : 2 ≤ l.length) :
    evaluateSetting nm (numbers l) ((i : K) / ((l.length : K) - 1)) = .ok (some (.num l[i])) := by
  have hpos : (0 : K) < (l.length : K) - 1 := by
    have : (1 : K) < (l.length : K) := by exact_mod_cast (by omega : 1 < l.length)
    linarith
  have hs : (i : K) / ((l.length : K) - 1) * ((l.length : K) - 1) = i := div_mul_cancel₀ _ hpos.ne'
  rw [evaluate_numbers, gradient_floor l _ i hi (by rw [hs]) (by rw [hs]; linarith), hs]
  simp

/-- **C20** A single number is that number at every depth. -/
theorem C20_single (nm : Option Str) (x t : K) : evaluateSetting nm (numbers [x]) t = .ok (some (.num x)) := by
  rw [evaluate_numbers, gradient_floor [x] t 0 (by simp) (by simp) (by simp)]
  simp

/-- **C20** The value stays within the bounds of the numbers; in particular equal numbers give that number. -/
theorem C20_bounds (nm : Option Str) (l : List K) (hne : l ≠ []) (t lo hi : K) (h0 : 0 ≤ t) (h1 : t ≤ 1)
    (hb : ∀ x ∈ l, lo ≤ x ∧ x ≤ hi) :
    ∃ v, evaluateSetting nm (numbers l) t = .ok (some (.num v)) ∧ lo ≤ v ∧ v ≤ hi := by
  have hlen : 0 < l.length := List.length_pos_iff.2 hne
  have hl1 : (1 : K) ≤ (l.length : K) := by exact_mod_cast hlen
  set s := t * ((l.length : K) - 1) with hs
  have hs0 : 0 ≤ s := mul_nonneg h0 (by linarith)
  have hs1 : s ≤ (l.length : K) - 1 := by
    rw [hs]
    calc t * ((l.length : K) - 1) ≤ 1 * ((l.length : K) - 1) := mul_le_mul_of_nonneg_right h1 (by linarith)
      _ = _ := one_mul _
  have hf0 : 0 ≤ ⌊s⌋ := Int.floor_nonneg.2 hs0
  obtain ⟨i, hi'⟩ := Int.eq_ofNat_of_zero_le hf0
  have hle : (i : K) ≤ s := by
    have := Int.floor_le s
    rw [hi'] at this
    exact_mod_cast this
  have hlt : s < i + 1 := by
    have := Int.lt_floor_add_one s
    rw [hi'] at this
    exact_mod_cast this
  have hil : i < l.length := by
    have : (i : K) ≤ (l.length : K) - 1 := le_trans hle hs1
    have : (i : K) < (l.length : K) := by linarith
    exact_mod_cast this
  rw [evaluate_numbers, gradient_floor l t i hil hle hlt]
  refine ⟨_, rfl, ?_, ?_⟩
  all_goals
    rw [← hs]
    obtain ⟨a1, a2⟩ := hb _ (List.getElem_mem hil)
    obtain ⟨b1, b2⟩ := hb _ (List.getElem_mem (l := l) (n := min (l.length - 1) (i + 1)) (by omega))
    have f0 : 0 ≤ s - i := by linarith
    have f1 : 0 ≤ 1 - (s - i) := by linarith
    have := mul_le_mul_of_nonneg_left a1 f1
    have := mul_le_mul_of_nonneg_left a2 f1
    have := mul_le_mul_of_nonneg_left b1 f0
    have := mul_le_mul_of_nonneg_left b2 f0
    nlinarith

/-- **C20** A list with a word in it is not interpolated: between depths `i/(n-1)` and `(i+1)/(n-1)`, and from the last point on, the `i`-th entry
counts. -/
theorem C20_words (nm : Option Str) (l : List (Scalar K)) (w : Str) (hw : .str w ∈ l) (t : K) (i : Nat) (hi : i < l.length)
    (h1 : (i : K) ≤ t * ((l.length : K) - 1)) (h2 : t * ((l.length : K) - 1) < i + 1) :
    evaluateSetting nm (.list (l.map Elem.scalar)) t = .ok (some l[i]) := by
  have hn : allNums l = none := by
    clear hi h1 h2
    induction l with
    | nil => cases hw
    | cons x l ih =>
      cases x with
      | str _ => rfl
      | num x =>
        simp only [List.mem_cons, reduceCtorEq, false_or] at hw
        simp [allNums, ih hw]
  have hfl : trunc (t * ((l.length : K) - 1)) = (i : Int) := by
    unfold trunc
    have h0 : (0 : K) ≤ t * ((l.length : K) - 1) := le_trans (Nat.cast_nonneg i) h1
    rw [if_pos h0, Int.floor_eq_iff]
    exact ⟨by exact_mod_cast h1, by exact_mod_cast h2⟩
  simp only [evaluateSetting, allScalars_map, evalScalars, hn, hfl]
  have : pyIndex l (i : Int) = some l[i] := by
    unfold pyIndex
    simp [hi]
  rw [this]

/-- **C20** An empty list has no value at any depth: the error of an index out of range. -/
theorem C20_empty (nm : Option Str) (t : K) : evaluateSetting nm (numbers ([] : List K)) t = .error .index := by
  rw [evaluate_numbers]
  have hp : ∀ i : Int, pyIndex ([] : List K) i = none := by
    intro i
    unfold pyIndex
    simp
  simp only [gradient, hp]

end

example : ∃ v, evaluateSetting none (numbers [(0 : ℚ), 1, 1/2]) (1/4) = .ok (some (.num v)) ∧ v = 1/2 := by
  refine ⟨_, C20_segment none [(0 : ℚ), 1, 1/2] (1/4) 0 (by decide) (by norm_num) (by norm_num), by norm_num⟩

example : evaluateSetting none (.list ([.str "a".toList, .str "b".toList, .num (1 : ℚ)].map Elem.scalar)) (3/4) = .ok (some (.str "b".toList)) :=
  C20_words none [.str "a".toList, .str "b".toList, .num (1 : ℚ)] "a".toList (by simp) (3/4) 1 (by simp) (by norm_num) (by norm_num)

/-! ## C21 -/

section
variable {K : Type} [Field K] [LinearOrder K] [FloorRing K]

/-- When an entry applies to a tensor (specification). -/
def Applies (tensorName : Option Str) (c : Cond K) : Prop :=
  c.filter = none ∨ c.filter = some ['*'] ∨
    ∃ f n, c.filter = some f ∧ tensorName = some n ∧ n ≠ [] ∧ ∃ a b, n = a ++ f ++ b

theorem substr_iff (f n : Str) : substr f n = true ↔ ∃ a b, n = a ++ f ++ b := by
  induction n with
  | nil =>
    simp only [substr, List.isPrefixOf_iff_prefix]
    constructor
    · intro h
      exact ⟨[], [], by simpa using (List.prefix_nil.1 h).symm⟩
    · rintro ⟨a, b, h⟩
      have : f = [] := by
        have := congrArg List.length h
        simp at this
        exact List.length_eq_zero_iff.1 (by omega)
      subst this; exact List.nil_prefix
  | cons x xs ih =>
    simp only [substr, Bool.or_eq_true, List.isPrefixOf_iff_prefix, ih]
    constructor
    · rintro (⟨b, h⟩ | ⟨a, b, h⟩)
      · exact ⟨[], b, by simpa using h.symm⟩
      · exact ⟨x :: a, b, by simp [h]⟩
    · rintro ⟨a, b, h⟩
      cases a with
      | nil => left; exact ⟨b, by simpa using h.symm⟩
      | cons y ys =>
        right
        refine ⟨ys, b, ?_⟩
        simp only [List.cons_append, List.cons.injEq] at h
        exact h.2

theorem matchesFilter_iff (nm : Option Str) (c : Cond K) : matchesFilter nm c = true ↔ Applies nm c := by
  unfold matchesFilter Applies
  cases hf : c.filter with
  | none => simp
  | some f =>
    by_cases hs : f = ['*']
    · simp [hs]
    · simp only [hs, if_false]
      cases nm with
      | none => simp [hs]
      | some n =>
        cases n with
        | nil => simp [hs]
        | cons x xs =>
          simp only [substr_iff, reduceCtorEq, Option.some.injEq, hs, false_or]
          constructor
          · rintro ⟨a, b, h⟩
            exact ⟨f, x :: xs, rfl, rfl, by simp, a, b, h⟩
          · rintro ⟨f', n, h1, h2, _, a, b, h⟩
            subst h1 h2
            exact ⟨a, b, h⟩

/-- The value of an entry by itself. -/
def Cond.setting (c : Cond K) : Setting K :=
  match c.value with
  | .inl s => .scalar s
  | .inr l => .list (l.map Elem.scalar)

theorem evalConds_append (nm : Option Str) (t : K) (pre post : List (Cond K)) (c : Cond K)
    (hpre : ∀ p ∈ pre, ¬ Applies nm p) (hc : Applies nm c) :
    evalConds nm t ((pre ++ c :: post).map Elem.cond) = evaluateSetting nm c.setting t := by
  induction pre with
  | nil =>
    simp only [List.nil_append, List.map_cons, evalConds, (matchesFilter_iff nm c).2 hc, if_true]
    unfold Cond.setting
    cases c.value with
    | inl s => rfl
    | inr l => simp [evaluateSetting, allScalars_map]
  | cons p ps ih =>
    have hp : matchesFilter nm p = false := by
      rw [Bool.eq_false_iff]
      exact fun h => hpre p (by simp) ((matchesFilter_iff nm p).1 h)
    simp only [List.cons_append, List.map_cons, evalConds, hp]
    exact ih (fun q hq => hpre q (by simp [hq]))

/-- **C21** The first entry that applies decides. -/
theorem C21_first_match (nm : Option Str) (t : K) (pre post : List (Cond K)) (c : Cond K)
    (hpre : ∀ p ∈ pre, ¬ Applies nm p) (hc : Applies nm c) :
    evaluateSetting nm (.list ((pre ++ c :: post).map Elem.cond)) t = evaluateSetting nm c.setting t := by
  have h : allScalars ((pre ++ c :: post).map (Elem.cond (K := K))) = none := by
    cases pre <;> rfl
  conv_lhs => unfold evaluateSetting
  simp only [h]
  exact evalConds_append nm t pre post c hpre hc

/-- **C21** If no entry applies, there is no value. -/
theorem C21_no_match (nm : Option Str) (t : K) (cs : List (Cond K)) (hne : cs ≠ [])
    (h : ∀ p ∈ cs, ¬ Applies nm p) : evaluateSetting nm (.list (cs.map Elem.cond)) t = .ok none := by
  have h0 : allScalars (cs.map (Elem.cond (K := K))) = none := by
    cases cs with
    | nil => exact absurd rfl hne
    | cons c cs => rfl
  unfold evaluateSetting
  simp only [h0]
  clear h0 hne
  induction cs with
  | nil => rfl
  | cons p ps ih =>
    have hp : matchesFilter nm p = false := by
      rw [Bool.eq_false_iff]
      exact fun hh => h p (by simp) ((matchesFilter_iff nm p).1 hh)
    simp only [List.map_cons, evalConds, hp]
    exact ih (fun q hq => h q (by simp [hq]))

end

/-- A filter on attention, then one on the mlp, then a default. -/
def sampleConds : List (Cond ℚ) :=
  [⟨.inl (.num 1), some "attn".toList⟩, ⟨.inl (.num 2), some "mlp".toList⟩, ⟨.inl (.num 3), none⟩]

example : (∀ p ∈ sampleConds.take 1, ¬ Applies (some "layers.0.mlp.up".toList) p) ∧
    Applies (some "layers.0.mlp.up".toList) (⟨.inl (.num 2), some "mlp".toList⟩ : Cond ℚ) := by
  constructor
  · intro p hp
    rw [← matchesFilter_iff]
    simp only [sampleConds, List.take_succ_cons, List.take_zero, List.mem_singleton] at hp
    subst hp
    decide
  · rw [← matchesFilter_iff]; decide

/-! ## C22 -/

section
variable {K : Type} [Field K] [LinearOrder K] [FloorRing K]

/-- The settings that bear on a parameter, most specific first (specification): those of the sources for that model, the
slice's, the module's, the configuration's. -/
def levels (r : Reader K) (name : Str) (model : Option Ref) : List (Setting K) :=
  (match r.sliceOut, model with
    | some s, some m => s.sources.filterMap (fun src => if src.model = m then src.parameters.get name else none)
    | _, _ => []) ++
  (match r.sliceOut with
    | some s => (s.parameters.get name).toList
    | none => []) ++
  (match r.module with
    | some m => (m.parameters.get name).toList
    | none => []) ++
  (r.config.parameters.get name).toList

/-- Evaluate settings until one yields a value (or an error). -/
def firstValue (nm : Option Str) (t : K) : List (Setting K) → Except Err (Option (Scalar K))
  | [] => .ok none
  | s :: rest => orElse (evaluateSetting nm s t) (firstValue nm t rest)

theorem firstValue_append (nm : Option Str) (t : K) (a b : List (Setting K)) :
    firstValue nm t (a ++ b) = orElse (firstValue nm t a) (firstValue nm t b) := by
  induction a with
  | nil => rfl
  | cons x xs ih =>
    simp only [List.cons_append, firstValue, ih]
    cases evaluateSetting nm x t with
    | error e => rfl
    | ok o => cases o <;> rfl

theorem firstValue_toList (r : Reader K) (name : Str) (p : Params K) :
    firstValue r.tensorName r.t (p.get name).toList = r.fromParams name p := by
  unfold Reader.fromParams
  cases p.get name with
  | none => rfl
  | some s =>
    simp only [Option.toList_some, firstValue]
    cases evaluateSetting r.tensorName s r.t with
    | error e => rfl
    | ok o => cases o <;> rfl

theorem fromSources_eq (r : Reader K) (name : Str) (m : Ref) (srcs : List (InSlice K)) :
    r.fromSources name m srcs = firstValue r.tensorName r.t
      (srcs.filterMap (fun src => if src.model = m then src.parameters.get name else none)) := by
  induction srcs with
  | nil => rfl
  | cons s rest ih =>
    unfold Reader.fromSources
    rw [List.filterMap_cons]
    by_cases h : s.model = m
    · simp only [h, if_true]
      cases s.parameters.get name with
      | none => exact ih
      | some st =>
        simp only [firstValue]
        cases evaluateSetting r.tensorName st r.t with
        | error e => rfl
        | ok o =>
          cases o with
          | none => exact ih
          | some v => rfl
    · simp only [h, if_false]
      exact ih

theorem orElse_none {α : Type} (a : Except Err (Option α)) : orElse (.ok none) a = a := rfl

theorem orElse_assoc {α : Type} (a b c : Except Err (Option α)) : orElse (orElse a b) c = orElse a (orElse b c) := by
  cases a with
  | error e => rfl
  | ok o => cases o <;> rfl

theorem parameter_eq (r : Reader K) (name : Str) (model : Option Ref) (default : Option (Scalar K)) (required : Bool) :
    r.parameter name model default required =
      finish default required (firstValue r.tensorName r.t (levels r name model)) := by
  unfold Reader.parameter levels
  simp only [firstValue_append, firstValue_toList, orElse_assoc]
  have h1 : ∀ (m : Option (OutModule K)), firstValue r.tensorName r.t
      (match m with | some m => (m.parameters.get name).toList | none => []) =
      (match m with | none => .ok none | some m => r.fromParams name m.parameters) := by
    intro m
    cases m with
    | none => rfl
    | some m => exact firstValue_toList r name _
  rw [h1]
  cases r.sliceOut with
  | none => rfl
  | some s =>
    simp only [firstValue_toList]
    cases model with
    | none => rfl
    | some m => simp only [fromSources_eq, orElse_assoc]; cases r.module <;> rfl

/-- **C22** The most specific level with a value decides; levels whose conditional values do not apply are passed over. -/
theorem C22_most_specific (r : Reader K) (name : Str) (model : Option Ref) (default : Option (Scalar K))
    (required : Bool) (pre post : List (Setting K)) (s : Setting K) (v : Scalar K)
    (hl : levels r name model = pre ++ s :: post)
    (hpre : ∀ p ∈ pre, evaluateSetting r.tensorName p r.t = .ok none)
    (hs : evaluateSetting r.tensorName s r.t = .ok (some v)) :
    r.parameter name model default required = .ok (some v) := by
  rw [parameter_eq, hl]
  have : firstValue r.tensorName r.t (pre ++ s :: post) = .ok (some v) := by
    clear hl
    induction pre with
    | nil => simp [firstValue, hs, orElse]
    | cons p ps ih =>
      simp only [List.cons_append, firstValue, hpre p (by simp), orElse_none]
      exact ih (fun q hq => hpre q (by simp [hq]))
  rw [this]; rfl

/-- **C22** Without a value anywhere: the default, or an error if required. -/
theorem C22_no_value (r : Reader K) (name : Str) (model : Option Ref) (default : Option (Scalar K))
    (h : ∀ p ∈ levels r name model, evaluateSetting r.tensorName p r.t = .ok none) :
    r.parameter name model default true = .error .missing ∧ r.parameter name model default false = .ok default := by
  have : firstValue r.tensorName r.t (levels r name model) = .ok none := by
    generalize levels r name model = l at h
    induction l with
    | nil => rfl
    | cons p ps ih =>
      simp only [firstValue, h p (by simp), orElse_none]
      exact ih (fun q hq => h q (by simp [hq]))
  rw [parameter_eq, parameter_eq, this]
  simp [finish]

/-- **C22** A malformed value at a level that is reached is an error, never skipped. -/
theorem C22_malformed (r : Reader K) (name : Str) (model : Option Ref) (default : Option (Scalar K))
    (required : Bool) (pre post : List (Setting K)) (s : Setting K) (e : Err)
    (hl : levels r name model = pre ++ s :: post)
    (hpre : ∀ p ∈ pre, evaluateSetting r.tensorName p r.t = .ok none)
    (hs : evaluateSetting r.tensorName s r.t = .error e) :
    r.parameter name model default required = .error e := by
  rw [parameter_eq, hl]
  have : firstValue r.tensorName r.t (pre ++ s :: post) = .error e := by
    clear hl
    induction pre with
    | nil => simp [firstValue, hs, orElse]
    | cons p ps ih =>
      simp only [List.cons_append, firstValue, hpre p (by simp), orElse_none]
      exact ih (fun q hq => hpre q (by simp [hq]))
  rw [this]; rfl

/-- **C22** For the base model: the slice's own if it has one, else the configuration's. -/
theorem C22_base_model (r : Reader K) :
    (∀ s b, r.sliceOut = some s → s.baseModel = some b → r.baseModel = some b) ∧
    ((∀ s, r.sliceOut = some s → s.baseModel = none) → r.baseModel = r.config.baseModel) := by
  constructor
  · intro s b h1 h2
    simp [Reader.baseModel, h1, h2]
  · intro h
    unfold Reader.baseModel
    cases hs : r.sliceOut with
    | none => rfl
    | some s => simp [h s hs]

end

/-- A slice with a conditional weight on model "a", a weight on the slice and one for the whole configuration. -/
def sampleReader : Reader ℚ where
  config := { parameters := [("weight".toList, .scalar (.num 9))] }
  t := 0
  tensorName := some "mlp".toList
  sliceOut := some ⟨[⟨⟨⟨"a".toList, none⟩, none, none⟩, 0, 4,
      [("weight".toList, .list [.cond ⟨.inl (.num 1), some "attn".toList⟩])]⟩],
    none, [("weight".toList, .scalar (.num 5))]⟩

example : sampleReader.parameter "weight".toList (some ⟨⟨"a".toList, none⟩, none, none⟩) none true =
    .ok (some (.num 5)) := by
  refine C22_most_specific sampleReader _ _ _ _ [.list [.cond ⟨.inl (.num 1), some "attn".toList⟩]]
    [.scalar (.num 9)] (.scalar (.num 5)) (.num 5) rfl ?_ rfl
  intro p hp
  rw [List.mem_singleton] at hp
  subst hp
  decide

/-! ## C23 -/

/-- Given, and not empty. -/
def Given {α : Type} (o : Option (List α)) : Prop := ∃ x xs, o = some (x :: xs)

theorem truthy_iff {α : Type} (o : Option (List α)) : truthy o = true ↔ Given o := by
  unfold truthy Given
  split <;> simp

/-- **C23** A module is accepted exactly if it gives one of slices and models and not the other. -/
theorem C23_module {K : Type} (m : OutModule K) :
    m.valid = true ↔ (Given m.slices ∧ ¬ Given m.models) ∨ (¬ Given m.slices ∧ Given m.models) := by
  unfold OutModule.valid
  rw [← truthy_iff, ← truthy_iff]
  cases truthy m.slices <;> cases truthy m.models <;> simp

/-- **C23** A configuration is accepted exactly if its modules are, it gives exactly one of the three sections, and not both
tokenizer settings. -/
theorem C23_config {K : Type} (c : MergeConfig K) :
    c.valid = true ↔
      ((Given c.modules ∧ ¬ Given c.slices ∧ ¬ Given c.models) ∨ (¬ Given c.modules ∧ Given c.slices ∧ ¬ Given c.models) ∨
        (¬ Given c.modules ∧ ¬ Given c.slices ∧ Given c.models)) ∧
      ¬ (c.tokenizerSource = true ∧ c.tokenizer = true) ∧
      ∀ ms, c.modules = some ms → ∀ m ∈ ms,
        (Given m.2.slices ∧ ¬ Given m.2.models) ∨ (¬ Given m.2.slices ∧ Given m.2.models) := by
  unfold MergeConfig.valid
  rw [Bool.and_eq_true, Bool.and_eq_true]
  have h1 : c.validInputs = true ↔
      ((Given c.modules ∧ ¬ Given c.slices ∧ ¬ Given c.models) ∨ (¬ Given c.modules ∧ Given c.slices ∧ ¬ Given c.models) ∨
        (¬ Given c.modules ∧ ¬ Given c.slices ∧ Given c.models)) := by
    unfold MergeConfig.validInputs
    rw [← truthy_iff, ← truthy_iff, ← truthy_iff]
    cases truthy c.modules <;> cases truthy c.slices <;> cases truthy c.models <;> simp
  have h2 : c.validTokenizer = true ↔ ¬ (c.tokenizerSource = true ∧ c.tokenizer = true) := by
    unfold MergeConfig.validTokenizer
    cases c.tokenizerSource <;> cases c.tokenizer <;> simp
  have h3 : c.validModules = true ↔ ∀ ms, c.modules = some ms → ∀ m ∈ ms,
        (Given m.2.slices ∧ ¬ Given m.2.models) ∨ (¬ Given m.2.slices ∧ Given m.2.models) := by
    unfold MergeConfig.validModules
    cases c.modules with
    | none => simp
    | some ms =>
      simp only [List.all_eq_true, C23_module, Option.some.injEq, forall_eq']
  rw [h1, h2, h3]
  exact ⟨fun h => ⟨h.1.2, h.2, h.1.1⟩, fun h => ⟨⟨h.2.2, h.1⟩, h.2.1⟩⟩

example : (⟨none, some [⟨[], none, []⟩], none, none, false, true, []⟩ : MergeConfig ℚ).valid = true := by decide
example : (⟨none, some [⟨[], none, []⟩], some [⟨⟨⟨"a".toList, none⟩, none, none⟩, []⟩], none, false, true, []⟩ :
    MergeConfig ℚ).valid = false := by decide

end Verif.Config
