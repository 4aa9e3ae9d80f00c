import Verif.Props.TaskArith
import Mathlib.Algebra.Order.BigOperators.Group.List
import Mathlib.Algebra.BigOperators.Ring.List
import Mathlib.Tactic.Linarith
import Mathlib.Tactic.FieldSimp
import Mathlib.Tactic.Ring
import Mathlib.Data.Rat.Floor

/-! # C45, C46, C48: SCE, RAM and methods defined by the decorator -/

set_option linter.unusedSectionVars false

namespace Verif.Merge

open Verif.Tensor

section
variable {K : Type} [Field K] [LinearOrder K]

/-- Model tensors minus the base. -/
def minus (base t : Tensor K) : Tensor K := ⟨base.shape, fun i => t.get i - base.get i⟩

theorem subtractAll_ok (base : Tensor K) (ts : List (Tensor K)) (h : ∀ t ∈ ts, t.shape = base.shape) :
    subtractAll base ts = .ok (ts.map (minus base)) := by
  induction ts with
  | nil => rfl
  | cons t ts ih =>
    unfold subtractAll
    rw [ih (fun x hx => h x (by simp [hx]))]
    simp [map2, h t (by simp), minus]

/-- The models that changed position `i`: differ from the base by more than `epsilon` (specification). -/
def changedAt (epsilon : K) (base : Tensor K) (ts : List (Tensor K)) (i : Nat) : List (Tensor K) :=
  ts.filter (fun t => decide (epsilon < |t.get i - base.get i|))

theorem contrib_eq (epsilon : K) (base : Tensor K) (ts : List (Tensor K)) (i : Nat) :
    contrib epsilon ((ts.map (minus base)).map (fun d => d.get i)) = (changedAt epsilon base ts i).length := by
  unfold contrib changedAt
  rw [List.countP_map, List.countP_map, List.countP_eq_length_filter]
  rfl

/-- What the models contribute, for lambda factors `lam`. -/
theorem ram_sum (epsilon : K) (lam : Tensor K → K) (base : Tensor K) (ts : List (Tensor K)) (i count : Nat) :
    (ts.map (fun t => ramTerm epsilon (lam t) count ((minus base t).get i))).sum =
      ((changedAt epsilon base ts i).map (fun t =>
        if count = 1 then lam t * (t.get i - base.get i)
        else if count > 1 then (t.get i - base.get i) / count else 0)).sum := by
  induction ts with
  | nil => rfl
  | cons t ts ih =>
    unfold changedAt at ih ⊢
    rw [List.map_cons, List.sum_cons, ih]
    by_cases h : epsilon < |t.get i - base.get i|
    · rw [List.filter_cons_of_pos (by simpa using h), List.map_cons, List.sum_cons]
      congr 1
      have hb : (ofBool (changed epsilon ((minus base t).get i)) : K) = 1 := by
        simp [changed, minus, h, ofBool]
      unfold ramTerm
      simp only [hb, mul_one]
      show (t.get i - base.get i) * _ * _ + (t.get i - base.get i) * _ / _ = _
      by_cases h1 : count = 1
      · subst h1
        simp [ofBool, mul_comm]
      · by_cases h2 : count > 1
        · rw [max_eq_left (by omega : 1 ≤ count)]
          simp [ofBool, h1, h2]
        · simp [ofBool, h1, h2]
    · rw [List.filter_cons_of_neg (by simpa using h)]
      have hb : (ofBool (changed epsilon ((minus base t).get i)) : K) = 0 := by
        simp only [changed, minus, h, ofBool]
        simp
      unfold ramTerm
      simp only [hb, mul_zero, zero_mul, zero_div, add_zero, zero_add]

theorem sum_map_if (l : List (Tensor K)) (n : Nat) (f g : Tensor K → K) :
    (l.map (fun t => if n = 1 then f t else if n > 1 then g t else 0)).sum =
      if n = 1 then (l.map f).sum else if n > 1 then (l.map g).sum else 0 := by
  by_cases h1 : n = 1
  · simp [h1]
  · by_cases h2 : n > 1
    · simp [h1, h2]
    · simp [h1, h2]

variable [IsStrictOrderedRing K]

/-- **C46** RAM: where no model changed the base, the base; where exactly one did, its value; where several did, the mean
of their values. -/
theorem C46_ram (ts : List (Tensor K)) (base : Tensor K) (epsilon : K) (hs : ∀ t ∈ ts, t.shape = base.shape) :
    ∃ r, ram ts base epsilon = .ok r ∧ r.shape = base.shape ∧ ∀ i,
      (changedAt epsilon base ts i = [] → r.get i = base.get i) ∧
      (∀ t, changedAt epsilon base ts i = [t] → r.get i = t.get i) ∧
      (2 ≤ (changedAt epsilon base ts i).length →
        r.get i = ((changedAt epsilon base ts i).map (fun t => t.get i)).sum / (changedAt epsilon base ts i).length) := by
  have key : ∃ r, ram ts base epsilon = .ok r ∧ r.shape = base.shape ∧ ∀ i, r.get i = base.get i +
      ((changedAt epsilon base ts i).map (fun t =>
        if (changedAt epsilon base ts i).length = 1 then 1 * (t.get i - base.get i)
        else if (changedAt epsilon base ts i).length > 1 then (t.get i - base.get i) / (changedAt epsilon base ts i).length else 0)).sum := by
    unfold ram
    cases ts with
    | nil => exact ⟨base, rfl, rfl, fun i => by simp [changedAt]⟩
    | cons t ts =>
      simp only [subtractAll_ok base (t :: ts) hs]
      refine ⟨_, rfl, rfl, fun i => ?_⟩
      simp only
      congr 1
      rw [contrib_eq, List.map_map, List.map_map]
      exact ram_sum epsilon (fun _ => 1) base (t :: ts) i _
  obtain ⟨r, h1, h2, h3⟩ := key
  refine ⟨r, h1, h2, fun i => ⟨?_, ?_, ?_⟩⟩
  · intro h
    rw [h3, h]
    simp
  · intro t h
    rw [h3, h]
    simp
  · intro h
    rw [h3, sum_map_if]
    generalize changedAt epsilon base ts i = l at h ⊢
    have hl : ((l.length : Nat) : K) ≠ 0 := by
      have : 0 < l.length := by omega
      exact Nat.cast_ne_zero.2 (by omega)
    rw [if_neg (by omega), if_pos (by omega)]
    have : (l.map (fun t => (t.get i - base.get i) / (l.length : K))).sum =
        ((l.map (fun t => t.get i)).sum - l.length * base.get i) / l.length := by
      have e : ∀ (c : K) (l' : List (Tensor K)), (l'.map (fun t => (t.get i - base.get i) / c)).sum =
          ((l'.map (fun t => t.get i)).sum - l'.length * base.get i) / c := by
        intro c l'
        induction l' with
        | nil => simp
        | cons x l' ih =>
          simp only [List.map_cons, List.sum_cons, ih, List.length_cons, Nat.cast_add, Nat.cast_one]
          ring
      exact e _ l
    rw [this]
    field_simp
    ring

/-- Number of positions that `t` and at least one other model changed (specification). -/
def sharedCount (epsilon : K) (base : Tensor K) (ts : List (Tensor K)) (t : Tensor K) : Nat :=
  ((List.range base.numel).filter (fun j => decide (epsilon < |t.get j - base.get j| ∧ 2 ≤ (changedAt epsilon base ts j).length))).length

/-- Number of positions that only `t` changed (specification). -/
def uniqueCount (epsilon : K) (base : Tensor K) (ts : List (Tensor K)) (t : Tensor K) : Nat :=
  ((List.range base.numel).filter (fun j => decide (epsilon < |t.get j - base.get j| ∧ (changedAt epsilon base ts j).length = 1))).length

theorem ramLambda_eq (r alpha epsilon : K) (base : Tensor K) (ts : List (Tensor K)) (t : Tensor K) (he : 0 < epsilon) :
    ramLambda r alpha epsilon (ts.map (minus base)) base.numel (minus base t) =
      1 + r * clamp 0 alpha ((sharedCount epsilon base ts t : K) / max (uniqueCount epsilon base ts t : K) epsilon) := by
  unfold ramLambda
  simp only
  rw [if_neg (lt_of_lt_of_le he (le_max_right _ _)).ne']
  have h1 : countEntries epsilon (ts.map (minus base)) (fun c => decide (c > 1)) base.numel (minus base t) =
      sharedCount epsilon base ts t := by
    unfold countEntries sharedCount
    rw [List.countP_eq_length_filter]
    congr 2
    funext j
    rw [contrib_eq, Bool.decide_and]
    rfl
  have h2 : countEntries epsilon (ts.map (minus base)) (fun c => decide (c = 1)) base.numel (minus base t) =
      uniqueCount epsilon base ts t := by
    unfold countEntries uniqueCount
    rw [List.countP_eq_length_filter]
    congr 2
    funext j
    rw [contrib_eq, Bool.decide_and]
    rfl
  rw [h1, h2]

/-- **C46** RAM+: as RAM, but the change of a model where only it changed the base is multiplied by
`1 + r * min(shared / unique, alpha)`. -/
theorem C46_ramplus (ts : List (Tensor K)) (base : Tensor K) (r alpha epsilon : K) (hs : ∀ t ∈ ts, t.shape = base.shape)
    (he : 0 < epsilon) (he1 : epsilon ≤ 1) (ha : 0 ≤ alpha) :
    ∃ y, ramPlus ts base r alpha epsilon = .ok y ∧ y.shape = base.shape ∧ ∀ i < base.numel,
      (changedAt epsilon base ts i = [] → y.get i = base.get i) ∧
      (∀ t, changedAt epsilon base ts i = [t] → y.get i = base.get i +
        (1 + r * min ((sharedCount epsilon base ts t : K) / (uniqueCount epsilon base ts t : K)) alpha) * (t.get i - base.get i)) ∧
      (2 ≤ (changedAt epsilon base ts i).length →
        ∃ x, ram ts base epsilon = .ok x ∧ y.get i = x.get i) := by
  have key : ∃ y, ramPlus ts base r alpha epsilon = .ok y ∧ y.shape = base.shape ∧ ∀ i, y.get i = base.get i +
      ((changedAt epsilon base ts i).map (fun t =>
        if (changedAt epsilon base ts i).length = 1 then
          ramLambda r alpha epsilon (ts.map (minus base)) base.numel (minus base t) * (t.get i - base.get i)
        else if (changedAt epsilon base ts i).length > 1 then (t.get i - base.get i) / (changedAt epsilon base ts i).length else 0)).sum := by
    unfold ramPlus
    cases ts with
    | nil => exact ⟨base, rfl, rfl, fun i => by simp [changedAt]⟩
    | cons t ts =>
      simp only [subtractAll_ok base (t :: ts) hs]
      rw [if_neg]
      · refine ⟨_, rfl, rfl, fun i => ?_⟩
        simp only
        congr 1
        rw [contrib_eq, List.map_map]
        exact ram_sum epsilon (fun t' => ramLambda r alpha epsilon ((t :: ts).map (minus base)) base.numel (minus base t')) base (t :: ts) i _
      · simp only [Bool.not_eq_true, List.any_eq_false]
        intro d _
        unfold ramUndefined
        rw [decide_eq_false (lt_of_lt_of_le he (le_max_right _ _)).ne']
        simp
  obtain ⟨y, h1, h2, h3⟩ := key
  obtain ⟨x, g1, _, g3⟩ := C46_ram ts base epsilon hs
  refine ⟨y, h1, h2, fun i hi => ⟨?_, ?_, ?_⟩⟩
  · intro h
    rw [h3, h]
    simp
  · intro t h
    rw [h3, h]
    simp only [List.length_singleton, if_true, List.map_cons, List.map_nil, List.sum_cons, List.sum_nil, add_zero]
    rw [ramLambda_eq r alpha epsilon base ts t he]
    have ht : t ∈ changedAt epsilon base ts i := by rw [h]; simp
    have hu : 1 ≤ uniqueCount epsilon base ts t := by
      unfold uniqueCount
      apply List.length_pos_of_mem (a := i)
      rw [List.mem_filter]
      refine ⟨List.mem_range.2 hi, ?_⟩
      rw [h]
      simpa using (List.mem_filter.1 ht).2
    have hu' : (1 : K) ≤ (uniqueCount epsilon base ts t : K) := by exact_mod_cast hu
    rw [max_eq_left (le_trans he1 hu')]
    unfold clamp
    rw [max_eq_left (div_nonneg (Nat.cast_nonneg _) (Nat.cast_nonneg _))]
  · intro h
    refine ⟨x, g1, ?_⟩
    rw [h3, (g3 i).2.2 h, sum_map_if]
    generalize changedAt epsilon base ts i = l at h ⊢
    have hl : ((l.length : Nat) : K) ≠ 0 := by
      have : 0 < l.length := by omega
      exact Nat.cast_ne_zero.2 (by omega)
    rw [if_neg (by omega), if_pos (by omega)]
    have e : ∀ (c : K) (l' : List (Tensor K)), (l'.map (fun t => (t.get i - base.get i) / c)).sum =
        ((l'.map (fun t => t.get i)).sum - l'.length * base.get i) / c := by
      intro c l'
      induction l' with
      | nil => simp
      | cons x l' ih =>
        simp only [List.map_cons, List.sum_cons, ih, List.length_cons, Nat.cast_add, Nat.cast_one]
        ring
    rw [e]
    field_simp
    ring

/-! ## C45 -/

variable [FloorRing K]

theorem sceEntry_zeros (ws xs : List K) (h : ∀ x ∈ xs, x = 0) : sceEntry ws xs = 0 := by
  unfold sceEntry
  simp only
  have : (List.map (fun e : K × K => e.1 * e.2) (xs.zip ((ws.zip (mask .sum xs)).map (fun e => e.1 * ofBool e.2)))).sum = 0 := by
    apply List.sum_eq_zero
    intro y hy
    obtain ⟨e, he, rfl⟩ := List.mem_map.1 hy
    rw [h e.1 (List.of_mem_zip he).1, zero_mul]
  rw [this, zero_div]

/-- Variance of numbers: the mean of the squares less the square of the mean (specification). -/
def spread (xs : List K) : K := (xs.map (fun x => x ^ 2)).sum / xs.length - (xs.sum / xs.length) ^ 2

omit [FloorRing K] in
theorem variance_eq (xs : List K) : variance xs = spread xs := by
  unfold variance spread
  have h : ∀ (m : K) (l : List K), (l.map (fun x => (x - m) * (x - m))).sum = (l.map (fun x => x ^ 2)).sum - 2 * m * l.sum + l.length * m ^ 2 := by
    intro m l
    induction l with
    | nil => simp
    | cons x l ih =>
      simp only [List.map_cons, List.sum_cons, ih, List.length_cons, Nat.cast_add, Nat.cast_one]
      ring
  simp only [h]
  cases xs with
  | nil => simp
  | cons x xs =>
    have : ((x :: xs).length : K) ≠ 0 := by
      rw [List.length_cons]
      exact Nat.cast_ne_zero.2 (Nat.succ_ne_zero _)
    field_simp
    ring

/-- Number of positions where the changes of the models have non-zero variance. -/
def varyingCount (base : Tensor K) (ts : List (Tensor K)) : Nat :=
  (List.range base.numel).countP (fun i => decide (spread (ts.map (fun t => t.get i - base.get i)) ≠ 0))

theorem sce_entries (topk : (Nat → K) → Nat → List Nat) (ts : List (Tensor K)) (base : Tensor K) (sel : K)
    (h0 : 0 < sel) (h1 : sel < 1) (hk : 1 ≤ ⌊(varyingCount base ts : K) * sel⌋) :
    sceMask topk (ts.map (minus base)) base.numel sel =
      .entries (fun i => decide (i ∈ topk (fun i => |spread (ts.map (fun t => t.get i - base.get i))|) ⌊(varyingCount base ts : K) * sel⌋.toNat)) := by
  unfold sceMask
  rw [if_neg (not_le.2 h0), if_neg (not_le.2 h1)]
  have : ∀ i, (ts.map (minus base)).map (fun d => d.get i) = ts.map (fun t => t.get i - base.get i) := by
    intro i
    rw [List.map_map]
    rfl
  simp only [this, variance_eq]
  rw [if_neg]
  · rfl
  · change ¬ ⌊(varyingCount base ts : K) * sel⌋.toNat = 0
    omega

/-- **C45** If all positions are used (`select_topk` at least 1), or if at least one position is selected, the result has the shape of the
inputs and equals the base where nothing was selected.  Otherwise see `C45_wrong_shape`. -/
theorem C45_shape_partial (topk : (Nat → K) → Nat → List Nat) (ts : List (Tensor K)) (base : Tensor K) (sel : K)
    (hs : ∀ t ∈ ts, t.shape = base.shape)
    (h : 1 ≤ sel ∨ (0 < sel ∧ 1 ≤ ⌊(varyingCount base ts : K) * sel⌋)) :
    ∃ r, sce topk ts base sel = .ok r ∧ r.shape = base.shape ∧
      (sel < 1 → ∀ i, i ∉ topk (fun i => |spread (ts.map (fun t => t.get i - base.get i))|) ⌊(varyingCount base ts : K) * sel⌋.toNat →
        r.get i = base.get i) ∧
      ∀ i, (∀ t ∈ ts, t.get i = base.get i) → r.get i = base.get i := by
  unfold sce
  cases ts with
  | nil => exact ⟨base, rfl, rfl, fun _ _ _ => rfl, fun _ _ => rfl⟩
  | cons t ts =>
    simp only [subtractAll_ok base (t :: ts) hs]
    by_cases h1 : sel < 1
    · rw [if_pos h1]
      have h' : 0 < sel ∧ 1 ≤ ⌊(varyingCount base (t :: ts) : K) * sel⌋ := by
        rcases h with h | h
        · exact absurd h1 (not_lt.2 h)
        · exact h
      rw [sce_entries topk (t :: ts) base sel h'.1 h1 h'.2]
      refine ⟨_, rfl, rfl, ?_, ?_⟩
      · intro _ i hi
        simp only
        rw [sceEntry_zeros, add_zero]
        intro x hx
        obtain ⟨d, hd, rfl⟩ := List.mem_map.1 hx
        obtain ⟨d', _, rfl⟩ := List.mem_map.1 hd
        have : (ofBool false : K) = 0 := rfl
        simp only [decide_eq_false hi, this, mul_zero]
      · intro i hi
        simp only
        rw [sceEntry_zeros, add_zero]
        intro x hx
        obtain ⟨d, hd, rfl⟩ := List.mem_map.1 hx
        obtain ⟨d', hd', rfl⟩ := List.mem_map.1 hd
        obtain ⟨t', ht', rfl⟩ := List.mem_map.1 hd'
        simp [minus, hi t' ht']
    · rw [if_neg h1]
      refine ⟨_, rfl, rfl, fun h => absurd h h1, ?_⟩
      intro i hi
      simp only
      rw [sceEntry_zeros, add_zero]
      intro x hx
      obtain ⟨d, hd, rfl⟩ := List.mem_map.1 hx
      obtain ⟨d', hd', rfl⟩ := List.mem_map.1 hd
      obtain ⟨t', ht', rfl⟩ := List.mem_map.1 hd'
      simp [minus, hi t' ht']

/-- The change of a model at a position, 0 where the position was not selected (specification). -/
def selectedChange (base : Tensor K) (S : Nat → Bool) (t : Tensor K) (i : Nat) : K := if S i then t.get i - base.get i else 0

/-- Mean square of the selected changes of a model (specification). -/
def meanSquare (base : Tensor K) (S : Nat → Bool) (t : Tensor K) : K :=
  ((List.range base.numel).map (fun i => selectedChange base S t i ^ 2)).sum / (base.numel : K)

/-- The weight of a model: its share of the mean squares, equal shares if these are (almost) 0 together (specification). -/
def sceShare (base : Tensor K) (S : Nat → Bool) (ts : List (Tensor K)) (t : Tensor K) : K :=
  if |(ts.map (meanSquare base S)).sum| < 1 / 1000000 then 1 / (ts.length : K) else meanSquare base S t / (ts.map (meanSquare base S)).sum

/-- The models whose selected change has the sign of the sum of all (specification). -/
def sceAgree (base : Tensor K) (S : Nat → Bool) (ts : List (Tensor K)) (i : Nat) : List (Tensor K) :=
  ts.filter (fun t => decide (if 0 ≤ (ts.map (fun t => selectedChange base S t i)).sum then 0 < selectedChange base S t i
    else selectedChange base S t i < 0))

omit [FloorRing K] in
theorem sceEntry_eq (w x : Tensor K → K) (ts : List (Tensor K)) :
    sceEntry (ts.map w) (ts.map x) =
      ((ts.filter (fun t => decide (if 0 ≤ (ts.map x).sum then 0 < x t else x t < 0))).map (fun t => w t * x t)).sum /
        max ((ts.filter (fun t => decide (if 0 ≤ (ts.map x).sum then 0 < x t else x t < 0))).map w).sum (1 / 1000000) := by
  have hkey : ∀ t, (sgn (x t) = majority .sum (ts.map x)) ↔ (if 0 ≤ (ts.map x).sum then 0 < x t else x t < 0) := by
    intro t
    have := sgn_eq_iff (majority .sum (ts.map x)) (x t) (majority_cases .sum _)
    rw [this]
    simp only [majority]
    split
    · simp
    · rw [neg_one_mul, neg_pos]
  have hf : ∀ (g : Tensor K → K) (l : List (Tensor K)),
      (l.map (fun t => g t * ofBool (decide (sgn (x t) = majority .sum (ts.map x))))).sum =
      ((l.filter (fun t => decide (if 0 ≤ (ts.map x).sum then 0 < x t else x t < 0))).map g).sum := by
    intro g l
    induction l with
    | nil => rfl
    | cons t l ih =>
      rw [List.map_cons, List.sum_cons, ih]
      by_cases h : (if 0 ≤ (ts.map x).sum then 0 < x t else x t < 0)
      · rw [List.filter_cons_of_pos (by simpa using h), decide_eq_true ((hkey t).2 h)]
        simp [ofBool]
      · rw [List.filter_cons_of_neg (by simpa using h), decide_eq_false (fun hh => h ((hkey t).1 hh))]
        simp [ofBool]
  have hm : mask .sum (ts.map x) = ts.map (fun t => decide (sgn (x t) = majority .sum (ts.map x))) := by
    unfold mask
    rw [List.map_map]
    rfl
  unfold sceEntry
  simp only
  rw [hm, List.zip_map', List.map_map, List.zip_map', List.map_map]
  have h2 := hf w ts
  have h1 := hf (fun t => w t * x t) ts
  simp only [Function.comp_def]
  rw [h2, ← h1]
  congr 2
  refine List.map_congr_left (fun t _ => ?_)
  ring

/-- **C45** The value: at every position the base plus the mean, weighted by the shares of the mean squares, of the selected changes that have the
sign of their sum (changes without such a sign do not count; the divisor is at least 1e-6). -/
theorem C45_value_partial (topk : (Nat → K) → Nat → List Nat) (ts : List (Tensor K)) (base : Tensor K) (sel : K) (hne : ts ≠ [])
    (hs : ∀ t ∈ ts, t.shape = base.shape)
    (h : 1 ≤ sel ∨ (0 < sel ∧ 1 ≤ ⌊(varyingCount base ts : K) * sel⌋)) :
    ∃ r S, sce topk ts base sel = .ok r ∧ r.shape = base.shape ∧
      (∀ i, S i = true ↔ 1 ≤ sel ∨
        i ∈ topk (fun i => |spread (ts.map (fun t => t.get i - base.get i))|) ⌊(varyingCount base ts : K) * sel⌋.toNat) ∧
      ∀ i, r.get i = base.get i +
        ((sceAgree base S ts i).map (fun t => sceShare base S ts t * selectedChange base S t i)).sum /
          max ((sceAgree base S ts i).map (sceShare base S ts)).sum (1 / 1000000) := by
  have key : ∀ S : Nat → Bool, ∀ i,
      sceEntry (sceWeights ((ts.map (minus base)).map (fun d => (⟨d.shape, fun i => d.get i * ofBool (S i)⟩ : Tensor K))) base.numel)
        (((ts.map (minus base)).map (fun d => (⟨d.shape, fun i => d.get i * ofBool (S i)⟩ : Tensor K))).map (fun d => d.get i)) =
      ((sceAgree base S ts i).map (fun t => sceShare base S ts t * selectedChange base S t i)).sum /
          max ((sceAgree base S ts i).map (sceShare base S ts)).sum (1 / 1000000) := by
    intro S i
    have hget : ∀ t i, (minus base t).get i * ofBool (S i) = selectedChange base S t i := by
      intro t i
      unfold selectedChange minus ofBool
      cases S i <;> simp
    have hx : (((ts.map (minus base)).map (fun d => (⟨d.shape, fun i => d.get i * ofBool (S i)⟩ : Tensor K))).map (fun d => d.get i)) =
        ts.map (fun t => selectedChange base S t i) := by
      rw [List.map_map, List.map_map]
      exact List.map_congr_left (fun t _ => hget t i)
    have hw : sceWeights ((ts.map (minus base)).map (fun d => (⟨d.shape, fun i => d.get i * ofBool (S i)⟩ : Tensor K))) base.numel =
        ts.map (sceShare base S ts) := by
      unfold sceWeights
      have hsq : (((ts.map (minus base)).map (fun d => (⟨d.shape, fun i => d.get i * ofBool (S i)⟩ : Tensor K))).map
          (fun d => ((List.range base.numel).map (fun i => d.get i * d.get i)).sum / (base.numel : K))) = ts.map (meanSquare base S) := by
        rw [List.map_map, List.map_map]
        refine List.map_congr_left (fun t _ => ?_)
        simp only [Function.comp_def, hget, meanSquare, pow_two]
      simp only [hsq]
      by_cases hc : |(ts.map (meanSquare base S)).sum| < 1 / 1000000
      · rw [if_pos hc, List.map_map, List.map_map, List.length_map, List.length_map]
        refine List.map_congr_left (fun t _ => ?_)
        simp only [Function.comp_def, sceShare]
        rw [if_pos hc]
      · rw [if_neg hc, List.map_map]
        refine List.map_congr_left (fun t _ => ?_)
        simp only [Function.comp_def, sceShare]
        rw [if_neg hc]
    rw [hx, hw, sceEntry_eq]
    rfl
  unfold sce
  cases ts with
  | nil => exact absurd rfl hne
  | cons t ts =>
    simp only [subtractAll_ok base (t :: ts) hs]
    by_cases h1 : sel < 1
    · rw [if_pos h1]
      have h' : 0 < sel ∧ 1 ≤ ⌊(varyingCount base (t :: ts) : K) * sel⌋ := by
        rcases h with h | h
        · exact absurd h1 (not_lt.2 h)
        · exact h
      rw [sce_entries topk (t :: ts) base sel h'.1 h1 h'.2]
      refine ⟨_, fun i => decide (i ∈ topk (fun i => |spread ((t :: ts).map (fun t => t.get i - base.get i))|) ⌊(varyingCount base (t :: ts) : K) * sel⌋.toNat), rfl, rfl, ?_, fun i => ?_⟩
      · intro i
        simp [not_le.2 h1]
      · simp only
        rw [key]
    · rw [if_neg h1]
      refine ⟨_, fun _ => true, rfl, rfl, ?_, fun i => ?_⟩
      · intro i
        simp [not_lt.1 h1]
      · simp only
        rw [key]

/-- **C45** refuted: if no position is selected, the result has an additional dimension - for instance always with a single model besides the
base and `select_topk` below 1. -/
theorem C45_wrong_shape (topk : (Nat → K) → Nat → List Nat) (t : Tensor K) (base : Tensor K) (sel : K)
    (hs : t.shape = base.shape) (h1 : sel < 1) :
    ∃ r, sce topk [t] base sel = .ok r ∧ r.shape = 1 :: base.shape := by
  unfold sce
  simp only [subtractAll_ok base [t] (by simpa using hs)]
  rw [if_pos h1]
  have hm : sceMask topk ([t].map (minus base)) base.numel sel = .stackZeros := by
    unfold sceMask
    by_cases h0 : sel ≤ 0
    · rw [if_pos h0]
    · rw [if_neg h0, if_neg (not_le.2 h1)]
      have hv : ∀ x : K, variance [x] = 0 := by
        intro x
        simp [variance]
      simp only [List.map_cons, List.map_nil, hv]
      simp
  rw [hm]
  exact ⟨_, rfl, rfl⟩

end

/-! ## C48 -/

section
variable {M V P : Type} [DecidableEq M]

theorem mapM_forall₂ {A B : Type} (f : A → Option B) (as : List A) (bs : List B) :
    as.mapM f = some bs ↔ List.Forall₂ (fun a b => f a = some b) as bs := by
  induction as generalizing bs with
  | nil => simp [List.forall₂_nil_left_iff, eq_comm]
  | cons a as ih =>
    rw [List.mapM_cons]
    cases h : f a with
    | none =>
      simp only [Option.bind_eq_bind, Option.bind_none, reduceCtorEq, false_iff]
      intro hh
      cases hh with
      | cons h1 _ => rw [h] at h1; cases h1
    | some b =>
      simp only [Option.bind_eq_bind, Option.bind_some]
      cases h2 : as.mapM f with
      | none =>
        simp only [Option.bind_none, reduceCtorEq, false_iff]
        intro hh
        cases hh with
        | cons _ h3 =>
          rw [(ih _).2 h3] at h2
          cases h2
      | some bs' =>
        simp only [Option.bind_some, Option.pure_def, Option.some.injEq]
        constructor
        · rintro rfl
          exact .cons h ((ih _).1 h2)
        · intro hh
          cases hh with
          | cons h1 h3 =>
            rw [h] at h1
            rw [(ih _).2 h3] at h2
            cases h1
            cases h2
            rfl

theorem mapM_total {A B : Type} (f : A → Option B) (as : List A) (h : ∀ a ∈ as, (f a).isSome) : ∃ bs, as.mapM f = some bs := by
  induction as with
  | nil => exact ⟨[], rfl⟩
  | cons a as ih =>
    obtain ⟨bs, hbs⟩ := ih (fun x hx => h x (by simp [hx]))
    obtain ⟨b, hb⟩ := Option.isSome_iff_exists.1 (h a (by simp))
    exact ⟨b :: bs, by simp [List.mapM_cons, hb, hbs]⟩

theorem lookup_isSome (tensors : List (M × V)) (m : M) : (lookup tensors m).isSome = true ↔ m ∈ tensors.map Prod.fst := by
  unfold lookup
  rw [Option.isSome_map, List.find?_isSome]
  simp only [decide_eq_true_eq, List.mem_map]

/-- **C48** A method defined through the decorator is called with the tensors and the parameter values of the same models in the same
order; these are all models, with the base first if the method asks for the base model, or all but the base if the method takes
the base tensor separately.  `order` is any order of the models. -/
theorem C48_aligned (sig : Signature) (order : List M) (baseModel : Option M) (tensors : List (M × V)) (param : M → Option P)
    (hkeys : order.Perm (tensors.map Prod.fst)) (hnodup : (tensors.map Prod.fst).Nodup)
    (hparam : ∀ m ∈ order, (param m).isSome)
    (hreq : sig.useBase = true → sig.requireBase = true → ∃ b, baseModel = some b ∧ b ∈ order) :
    ∃ ms ts bt ps, easyExecute sig order baseModel tensors param = .ok (ms, ts, bt, ps) ∧
      List.Forall₂ (fun m t => lookup tensors m = some t) ms ts ∧
      List.Forall₂ (fun m p => param m = some p) ms ps ∧
      (sig.useBase = true → bt = baseModel.bind (lookup tensors) ∧
        ms.Perm ((tensors.map Prod.fst).filter (fun m => decide (some m ≠ baseModel)))) ∧
      (sig.useBase = false → bt = none ∧ ms.Perm (tensors.map Prod.fst) ∧
        (sig.usesBaseModel = true → ∀ b, baseModel = some b → b ∈ tensors.map Prod.fst → ms.head? = some b)) := by
  have hno : order.Nodup := hkeys.nodup_iff.2 hnodup
  unfold easyExecute
  generalize hrefs : easyRefs sig order baseModel = refs
  unfold easyRefs easyBase at hrefs
  have hsub : ∀ m ∈ refs, m ∈ order := by
    intro m hm
    rw [← hrefs] at hm
    split at hm
    · exact hm
    · split at hm
      · split at hm
        · exact (List.mem_filter.1 hm).1
        · rcases List.mem_cons.1 hm with rfl | hm
          · assumption
          · exact (List.mem_filter.1 hm).1
      · exact hm
  obtain ⟨ts, hts⟩ := mapM_total (lookup tensors) refs (fun m hm => (lookup_isSome tensors m).2 (hkeys.mem_iff.1 (hsub m hm)))
  obtain ⟨ps, hps⟩ := mapM_total param refs (fun m hm => hparam m (hsub m hm))
  rw [hts]
  simp only
  unfold easyBaseTensor easyBase
  rw [if_neg]
  · rw [hps]
    refine ⟨refs, ts, _, ps, rfl, (mapM_forall₂ _ _ _).1 hts, (mapM_forall₂ _ _ _).1 hps, ?_, ?_⟩
    · intro hu
      rw [hu] at hrefs ⊢
      simp only [Bool.or_true, if_true] at hrefs ⊢
      constructor
      · trivial
      · rw [← hrefs]
        cases baseModel with
        | none => simpa using hkeys
        | some b =>
          simp only
          split
          · have := hkeys.filter (fun m => decide (m ≠ b))
            simpa using this
          · rename_i hb
            have h2 : (tensors.map Prod.fst).filter (fun m => decide (some m ≠ some b)) = tensors.map Prod.fst := by
              rw [List.filter_eq_self]
              intro m hm
              have : m ≠ b := fun h => hb (hkeys.mem_iff.2 (h ▸ hm))
              simpa using this
            rw [h2]
            exact hkeys
    · intro hu
      rw [hu] at hrefs ⊢
      simp only [Bool.or_false, Bool.false_eq_true, if_false] at hrefs ⊢
      refine ⟨trivial, ?_, ?_⟩
      · rw [← hrefs]
        split
        · exact hkeys
        · rename_i b _
          split
          · rename_i hb
            refine List.Perm.trans ?_ hkeys
            have hf : order.filter (fun m => decide (m ≠ b)) = order.erase b := by
              rw [hno.erase_eq_filter]
              congr 1
              funext m
              by_cases h : m = b <;> simp [h]
            rw [hf]
            exact (List.perm_cons_erase hb).symm
          · exact hkeys
      · intro hbm b hb hmem
        rw [← hrefs, hbm, hb]
        simp [hkeys.mem_iff.2 hmem]
  · intro hc
    rw [Bool.and_eq_true, Bool.and_eq_true] at hc
    obtain ⟨b, rfl, hbo⟩ := hreq hc.1.1 hc.1.2
    have h2 := hc.2
    rw [hc.1.1] at h2
    simp only [Bool.or_true, if_true] at h2
    have h3 := (lookup_isSome tensors b).2 (hkeys.mem_iff.1 hbo)
    rw [Option.isNone_iff_eq_none] at h2
    simp only [Option.bind_some] at h2
    rw [h2] at h3
    cases h3

/-- **C48** A missing required base tensor is an error. -/
theorem C48_base_required (sig : Signature) (order : List M) (baseModel : Option M) (tensors : List (M × V)) (param : M → Option P)
    (hu : sig.useBase = true) (hr : sig.requireBase = true) (hb : ∀ b, baseModel = some b → b ∉ tensors.map Prod.fst) :
    ∃ e, easyExecute sig order baseModel tensors param = .error e := by
  unfold easyExecute easyBaseTensor easyBase
  split
  · exact ⟨_, rfl⟩
  · rw [if_pos]
    · exact ⟨_, rfl⟩
    · rw [hu, hr]
      simp only [Bool.or_true, if_true, Bool.and_self, Bool.true_and]
      cases baseModel with
      | none => rfl
      | some b =>
        simp only [Option.bind_some]
        rw [Option.isNone_iff_eq_none]
        cases hl : lookup tensors b with
        | none => rfl
        | some v => exact absurd ((lookup_isSome tensors b).1 (by simp [hl])) (hb b rfl)

end

/-- **C48** refuted: the documentation says that tensors come in the order of the input models; they come in the iteration order of a set,
so that even a list of two tensors may be reversed. -/
theorem C48_order_not_kept : ∃ (order : List Nat) (tensors : List (Nat × Nat)),
    order.Perm (tensors.map Prod.fst) ∧
    easyExecute ⟨false, false, false⟩ order none tensors (fun _ => some ()) = .ok ([1, 0], [11, 10], none, [(), ()]) ∧
    tensors = [(0, 10), (1, 11)] :=
  ⟨[1, 0], [(0, 10), (1, 11)], by decide, rfl, rfl⟩

/-- **C48** refuted: the documentation says that without a `base_tensor` argument the base model's tensor is the first one.  That needs a
`base_model` argument; without one the base may come anywhere. -/
theorem C48_base_not_first : ∃ (order : List Nat) (tensors : List (Nat × Nat)),
    order.Perm (tensors.map Prod.fst) ∧
    easyExecute ⟨false, false, false⟩ order (some 0) tensors (fun _ => some ()) = .ok ([1, 0], [11, 10], none, [(), ()]) :=
  ⟨[1, 0], [(0, 10), (1, 11)], by decide, rfl⟩

/-! ## Examples -/

/-- Base and two models. -/
def ramBase : Tensor ℚ := ⟨[3], fun _ => 0⟩

def ramModels : List (Tensor ℚ) := [⟨[3], fun i => if i = 0 then 0 else 2⟩, ⟨[3], fun i => if i = 2 then 4 else 0⟩]

example : (∀ t ∈ ramModels, t.shape = ramBase.shape) ∧ changedAt (1 / 100000) ramBase ramModels 0 = [] ∧
    (changedAt (1 / 100000) ramBase ramModels 1).length = 1 ∧ (changedAt (1 / 100000) ramBase ramModels 2).length = 2 := by
  refine ⟨by decide, ?_, ?_, ?_⟩ <;> simp [changedAt, ramBase, ramModels] <;> norm_num

example : 1 ≤ ⌊(varyingCount ramBase ramModels : ℚ) * (1 / 2)⌋ := by decide +kernel

example : ∃ r, easyExecute ⟨true, true, false⟩ [2, 0, 1] (some 0) [(0, 10), (1, 11), (2, 12)] (fun m => some (m + 1)) = .ok r ∧
    r = ([2, 1], [12, 11], some 10, [3, 2]) := ⟨_, rfl, rfl⟩

end Verif.Merge
