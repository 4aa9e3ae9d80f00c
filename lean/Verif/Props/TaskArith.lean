import Verif.Model.MergeMethods
import Verif.Props.Tensor
import Mathlib.Algebra.Order.BigOperators.Group.List
import Mathlib.Algebra.BigOperators.Ring.List
import Mathlib.Tactic.Linarith
import Mathlib.Tactic.FieldSimp
import Mathlib.Tactic.Ring
import Mathlib.Data.Rat.Floor

/-! # C35, C36: task arithmetic and sign consensus -/

set_option linter.unusedSectionVars false

namespace Verif.Merge

open Verif.Tensor

section
variable {K : Type} [Field K] [LinearOrder K] {M : Type} [DecidableEq M]

/-! ## Specification -/

/-- `y` is `x` as it is used next to the tensor `base`: itself if the shapes agree, and for embedding matrices that are larger
the leading part. -/
inductive Aligned (isEmbed : Bool) (base x : Tensor K) : Tensor K → Prop
  | same : x.shape = base.shape → Aligned isEmbed base x x
  | cut (r c r' c' : Nat) (y : Tensor K) : isEmbed = true → base.shape = [r, c] → x.shape = [r', c'] → x.shape ≠ base.shape →
      r ≤ r' → c ≤ c' → IsLeading x y r c → Aligned isEmbed base x y

/-- The models that take part: all but the base, without those of another shape if the tensor is no embedding matrix. -/
def participants (isEmbed : Bool) (b : M) (base : Tensor K) (tensors : List (M × Tensor K)) : List (M × Tensor K) :=
  tensors.filter (fun e => decide (e.1 ≠ b ∧ (isEmbed = true ∨ e.2.shape = base.shape)))

/-- The change of a model against the base: entrywise differences. -/
def diff (x base : Tensor K) : Tensor K := ⟨base.shape, fun i => x.get i - base.get i⟩

/-! ## Lemmas -/

theorem taskVectors_ok (isEmbed : Bool) (b : M) (base : Tensor K) (tensors : List (M × Tensor K))
    (hfit : isEmbed = true → ∀ e ∈ tensors, e.1 ≠ b → e.2.shape = base.shape ∨
      ∃ r c r' c', base.shape = [r, c] ∧ e.2.shape = [r', c'] ∧ r ≤ r' ∧ c ≤ c') :
    ∃ xs : List (M × Tensor K), taskVectors isEmbed b base tensors = .ok (xs.map (fun e => (e.1, diff e.2 base))) ∧
      List.Forall₂ (fun e x => x.1 = e.1 ∧ Aligned isEmbed base e.2 x.2) (participants isEmbed b base tensors) xs := by
  induction tensors with
  | nil => exact ⟨[], rfl, .nil⟩
  | cons e rest ih =>
    obtain ⟨m, x⟩ := e
    obtain ⟨xs, h1, h2⟩ := ih (fun he e' h' => hfit he e' (List.mem_cons_of_mem _ h'))
    unfold taskVectors
    by_cases hm : m = b
    · rw [if_pos hm]
      refine ⟨xs, h1, ?_⟩
      unfold participants
      rw [List.filter_cons_of_neg (by simp [hm])]
      exact h2
    · rw [if_neg hm]
      by_cases hs : x.shape = base.shape
      · rw [if_neg (by simp [hs])]
        simp only [hs, if_true, map2, h1]
        refine ⟨(m, x) :: xs, ?_, ?_⟩
        · simp [diff]
        · unfold participants
          rw [List.filter_cons_of_pos (by simp [hm, hs])]
          exact .cons ⟨rfl, .same hs⟩ h2
      · by_cases he : isEmbed = true
        · rw [if_neg (by simp [he])]
          rcases hfit he (m, x) (by simp) hm with h | ⟨r, c, r', c', hb, hx, hr, hc⟩
          · exact absurd h hs
          · obtain ⟨y, hy, hl⟩ := submatrix_leading x r' c' r c hx hr hc
            have hlen : base.shape.length = 2 := by simp [hb]
            have hg0 : base.shape.getD 0 0 = r := by simp [hb]
            have hg1 : base.shape.getD 1 0 = c := by simp [hb]
            simp only [hs, if_false, hlen, if_true, hg0, hg1, hy]
            have hys : y.shape = base.shape := by rw [hl.shape, hb]
            simp only [map2, hys, if_true, h1]
            refine ⟨(m, y) :: xs, ?_, ?_⟩
            · simp [diff]
            · unfold participants
              rw [List.filter_cons_of_pos (by simp [hm, he])]
              exact .cons ⟨rfl, .cut r c r' c' y he hb hx hs hr hc hl⟩ h2
        · rw [if_pos ⟨hs, by simpa using he⟩]
          refine ⟨xs, h1, ?_⟩
          unfold participants
          rw [List.filter_cons_of_neg (by simp [hm, hs, he])]
          exact h2

omit [LinearOrder K] [DecidableEq M] [Field K] in
theorem sparsifyAll_ok (f : M → Tensor K → Tensor K) (ds : List (M × Tensor K)) :
    sparsifyAll (fun m d => .ok (f m d)) ds = .ok (ds.map (fun e => (e.1, f e.1 e.2))) := by
  induction ds with
  | nil => rfl
  | cons e ds ih =>
    obtain ⟨m, d⟩ := e
    simp [sparsifyAll, ih]

theorem mix_nil [IsStrictOrderedRing K] (consensus : Option Consensus) (normalize : Bool) (lam : K) :
    mix consensus normalize lam [] = 0 := by
  cases consensus <;> simp [mix]

/-- The inputs are fine: a base tensor, and embedding matrices not smaller than it. -/
structure Fits (isEmbed : Bool) (b : M) (base : Tensor K) (tensors : List (M × Tensor K)) : Prop where
  hasBase : lookup tensors b = some base
  embed : isEmbed = true → ∀ e ∈ tensors, e.1 ≠ b → e.2.shape = base.shape ∨
      ∃ r c r' c', base.shape = [r, c] ∧ e.2.shape = [r', c'] ∧ r ≤ r' ∧ c ≤ c'

theorem gta_eq [IsStrictOrderedRing K] (consensus : Option Consensus) (isEmbed normalize : Bool) (lam : K) (weight : M → K)
    (f : M → Tensor K → Tensor K) (b : M) (base : Tensor K) (tensors : List (M × Tensor K)) (hfit : Fits isEmbed b base tensors) :
    ∃ (xs : List (M × Tensor K)) (r : Tensor K), List.Forall₂ (fun e x => x.1 = e.1 ∧ Aligned isEmbed base e.2 x.2) (participants isEmbed b base tensors) xs ∧
      gta consensus isEmbed normalize lam weight (fun m d => .ok (f m d)) b tensors = .ok r ∧ r.shape = base.shape ∧
      ∀ i, r.get i = base.get i +
        mix consensus normalize lam (xs.map (fun e => (weight e.1, (f e.1 (diff e.2 base)).get i))) := by
  obtain ⟨xs, h1, h2⟩ := taskVectors_ok isEmbed b base tensors hfit.embed
  unfold gta
  rw [hfit.hasBase]
  simp only [h1]
  cases xs with
  | nil => exact ⟨[], base, h2, rfl, rfl, fun i => by simp [mix_nil]⟩
  | cons x xs =>
    simp only [List.map_cons]
    rw [← List.map_cons (f := fun e : M × Tensor K => (e.1, diff e.2 base)), sparsifyAll_ok]
    refine ⟨x :: xs, _, h2, rfl, rfl, fun i => ?_⟩
    simp [List.map_map, Function.comp_def]

/-! ## C35 -/

/-- The divisor of task arithmetic: the sum of the weights when normalizing, unless it is negligible. -/
def divisor (normalize : Bool) (ws : List K) : K :=
  if normalize = true ∧ ¬ |ws.sum| < 1 / 100000000 then ws.sum else 1

theorem mix_none (normalize : Bool) (lam : K) (es : List (K × K)) :
    mix none normalize lam es = lam * (es.map (fun e => e.1 * e.2)).sum / divisor normalize (es.map Prod.fst) := by
  have hw : (es.map (fun e => e.2 * e.1)).sum = (es.map (fun e => e.1 * e.2)).sum := by
    simp only [mul_comm]
  unfold mix divisor
  simp only [hw]
  generalize (es.map (fun e => e.1 * e.2)).sum = S
  generalize (es.map Prod.fst).sum = W
  cases normalize
  · by_cases hl : lam = 1
    · subst hl; simp
    · simp [hl, mul_comm]
  · by_cases hd : |W| < 1 / 100000000
    · by_cases hl : lam = 1
      · simp only [hl, hd, if_true, ne_eq, not_true, and_false, if_false, one_mul]
      · simp only [hd, hl, if_true, ne_eq, not_false_iff, not_true, and_false, if_false, div_one, mul_comm]
    · by_cases hl : lam = 1
      · simp only [hl, hd, if_true, if_false, ne_eq, not_true, not_false_iff, and_self, one_mul]
      · simp only [hd, hl, if_true, ne_eq, not_false_iff, and_true, if_false]
        rw [div_mul_eq_mul_div, mul_comm]

/-- **C35** Task arithmetic returns the base plus lambda times the weighted sum of the changes (each change passed through `f`, the
identity for plain task arithmetic and a sparsification for the linear variants of the other methods), divided by the sum of the weights when normalizing. -/
theorem C35_formula [IsStrictOrderedRing K] (isEmbed normalize : Bool) (lam : K) (weight : M → K)
    (f : M → Tensor K → Tensor K) (b : M) (base : Tensor K) (tensors : List (M × Tensor K)) (hfit : Fits isEmbed b base tensors) :
    ∃ (xs : List (M × Tensor K)) (r : Tensor K), List.Forall₂ (fun e x => x.1 = e.1 ∧ Aligned isEmbed base e.2 x.2) (participants isEmbed b base tensors) xs ∧
      gta none isEmbed normalize lam weight (fun m d => .ok (f m d)) b tensors = .ok r ∧ r.shape = base.shape ∧
      ∀ i, r.get i = base.get i +
        lam * (xs.map (fun e => weight e.1 * (f e.1 (diff e.2 base)).get i)).sum / divisor normalize (xs.map (fun e => weight e.1)) := by
  obtain ⟨xs, r, h1, h2, h3, h4⟩ := gta_eq none isEmbed normalize lam weight f b base tensors hfit
  refine ⟨xs, r, h1, h2, h3, fun i => ?_⟩
  rw [h4, mix_none]
  simp [List.map_map, Function.comp_def]

/-- **C35** Without other models the base is returned, for every variant. -/
theorem C35_no_models (consensus : Option Consensus) (isEmbed normalize : Bool) (lam : K) (weight : M → K)
    (sp : M → Tensor K → Except Err (Tensor K)) (b : M) (base : Tensor K) :
    gta consensus isEmbed normalize lam weight sp b [(b, base)] = .ok base := by
  simp [gta, lookup, taskVectors]

theorem mix_zero (consensus : Option Consensus) (normalize : Bool) (es : List (K × K)) : mix consensus normalize 0 es = 0 := by
  unfold mix
  simp

/-- **C35** With lambda zero the result is the base, for every variant. -/
theorem C35_lambda_zero [IsStrictOrderedRing K] (consensus : Option Consensus) (isEmbed normalize : Bool) (weight : M → K)
    (f : M → Tensor K → Tensor K) (b : M) (base : Tensor K) (tensors : List (M × Tensor K)) (hfit : Fits isEmbed b base tensors) :
    ∃ r, gta consensus isEmbed normalize 0 weight (fun m d => .ok (f m d)) b tensors = .ok r ∧ r.shape = base.shape ∧
      ∀ i, r.get i = base.get i := by
  obtain ⟨xs, r, _, h2, h3, h4⟩ := gta_eq consensus isEmbed normalize 0 weight f b base tensors hfit
  exact ⟨r, h2, h3, fun i => by rw [h4, mix_zero, add_zero]⟩

/-- **C35** One model with weight 1 and lambda 1 gives that model, with or without normalization. -/
theorem C35_one_model [IsStrictOrderedRing K] (isEmbed normalize : Bool) (weight : M → K) (b m : M) (base x : Tensor K)
    (hm : m ≠ b) (hw : weight m = 1) (hs : x.shape = base.shape) :
    ∃ r, gta none isEmbed normalize 1 weight (fun _ d => .ok d) b [(b, base), (m, x)] = .ok r ∧ r.shape = x.shape ∧
      ∀ i, r.get i = x.get i := by
  have hfit : Fits isEmbed b base [(b, base), (m, x)] := by
    refine ⟨by simp [lookup], fun _ e he hne => ?_⟩
    simp only [List.mem_cons, List.not_mem_nil, or_false] at he
    rcases he with rfl | rfl
    · exact absurd rfl hne
    · exact Or.inl hs
  obtain ⟨xs, r, h1, h2, h3, h4⟩ := C35_formula isEmbed normalize 1 weight (fun _ d => d) b base _ hfit
  refine ⟨r, h2, by rw [h3, hs], fun i => ?_⟩
  have hp : participants isEmbed b base [(b, base), (m, x)] = [(m, x)] := by
    simp [participants, hm, hs]
  rw [hp] at h1
  cases h1 with
  | cons h hnil =>
    cases hnil
    rename_i y
    obtain ⟨hy1, hy2⟩ := h
    rw [h4]
    have hyx : y.2 = x := by
      cases hy2 with
      | same _ => rfl
      | cut _ _ _ _ _ _ _ _ hne => exact absurd hs hne
    simp only [List.map_cons, List.map_nil, List.sum_cons, List.sum_nil, hy1, hw, hyx, diff]
    have : divisor normalize [(1 : K)] = 1 := by
      unfold divisor
      split <;> simp
    rw [this]
    ring

/-- **C35** A missing base is an error. -/
theorem C35_base_missing (consensus : Option Consensus) (isEmbed normalize : Bool) (lam : K) (weight : M → K)
    (sp : M → Tensor K → Except Err (Tensor K)) (b : M) (tensors : List (M × Tensor K)) (h : ∀ e ∈ tensors, e.1 ≠ b) :
    gta consensus isEmbed normalize lam weight sp b tensors = .error .noBase := by
  have : lookup tensors b = none := by
    unfold lookup
    rw [List.find?_eq_none.2 (by intro e he; simpa using h e he)]
    rfl
  simp [gta, this]

/-! ## C36 -/

variable [IsStrictOrderedRing K]

/-- **C35** An embedding matrix with fewer rows or columns than the base's (of more than one, which would be repeated) cannot be used: the merge fails, it does not go on without
the model or with part of the base. -/
theorem C35_small_embedding (consensus : Option Consensus) (normalize : Bool) (lam : K) (weight : M → K)
    (sp : M → Tensor K → Except Err (Tensor K)) (b : M) (base : Tensor K) (tensors : List (M × Tensor K)) (hb : lookup tensors b = some base)
    {m : M} {x : Tensor K} (hx : (m, x) ∈ tensors) (hm : m ≠ b) {r c r' c' : Nat} (h1 : base.shape = [r, c]) (h2 : x.shape = [r', c'])
    (hsmall : 1 < r' ∧ r' < r ∨ 1 < c' ∧ c' < c) : ∃ e, gta consensus true normalize lam weight sp b tensors = .error e := by
  have hv : ∃ e, taskVectors true b base tensors = .error e := by
    clear hb
    induction tensors with
    | nil => cases hx
    | cons y rest ih =>
      obtain ⟨n, t⟩ := y
      unfold taskVectors
      rcases List.mem_cons.1 hx with h | h
      · cases h
        rw [if_neg hm, if_neg (by simp)]
        have hne : x.shape ≠ base.shape := by
          rw [h1, h2]
          intro e
          simp only [List.cons.injEq, and_true] at e
          omega
        have hcut : submatrix x r c = some ⟨[min r r', min c c'], fun k => x.get ((k / min c c') * c' + k % min c c')⟩ := by
          unfold submatrix
          rw [h2]
        rw [h1] at hne
        simp only [hne, if_false, h1, List.length_cons, List.length_nil, if_true, List.getD_cons_zero, List.getD_cons_succ, hcut]
        have : ¬ [min r r', min c c'] = base.shape := by
          rw [h1]
          intro e
          simp only [List.cons.injEq, and_true] at e
          omega
        simp only [map2, if_neg this]
        exact ⟨_, rfl⟩
      · obtain ⟨e, he⟩ := ih h
        split
        · exact ⟨e, he⟩
        · rw [if_neg (by simp)]
          simp only [he]
          generalize (if t.shape = base.shape then some t
            else if base.shape.length = 2 then submatrix t (base.shape.getD 0 0) (base.shape.getD 1 0) else none) = y
          cases y with
          | none => exact ⟨_, rfl⟩
          | some y =>
            simp only
            cases map2 (fun a b => a - b) y base <;> exact ⟨_, rfl⟩
  obtain ⟨e, he⟩ := hv
  unfold gta
  simp only [hb, he]
  exact ⟨e, rfl⟩

example : ∃ e, gta none true false (1 : ℚ) (fun _ => 1) (fun _ d => .ok d) 0 [(0, ⟨[4, 2], fun _ => 0⟩), (1, ⟨[3, 2], fun _ => 1⟩)] = .error e :=
  C35_small_embedding (b := 0) none false 1 _ _ ⟨[4, 2], fun _ => 0⟩ _ rfl (m := 1) (x := ⟨[3, 2], fun _ => 1⟩) (by simp) (by simp) rfl rfl (Or.inl ⟨by omega, by omega⟩)

omit [IsStrictOrderedRing K] in
theorem majority_cases (method : Consensus) (ds : List K) : majority method ds = 1 ∨ majority method ds = -1 := by
  cases method <;> (simp only [majority]; split <;> simp)

theorem sgn_eq_iff (s x : K) (hs : s = 1 ∨ s = -1) : sgn x = s ↔ 0 < s * x := by
  have e2 : ((-1 : K) = 1) ↔ False := iff_false_intro (by norm_num : (-1 : K) ≠ 1)
  have e4 : ((1 : K) = -1) ↔ False := iff_false_intro (by norm_num : (1 : K) ≠ -1)
  unfold sgn
  rcases hs with rfl | rfl
  · rw [one_mul]
    split
    · simp [*]
    · rename_i h
      split
      · simp only [e2, false_iff, h, not_false_iff]
      · simp only [zero_ne_one, false_iff, h, not_false_iff]
  · rw [neg_one_mul, neg_pos]
    split
    · rename_i h
      simp only [e4, false_iff, not_lt, h.le]
    · split
      · simp [*]
      · rename_i h
        simp only [zero_eq_neg, one_ne_zero, false_iff, h, not_false_iff]

/-- Model entries (weight, change) whose weighted change has the sign `s` (specification). -/
def agreeing (s : K) (es : List (K × K)) : List (K × K) := es.filter (fun e => decide (0 < s * (e.1 * e.2)))

theorem sum_masked (s : K) (hs : s = 1 ∨ s = -1) (g : K × K → K) (es : List (K × K)) :
    (es.map (fun e => g e * ofBool (decide (sgn (e.2 * e.1) = s)))).sum = ((agreeing s es).map g).sum := by
  induction es with
  | nil => rfl
  | cons e es ih =>
    unfold agreeing at ih ⊢
    rw [List.map_cons, List.sum_cons, ih]
    have hiff := sgn_eq_iff s (e.2 * e.1) hs
    rw [mul_comm e.2 e.1] at hiff ⊢
    by_cases h : 0 < s * (e.1 * e.2)
    · rw [List.filter_cons_of_pos (by simpa using h)]
      simp [ofBool, hiff.2 h]
    · rw [List.filter_cons_of_neg (by simpa using h)]
      have : ¬ sgn (e.1 * e.2) = s := fun hh => h (hiff.1 hh)
      simp [ofBool, this]

/-- The elected sign: of the sum of the weighted changes, or of the number of positive minus negative ones; positive in case of
a tie (specification). -/
inductive Elected (es : List (K × K)) : Consensus → K → Prop
  | sumPos : 0 ≤ (es.map (fun e => e.1 * e.2)).sum → Elected es .sum 1
  | sumNeg : (es.map (fun e => e.1 * e.2)).sum < 0 → Elected es .sum (-1)
  | countPos : es.countP (fun e => decide (e.1 * e.2 < 0)) ≤ es.countP (fun e => decide (0 < e.1 * e.2)) → Elected es .count 1
  | countNeg : es.countP (fun e => decide (0 < e.1 * e.2)) < es.countP (fun e => decide (e.1 * e.2 < 0)) → Elected es .count (-1)

theorem sum_sgn (xs : List K) :
    (xs.map sgn).sum = (xs.countP (fun x => decide (0 < x)) : K) - xs.countP (fun x => decide (x < 0)) := by
  induction xs with
  | nil => simp
  | cons x xs ih =>
    rw [List.map_cons, List.sum_cons, ih, List.countP_cons, List.countP_cons]
    unfold sgn
    by_cases h1 : 0 < x
    · have : ¬ x < 0 := not_lt.2 h1.le
      simp [h1, this]
      ring
    · by_cases h2 : x < 0
      · simp [h1, h2]
        ring
      · simp [h1, h2]

theorem majority_elected (method : Consensus) (es : List (K × K)) :
    Elected es method (majority method (es.map (fun e => e.2 * e.1))) := by
  have hmul : es.map (fun e => e.2 * e.1) = es.map (fun e => e.1 * e.2) := by simp only [mul_comm]
  rw [hmul]
  cases method with
  | sum =>
    simp only [majority]
    split
    · exact .sumPos ‹_›
    · exact .sumNeg (not_le.1 ‹_›)
  | count =>
    have key : 0 ≤ ((es.map (fun e => e.1 * e.2)).map sgn).sum ↔
        es.countP (fun e => decide (e.1 * e.2 < 0)) ≤ es.countP (fun e => decide (0 < e.1 * e.2)) := by
      rw [sum_sgn, List.countP_map, List.countP_map, sub_nonneg, Nat.cast_le]
      rfl
    simp only [majority]
    split
    · rename_i h
      exact .countPos (key.1 h)
    · rename_i h
      exact .countNeg (not_le.1 (fun hh => h (key.2 hh)))

theorem mix_some (method : Consensus) (normalize : Bool) (lam : K) (es : List (K × K)) :
    ∃ s, (s = 1 ∨ s = -1) ∧ Elected es method s ∧
      mix (some method) normalize lam es =
        lam * ((agreeing s es).map (fun e => e.1 * e.2)).sum /
          (if normalize = true ∧ ((agreeing s es).map Prod.fst).sum ≠ 0 then ((agreeing s es).map Prod.fst).sum else 1) := by
  refine ⟨_, majority_cases method _, majority_elected method es, ?_⟩
  have hs := majority_cases method (es.map (fun e => e.2 * e.1))
  unfold mix mask
  simp only [List.map_map, Function.comp_def]
  generalize majority method (es.map (fun e => e.2 * e.1)) = s at hs ⊢
  have h1 : ((es.map (fun e => e.2 * e.1)).zip (es.map (fun e => decide (sgn (e.2 * e.1) = s)))).map (fun e => e.1 * ofBool e.2) =
      es.map (fun e => (e.1 * e.2) * ofBool (decide (sgn (e.2 * e.1) = s))) := by
    rw [List.zip_map', List.map_map]
    refine List.map_congr_left (fun e _ => ?_)
    simp only [Function.comp_def, mul_comm e.1 e.2]
  have h2 : (es.zip (es.map (fun e => decide (sgn (e.2 * e.1) = s)))).map (fun e => e.1.1 * ofBool e.2) =
      es.map (fun e => e.1 * ofBool (decide (sgn (e.2 * e.1) = s))) := by
    have : es.zip (es.map (fun e => decide (sgn (e.2 * e.1) = s))) = es.map (fun e => (e, decide (sgn (e.2 * e.1) = s))) := by
      conv_lhs => rw [← List.map_id es, List.map_map, List.zip_map']
      rfl
    rw [this, List.map_map]
    rfl
  rw [h1, h2, sum_masked s hs (fun e => e.1 * e.2) es, sum_masked s hs Prod.fst es]
  generalize ((agreeing s es).map (fun e => e.1 * e.2)).sum = S
  generalize ((agreeing s es).map Prod.fst).sum = W
  cases normalize
  · by_cases hl : lam = 1
    · subst hl; simp
    · simp [hl, mul_comm]
  · by_cases hd : W = 0
    · by_cases hl : lam = 1
      · subst hl; simp [hd]
      · simp [hd, hl, mul_comm]
    · by_cases hl : lam = 1
      · subst hl; simp [hd]
      · simp only [hd, hl, if_true, ne_eq, not_false_iff, and_true, if_false]
        rw [div_mul_eq_mul_div, mul_comm]

theorem agreeing_sum_sign (s : K) (es : List (K × K)) : 0 ≤ s * ((agreeing s es).map (fun e => e.1 * e.2)).sum := by
  rw [← List.sum_map_mul_left]
  apply List.sum_nonneg
  intro x hx
  obtain ⟨e, he, rfl⟩ := List.mem_map.1 hx
  have := (List.mem_filter.1 he).2
  exact (of_decide_eq_true this).le

/-- The entries of the participating models at position `i`: weight and (sparsified) change (specification). -/
def entriesAt (weight : M → K) (f : M → Tensor K → Tensor K) (base : Tensor K) (xs : List (M × Tensor K)) (i : Nat) : List (K × K) :=
  xs.map (fun e => (weight e.1, (f e.1 (diff e.2 base)).get i))

/-- **C36** With sign consensus the merged change at a position is the weighted sum, or with normalization the weighted
mean, of those changes whose weighted value has the elected sign. -/
theorem C36_formula (method : Consensus) (isEmbed normalize : Bool) (lam : K) (weight : M → K)
    (f : M → Tensor K → Tensor K) (b : M) (base : Tensor K) (tensors : List (M × Tensor K)) (hfit : Fits isEmbed b base tensors) :
    ∃ (xs : List (M × Tensor K)) (r : Tensor K), List.Forall₂ (fun e x => x.1 = e.1 ∧ Aligned isEmbed base e.2 x.2) (participants isEmbed b base tensors) xs ∧
      gta (some method) isEmbed normalize lam weight (fun m d => .ok (f m d)) b tensors = .ok r ∧ r.shape = base.shape ∧
      ∀ i, ∃ s, Elected (entriesAt weight f base xs i) method s ∧
        let chosen := agreeing s (entriesAt weight f base xs i)
        r.get i = base.get i + lam * (chosen.map (fun e => e.1 * e.2)).sum /
          (if normalize = true ∧ (chosen.map Prod.fst).sum ≠ 0 then (chosen.map Prod.fst).sum else 1) := by
  obtain ⟨xs, r, h1, h2, h3, h4⟩ := gta_eq (some method) isEmbed normalize lam weight f b base tensors hfit
  refine ⟨xs, r, h1, h2, h3, fun i => ?_⟩
  obtain ⟨s, _, he, hm⟩ := mix_some method normalize lam (entriesAt weight f base xs i)
  refine ⟨s, he, ?_⟩
  simp only
  rw [h4, ← hm]
  rfl

theorem mix_sign_and_mean (method : Consensus) (normalize : Bool) (lam : K) (hlam : 0 ≤ lam) (es : List (K × K))
    (hpos : ∀ e ∈ es, 0 ≤ e.1) :
    ∃ s, Elected es method s ∧ 0 ≤ s * mix (some method) normalize lam es ∧
      (normalize = true → lam = 1 → agreeing s es ≠ [] → ∀ lo hi, (∀ e ∈ agreeing s es, lo ≤ e.2 ∧ e.2 ≤ hi) →
        lo ≤ mix (some method) normalize lam es ∧ mix (some method) normalize lam es ≤ hi) ∧
      (agreeing s es = [] → mix (some method) normalize lam es = 0) := by
  obtain ⟨s, hs, he, hm⟩ := mix_some method normalize lam es
  have hwpos : ∀ e ∈ agreeing s es, 0 < e.1 := by
    intro e h
    obtain ⟨h1, h2⟩ := List.mem_filter.1 h
    have h2 := of_decide_eq_true h2
    refine lt_of_le_of_ne (hpos e h1) (fun h0 => ?_)
    rw [← h0] at h2
    simp at h2
  have hsumnn : 0 ≤ ((agreeing s es).map Prod.fst).sum := by
    apply List.sum_nonneg
    intro x hx
    obtain ⟨e, h, rfl⟩ := List.mem_map.1 hx
    exact (hwpos e h).le
  refine ⟨s, he, ?_, ?_, ?_⟩
  · rw [hm]
    have := agreeing_sum_sign s es
    generalize ((agreeing s es).map (fun e => e.1 * e.2)).sum = S at this ⊢
    have hd : (0 : K) ≤ (if normalize = true ∧ ((agreeing s es).map Prod.fst).sum ≠ 0 then ((agreeing s es).map Prod.fst).sum else 1) := by
      split
      · exact hsumnn
      · exact zero_le_one
    rw [show s * (lam * S / (if normalize = true ∧ ((agreeing s es).map Prod.fst).sum ≠ 0 then ((agreeing s es).map Prod.fst).sum else 1)) =
      (lam * (s * S)) / (if normalize = true ∧ ((agreeing s es).map Prod.fst).sum ≠ 0 then ((agreeing s es).map Prod.fst).sum else 1) by ring]
    exact div_nonneg (mul_nonneg hlam this) hd
  · intro hn hl hne lo hi hb
    rw [hm]
    generalize agreeing s es = cs at hne hb hwpos hsumnn
    have hsum : 0 < (cs.map Prod.fst).sum := by
      cases cs with
      | nil => exact absurd rfl hne
      | cons c cs =>
        rw [List.map_cons, List.sum_cons]
        refine add_pos_of_pos_of_nonneg (hwpos c (by simp)) (List.sum_nonneg ?_)
        intro x hx
        obtain ⟨e, h, rfl⟩ := List.mem_map.1 hx
        exact (hwpos e (by simp [h])).le
    rw [if_pos ⟨hn, hsum.ne'⟩, hl, one_mul]
    constructor
    · rw [le_div_iff₀ hsum, ← List.sum_map_mul_left]
      apply List.sum_le_sum
      intro e he'
      rw [mul_comm]
      exact mul_le_mul_of_nonneg_left (hb e he').1 (hwpos e he').le
    · rw [div_le_iff₀ hsum, ← List.sum_map_mul_left]
      apply List.sum_le_sum
      intro e he'
      rw [mul_comm hi]
      exact mul_le_mul_of_nonneg_left (hb e he').2 (hwpos e he').le
  · intro h0
    rw [hm, h0]
    simp

/-- **C36** For non-negative weights and lambda the change has the elected sign or is zero, and with normalization and
lambda 1 it lies between the smallest and largest of the changes that agree. -/
theorem C36_sign_and_mean (method : Consensus) (isEmbed normalize : Bool) (lam : K) (hlam : 0 ≤ lam) (weight : M → K)
    (hpos : ∀ m, 0 ≤ weight m) (f : M → Tensor K → Tensor K) (b : M) (base : Tensor K) (tensors : List (M × Tensor K))
    (hfit : Fits isEmbed b base tensors) :
    ∃ (xs : List (M × Tensor K)) (r : Tensor K),
      List.Forall₂ (fun e x => x.1 = e.1 ∧ Aligned isEmbed base e.2 x.2) (participants isEmbed b base tensors) xs ∧
      gta (some method) isEmbed normalize lam weight (fun m d => .ok (f m d)) b tensors = .ok r ∧
      ∀ i, ∃ s, Elected (entriesAt weight f base xs i) method s ∧
        let chosen := agreeing s (entriesAt weight f base xs i)
        0 ≤ s * (r.get i - base.get i) ∧
        (normalize = true → lam = 1 → chosen ≠ [] → ∀ lo hi, (∀ e ∈ chosen, lo ≤ e.2 ∧ e.2 ≤ hi) →
          lo ≤ r.get i - base.get i ∧ r.get i - base.get i ≤ hi) ∧
        (chosen = [] → r.get i = base.get i) := by
  obtain ⟨xs, r, h1, h2, h3, h4⟩ := gta_eq (some method) isEmbed normalize lam weight f b base tensors hfit
  refine ⟨xs, r, h1, h2, fun i => ?_⟩
  have hp : ∀ e ∈ entriesAt weight f base xs i, 0 ≤ e.1 := by
    intro e he
    obtain ⟨x, _, rfl⟩ := List.mem_map.1 he
    exact hpos _
  obtain ⟨s, a1, a2, a3, a4⟩ := mix_sign_and_mean method normalize lam hlam (entriesAt weight f base xs i) hp
  have hr : r.get i - base.get i = mix (some method) normalize lam (entriesAt weight f base xs i) := by
    rw [h4 i]
    unfold entriesAt
    ring
  refine ⟨s, a1, ?_⟩
  rw [hr]
  exact ⟨a2, a3, fun h => by rw [h4 i]; exact (add_eq_left).2 (a4 h)⟩

theorem elected_unique (method : Consensus) (es : List (K × K)) (s s' : K) (h : Elected es method s) (h' : Elected es method s') :
    s = s' := by
  cases h <;> cases h' <;> first | rfl | (exfalso; linarith)

theorem elected_filter {A : Type} (g : A → K × K) (keep : A → Bool) (xs : List A) (method : Consensus) (s : K)
    (hdrop : ∀ a ∈ xs, keep a = false → ¬ 0 < s * ((g a).1 * (g a).2)) (h : Elected (xs.map g) method s) :
    Elected ((xs.filter keep).map g) method s := by
  have hsum : s = 1 → ((xs.map g).map (fun e => e.1 * e.2)).sum ≤ (((xs.filter keep).map g).map (fun e => e.1 * e.2)).sum := by
    rintro rfl
    clear h
    induction xs with
    | nil => simp
    | cons a xs ih =>
      have ih := ih (fun x hx => hdrop x (by simp [hx]))
      by_cases hk : keep a = true
      · rw [List.filter_cons_of_pos hk]
        simpa using ih
      · rw [List.filter_cons_of_neg hk]
        have := hdrop a (by simp) (by simpa using hk)
        simp only [List.map_cons, List.sum_cons]
        rw [one_mul] at this
        push Not at this
        linarith
  have hsum' : s = -1 → (((xs.filter keep).map g).map (fun e => e.1 * e.2)).sum ≤ ((xs.map g).map (fun e => e.1 * e.2)).sum := by
    rintro rfl
    clear h hsum
    induction xs with
    | nil => simp
    | cons a xs ih =>
      have ih := ih (fun x hx => hdrop x (by simp [hx]))
      by_cases hk : keep a = true
      · rw [List.filter_cons_of_pos hk]
        simpa using ih
      · rw [List.filter_cons_of_neg hk]
        have := hdrop a (by simp) (by simpa using hk)
        simp only [List.map_cons, List.sum_cons]
        push Not at this
        linarith
  have hcount : ∀ p : K × K → Bool, (∀ a ∈ xs, keep a = false → p (g a) = false) →
      ((xs.filter keep).map g).countP p = (xs.map g).countP p := by
    intro p hp
    rw [List.countP_map, List.countP_map, List.countP_filter]
    apply List.countP_congr
    intro a ha
    cases hk : keep a with
    | true => simp
    | false => simp [hp a ha hk]
  have hle : ∀ p : K × K → Bool, ((xs.filter keep).map g).countP p ≤ (xs.map g).countP p := by
    intro p
    rw [List.countP_map, List.countP_map, List.countP_filter]
    exact List.countP_mono_left (fun a _ ha => by
      rw [Bool.and_eq_true] at ha
      exact ha.1)
  cases h with
  | sumPos h => exact .sumPos (le_trans h (hsum rfl))
  | sumNeg h => exact .sumNeg (lt_of_le_of_lt (hsum' rfl) h)
  | countPos h =>
    refine .countPos ?_
    have h1 := hcount (fun e => decide (0 < e.1 * e.2)) (fun a ha hk => by
      have := hdrop a ha hk
      rw [one_mul] at this
      simpa using this)
    have h2 := hle (fun e => decide (e.1 * e.2 < 0))
    omega
  | countNeg h =>
    refine .countNeg ?_
    have h1 := hcount (fun e => decide (e.1 * e.2 < 0)) (fun a ha hk => by
      have := hdrop a ha hk
      rw [neg_one_mul, neg_pos] at this
      simpa using this)
    have h2 := hle (fun e => decide (0 < e.1 * e.2))
    omega

omit [IsStrictOrderedRing K] in
theorem agreeing_filter {A : Type} (g : A → K × K) (keep : A → Bool) (xs : List A) (s : K)
    (hdrop : ∀ a ∈ xs, keep a = false → ¬ 0 < s * ((g a).1 * (g a).2)) :
    agreeing s ((xs.filter keep).map g) = agreeing s (xs.map g) := by
  induction xs with
  | nil => rfl
  | cons a xs ih =>
    have ih := ih (fun x hx => hdrop x (by simp [hx]))
    unfold agreeing at ih ⊢
    by_cases hk : keep a = true
    · rw [List.filter_cons_of_pos hk, List.map_cons, List.map_cons, List.filter_cons, List.filter_cons, ih]
    · rw [List.filter_cons_of_neg hk, List.map_cons]
      rw [List.filter_cons_of_neg (by simpa using hdrop a (by simp) (by simpa using hk))]
      exact ih

theorem mix_filter {A : Type} (g : A → K × K) (keep : A → Bool) (xs : List A) (method : Consensus) (normalize : Bool) (lam s : K)
    (h : Elected (xs.map g) method s) (hdrop : ∀ a ∈ xs, keep a = false → ¬ 0 < s * ((g a).1 * (g a).2)) :
    mix (some method) normalize lam ((xs.filter keep).map g) = mix (some method) normalize lam (xs.map g) := by
  obtain ⟨s1, _, he1, hm1⟩ := mix_some method normalize lam (xs.map g)
  obtain ⟨s2, _, he2, hm2⟩ := mix_some method normalize lam ((xs.filter keep).map g)
  have e1 : s1 = s := elected_unique method _ _ _ he1 h
  have e2 : s2 = s := elected_unique method _ _ _ he2 (elected_filter g keep xs method s hdrop h)
  rw [hm1, hm2, e1, e2, agreeing_filter g keep xs s hdrop]

omit [IsStrictOrderedRing K] [DecidableEq M] in
theorem aligned_false (base : Tensor K) (as xs : List (M × Tensor K))
    (h : List.Forall₂ (fun e x => x.1 = e.1 ∧ Aligned false base e.2 x.2) as xs) : xs = as := by
  induction h with
  | nil => rfl
  | cons h _ ih =>
    obtain ⟨h1, h2⟩ := h
    rw [ih]
    congr 1
    refine Prod.ext h1 ?_
    have : ∀ x y : Tensor K, Aligned false base x y → y = x := by
      intro x y hxy
      cases hxy with
      | same _ => rfl
      | cut _ _ _ _ _ h => cases h
    exact this _ _ h2

/-- **C36** Models whose change does not have the elected sign at a position have no influence on it: leaving any of them out of the merge
gives the same value there. -/
theorem C36_no_influence (method : Consensus) (normalize : Bool) (lam : K) (weight : M → K)
    (f : M → Tensor K → Tensor K) (b : M) (base : Tensor K) (tensors : List (M × Tensor K)) (hfit : Fits false b base tensors)
    (i : Nat) (s : K) (hs : Elected (entriesAt weight f base (participants false b base tensors) i) method s)
    (keep : M → Bool) (hkb : keep b = true)
    (hkeep : ∀ e ∈ participants false b base tensors, keep e.1 = false →
      ¬ 0 < s * (weight e.1 * (f e.1 (diff e.2 base)).get i)) :
    ∃ r r', gta (some method) false normalize lam weight (fun m d => .ok (f m d)) b tensors = .ok r ∧
      gta (some method) false normalize lam weight (fun m d => .ok (f m d)) b (tensors.filter (fun e => keep e.1)) = .ok r' ∧
      r'.get i = r.get i := by
  have hfit' : Fits false b base (tensors.filter (fun e => keep e.1)) := by
    refine ⟨?_, by simp⟩
    have := hfit.hasBase
    unfold lookup at this ⊢
    rw [List.find?_filter]
    rw [← this]
    congr 1
    congr 1
    funext e
    by_cases he : e.1 = b
    · simp [he, hkb]
    · simp [he]
  obtain ⟨xs, r, h1, h2, _, h4⟩ := gta_eq (some method) false normalize lam weight f b base tensors hfit
  obtain ⟨xs', r', h1', h2', _, h4'⟩ := gta_eq (some method) false normalize lam weight f b base _ hfit'
  refine ⟨r, r', h2, h2', ?_⟩
  have e1 := aligned_false base _ _ h1
  have e2 := aligned_false base _ _ h1'
  subst e1 e2
  rw [h4, h4']
  congr 1
  have hp : participants false b base (tensors.filter (fun e => keep e.1)) =
      (participants false b base tensors).filter (fun e => keep e.1) := by
    unfold participants
    rw [List.filter_filter, List.filter_filter]
    congr 1
    funext e
    exact Bool.and_comm _ _
  rw [hp]
  exact mix_filter _ _ _ method normalize lam s hs hkeep

end

/-- Three models next to a base. -/
def sampleGta : List (Nat × Tensor ℚ) :=
  [(0, ⟨[2], fun _ => 1⟩), (1, ⟨[2], fun _ => 3⟩), (2, ⟨[2], fun _ => 0⟩), (3, ⟨[2], fun i => 2 + i⟩), (4, ⟨[5], fun _ => 0⟩)]

example : Fits false 0 ⟨[2], fun _ => 1⟩ sampleGta := ⟨rfl, by simp⟩

example : participants false 0 (⟨[2], fun _ => 1⟩ : Tensor ℚ) sampleGta ≠ [] := by
  simp [participants, sampleGta]

example : Elected [((1 : ℚ), (2 : ℚ)), (1, -1), (1, 1)] .sum 1 ∧ agreeing 1 [((1 : ℚ), (2 : ℚ)), (1, -1), (1, 1)] = [(1, 2), (1, 1)] ∧
    mix (some .sum) true 1 [((1 : ℚ), (2 : ℚ)), (1, -1), (1, 1)] = 3 / 2 := by
  refine ⟨.sumPos (by norm_num), by decide +kernel, by decide +kernel⟩

end Verif.Merge
