import Verif.Model.Omp
import Mathlib.Tactic.Linarith
import Mathlib.Tactic.Ring
import Mathlib.Tactic.Positivity
import Mathlib.Tactic.FieldSimp
import Mathlib.Analysis.InnerProductSpace.PiL2

/-! # Orthogonal matching pursuit (C66, C81) -/

namespace Verif.Omp

open Finset

variable {E : Type} [NormedAddCommGroup E] [InnerProductSpace ℝ E]

/-! ## The choice of points -/

/-- `argmax` finds a maximum among the first `n` positions. -/
def IsArgmax (n : Nat) (argmax : (Nat → WithBot ℝ) → Nat) : Prop := 0 < n → ∀ f, argmax f < n ∧ ∀ i < n, f i ≤ f (argmax f)

/-- The selected points after `t` rounds. -/
theorem selection {o : Oracle E} {c : Setup} (ho : IsArgmax c.n o.argmax) (points : Nat → E) (target : E) (t : Nat) (ht : t ≤ c.n) :
    (∀ i < t, (loop o c points target t).selected i < c.n) ∧
    (∀ m, (loop o c points target t).mask m = true ↔ ∃ i < t, (loop o c points target t).selected i = m) ∧
    (∀ i < t, ∀ j < t, (loop o c points target t).selected i = (loop o c points target t).selected j → i = j) := by
  induction t with
  | zero => simp [loop, start]
  | succ t ih =>
    obtain ⟨h1, h2, h3⟩ := ih (by omega)
    obtain ⟨ha, hb⟩ := ho (by omega) (score points (loop o c points target t))
    -- the new point has not been selected before
    have hnew : (loop o c points target t).mask (o.argmax (score points (loop o c points target t))) = false := by
      by_contra hm
      rw [Bool.not_eq_false] at hm
      have hall : ∀ m < c.n, (loop o c points target t).mask m = true := by
        intro m hm'
        by_contra hm2
        have := hb m hm'
        have e1 : score points (loop o c points target t) m = ((|inner ℝ (loop o c points target t).residual (points m)| : ℝ) : WithBot ℝ) := if_neg hm2
        have e2 : score points (loop o c points target t) (o.argmax (score points (loop o c points target t))) = ⊥ := if_pos hm
        rw [e1, e2] at this
        exact absurd this (by simp)
      -- more selected points than rounds
      have hsub : Finset.range c.n ⊆ (Finset.range t).image (loop o c points target t).selected := by
        intro m hm'
        obtain ⟨i, hi, he⟩ := (h2 m).mp (hall m (Finset.mem_range.mp hm'))
        exact Finset.mem_image.mpr ⟨i, Finset.mem_range.mpr hi, he⟩
      have := (Finset.card_le_card hsub).trans Finset.card_image_le
      simp only [Finset.card_range] at this
      omega
    have hne : ∀ i < t, (loop o c points target t).selected i ≠ o.argmax (score points (loop o c points target t)) := by
      intro i hi he
      rw [(h2 _).mpr ⟨i, hi, he⟩] at hnew; cases hnew
    have hs : ∀ i, (loop o c points target (t + 1)).selected i =
        if i = t then o.argmax (score points (loop o c points target t)) else (loop o c points target t).selected i := fun i => rfl
    refine ⟨?_, ?_, ?_⟩
    · intro i hi
      rw [hs]
      split
      · exact ha
      · exact h1 i (by omega)
    · intro m
      have hm : (loop o c points target (t + 1)).mask m =
          if m = o.argmax (score points (loop o c points target t)) then true else (loop o c points target t).mask m := rfl
      rw [hm]
      constructor
      · intro h
        split at h
        · rename_i he
          exact ⟨t, by omega, by rw [hs, if_pos rfl, he]⟩
        · obtain ⟨i, hi, he⟩ := (h2 m).mp h
          exact ⟨i, by omega, by rw [hs, if_neg (by omega), he]⟩
      · rintro ⟨i, hi, he⟩
        rw [hs] at he
        split at he
        · rw [if_pos he.symm]
        · split
          · rfl
          · exact (h2 m).mpr ⟨i, by omega, he⟩
    · intro i hi j hj he
      rw [hs, hs] at he
      split at he
      · split at he
        · omega
        · exact absurd he.symm (hne j (by omega))
      · split at he
        · exact absurd he (hne i (by omega))
        · exact h3 i (by omega) j (by omega) he

/-- C66: more points than there are candidates are refused; otherwise the points selected are different candidates, as many as asked for. -/
theorem C66_distinct {o : Oracle E} {c : Setup} (ho : IsArgmax c.n o.argmax) (points : Nat → E) (target : E) (k : Nat) :
    (c.n < k → omp o c points target k = .error .value) ∧
    (k ≤ c.n → omp o c points target k ≠ .error .value) ∧
    (∀ sel co, omp o c points target k = .ok (sel, co) → sel.length = k ∧ co.length = k ∧ sel.Nodup ∧ ∀ i ∈ sel, i < c.n) := by
  refine ⟨fun h => by unfold omp; rw [if_pos h], fun h => ?_, fun sel co h => ?_⟩
  · unfold omp
    rw [if_neg (by omega)]
    split <;> simp
  · unfold omp at h
    split at h
    · cases h
    · rename_i hk
      split at h
      · cases h
      · cases h
        obtain ⟨h1, _, h3⟩ := selection ho points target k (by omega)
        refine ⟨by simp, by simp, ?_, ?_⟩
        · refine List.Nodup.map_on ?_ List.nodup_range
          intro i hi j hj
          exact h3 i (List.mem_range.mp hi) j (List.mem_range.mp hj)
        · intro i hi
          obtain ⟨j, hj, rfl⟩ := List.mem_map.mp hi
          exact h1 j (List.mem_range.mp hj)

/-! ## Triangular systems -/

theorem backSub_later (k : Nat) (r : Nat → Nat → ℝ) (b : Nat → ℝ) {j j' l : Nat} (hj : j ≤ j') (hk : j' ≤ k) (h1 : k - j ≤ l) (h2 : l < k) :
    backSub k r b j' l = backSub k r b j l := by
  induction j', hj using Nat.le_induction with
  | base => rfl
  | succ n hn ih => rw [backSub, if_neg (by omega), ih (by omega)]

/-- Substitution solves a triangular system without zeros on the diagonal. -/
theorem backSub_solves {k : Nat} {r : Nat → Nat → ℝ} (hu : ∀ i j, j < i → r i j = 0) (hd : ∀ i < k, r i i ≠ 0) (b : Nat → ℝ) {i : Nat} (hi : i < k) :
    ∑ j ∈ range k, r i j * backSub k r b k j = b i := by
  have hx : backSub k r b k i = (b i - ∑ m ∈ range k, if i < m then r i m * backSub k r b k m else 0) / r i i := by
    rw [backSub_later k r b (j := k - i) (j' := k) (by omega) le_rfl (by omega) hi, show k - i = (k - i - 1) + 1 by omega, backSub, if_pos (by omega)]
    congr 2
    refine Finset.sum_congr rfl (fun m hm => ?_)
    rw [Finset.mem_range] at hm
    split
    · rw [backSub_later k r b (j := k - i - 1) (j' := k) (by omega) le_rfl (by omega) hm]
    · rfl
  have hsplit : ∑ j ∈ range k, r i j * backSub k r b k j =
      r i i * backSub k r b k i + ∑ m ∈ range k, if i < m then r i m * backSub k r b k m else 0 := by
    rw [← Finset.sum_erase_add _ _ (Finset.mem_range.mpr hi), add_comm]
    congr 1
    rw [← Finset.sum_erase_add (range k) (fun m => if i < m then r i m * backSub k r b k m else 0) (Finset.mem_range.mpr hi), if_neg (lt_irrefl i),
      add_zero]
    refine Finset.sum_congr rfl (fun m hm => ?_)
    rw [Finset.mem_erase] at hm
    split
    · rfl
    · rw [hu i m (by omega), zero_mul]
  rw [hsplit, hx, mul_div_cancel₀ _ (hd i hi)]
  ring

/-! ## Orthogonal columns -/

/-- Orthogonal columns, of length one or zero. -/
def Columns (n : Nat) (q : Nat → E) : Prop :=
  (∀ i < n, ∀ j < n, i ≠ j → inner ℝ (q i) (q j) = 0) ∧ ∀ i < n, inner ℝ (q i) (q i) = 1 ∨ q i = 0

theorem residual_orth {n : Nat} {q : Nat → E} (h : Columns n q) (z : E) {i : Nat} (hi : i < n) : inner ℝ (q i) (residualOf q n z) = 0 := by
  unfold residualOf
  rw [inner_sub_right, inner_sum, Finset.sum_eq_single i]
  · rw [inner_smul_right]
    rcases h.2 i hi with h1 | h1
    · rw [h1]; ring
    · rw [h1]; simp
  · intro j hj hne
    rw [inner_smul_right, h.1 i hi j (Finset.mem_range.mp hj) hne.symm, mul_zero]
  · intro hn; exact absurd (Finset.mem_range.mpr hi) hn

theorem residual_orth_sum {n : Nat} {q : Nat → E} (h : Columns n q) (z : E) (a : Nat → ℝ) :
    inner ℝ (∑ i ∈ range n, a i • q i) (residualOf q n z) = 0 := by
  rw [sum_inner]
  refine Finset.sum_eq_zero (fun i hi => ?_)
  rw [inner_smul_left, residual_orth h z (Finset.mem_range.mp hi), mul_zero]

/-- The residual is the shortest difference to a combination of the columns. -/
theorem residual_least {n : Nat} {q : Nat → E} (h : Columns n q) (z : E) (a : Nat → ℝ) : ‖residualOf q n z‖ ≤ ‖z - ∑ i ∈ range n, a i • q i‖ := by
  have he : z - ∑ i ∈ range n, a i • q i = residualOf q n z + ∑ i ∈ range n, (inner ℝ (q i) z - a i) • q i := by
    unfold residualOf
    simp only [sub_smul, Finset.sum_sub_distrib]
    abel
  have ho := residual_orth_sum h z (fun i => inner ℝ (q i) z - a i)
  rw [real_inner_comm] at ho
  have hs := norm_add_sq_real (residualOf q n z) (∑ i ∈ range n, (inner ℝ (q i) z - a i) • q i)
  rw [ho, ← he] at hs
  refine (sq_le_sq₀ (norm_nonneg _) (norm_nonneg _)).mp ?_
  rw [hs]
  nlinarith [sq_nonneg ‖∑ i ∈ range n, (inner ℝ (q i) z - a i) • q i‖]

/-- Combinations of the points are combinations of the columns ... -/
theorem points_to_columns {n : Nat} {q p : Nat → E} {r : Nat → Nat → ℝ} (hc : ∀ j < n, p j = ∑ i ∈ range n, r i j • q i) (d : Nat → ℝ) :
    ∑ j ∈ range n, d j • p j = ∑ i ∈ range n, (∑ j ∈ range n, r i j * d j) • q i := by
  rw [Finset.sum_congr rfl (fun j hj => by rw [hc j (Finset.mem_range.mp hj), Finset.smul_sum]), Finset.sum_comm]
  refine Finset.sum_congr rfl (fun i _ => ?_)
  rw [Finset.sum_smul]
  refine Finset.sum_congr rfl (fun j _ => ?_)
  rw [smul_smul, mul_comm]

/-- ... and the other way round. -/
theorem columns_to_points {n : Nat} {q p : Nat → E} {r : Nat → Nat → ℝ} (hc : ∀ j < n, p j = ∑ i ∈ range n, r i j • q i)
    (hu : ∀ i j, j < i → r i j = 0) (hd : ∀ i < n, r i i ≠ 0) (a : Nat → ℝ) :
    ∑ j ∈ range n, backSub n r a n j • p j = ∑ i ∈ range n, a i • q i := by
  rw [points_to_columns hc]
  refine Finset.sum_congr rfl (fun i hi => ?_)
  rw [backSub_solves hu hd a (Finset.mem_range.mp hi)]

/-! ## The factorization -/

/-- Orthonormal columns. -/
def Ortho (n : Nat) (q : Nat → E) : Prop := ∀ i < n, ∀ j < n, inner ℝ (q i) (q j) = if i = j then (1 : ℝ) else 0

/-- A factorization into orthonormal columns and a triangular matrix. -/
def IsQr (n : Nat) (q : Nat → E) (f : (Nat → E) × (Nat → Nat → ℝ)) : Prop :=
  Ortho n f.1 ∧ (∀ i < n, q i = ∑ l ∈ range n, f.2 l i • f.1 l) ∧ ∀ l < n, ∀ i < l, f.2 l i = 0

theorem inner_column {n : Nat} {q : Nat → E} (h : Ortho n q) (a : Nat → ℝ) {l : Nat} (hl : l < n) : inner ℝ (q l) (∑ i ∈ range n, a i • q i) = a l := by
  rw [inner_sum, Finset.sum_eq_single l]
  · rw [inner_smul_right, h l hl l hl, if_pos rfl, mul_one]
  · intro j hj hne
    rw [inner_smul_right, h l hl j (Finset.mem_range.mp hj), if_neg hne.symm, mul_zero]
  · intro hn; exact absurd (Finset.mem_range.mpr hl) hn

/-- Factorizing orthonormal columns only changes signs. -/
theorem qr_signs {n : Nat} {q : Nat → E} {f : (Nat → E) × (Nat → Nat → ℝ)} (hq : Ortho n q) (hf : IsQr n q f) :
    ∀ i < n, q i = f.2 i i • f.1 i ∧ f.2 i i * f.2 i i = 1 ∧ ∀ l < n, l ≠ i → f.2 l i = 0 := by
  obtain ⟨h1, h2, h3⟩ := hf
  intro i
  induction i using Nat.strongRecOn with
  | ind i ih =>
    intro hi
    have hoff : ∀ l < n, l ≠ i → f.2 l i = 0 := by
      intro l hl hne
      rcases Nat.lt_or_gt_of_ne hne with hlt | hgt
      · obtain ⟨hq', hs, _⟩ := ih l hlt hl
        have h0 := hq l hl i hi
        rw [if_neg hne, hq', inner_smul_left, h2 i hi, inner_column h1 _ hl] at h0
        simp only [conj_trivial] at h0
        rcases mul_eq_zero.mp h0 with h | h
        · rw [h] at hs; simp at hs
        · exact h
      · exact h3 l hl i hgt
    have hqi : q i = f.2 i i • f.1 i := by
      rw [h2 i hi]
      refine Finset.sum_eq_single i (fun l hl hne => ?_) (fun h => absurd (Finset.mem_range.mpr hi) h)
      rw [hoff l (Finset.mem_range.mp hl) hne, zero_smul]
    refine ⟨hqi, ?_, hoff⟩
    have h0 := hq i hi i hi
    rw [if_pos rfl, hqi, inner_smul_left, inner_smul_right, h1 i hi i hi, if_pos rfl] at h0
    simpa using h0

/-! ## The invariant -/

/-- The state after `t` of `k` rounds: orthogonal columns, and the selected points factorized. -/
structure Good (c : Setup) (k : Nat) (points : Nat → E) (target : E) (t : Nat) (s : State E) : Prop where
  cols : Columns t s.q
  unit : c.interval < k → ∀ i < t, inner ℝ (s.q i) (s.q i) = 1
  upper : ∀ i j, j < i → s.r i j = 0
  diag : ∀ i < t, s.r i i ≠ 0
  col : ∀ j < t, points (s.selected j) = ∑ i ∈ range t, s.r i j • s.q i
  res : s.residual = residualOf s.q t target

/-- A new point is far enough from the combinations of the others, or (as long as nothing is reorthogonalized) one of them. -/
def Apart (c : Setup) (k : Nat) (points : Nat → E) (sel : Nat → Nat) (t : Nat) : Prop :=
  (∀ d : Nat → ℝ, c.eps ≤ ‖points (sel t) - ∑ i ∈ range t, d i • points (sel i)‖) ∨
    (0 < t ∧ k ≤ c.interval ∧ ∃ d : Nat → ℝ, points (sel t) = ∑ i ∈ range t, d i • points (sel i))

theorem extend_good {c : Setup} (heps : 0 < c.eps) {k : Nat} {points : Nat → E} {target : E} {t : Nat} {s : State E} (hg : Good c k points target t s)
    {atom : E} (ha : (∀ d : Nat → ℝ, c.eps ≤ ‖atom - ∑ i ∈ range t, d i • points (s.selected i)‖) ∨
      (0 < t ∧ k ≤ c.interval ∧ ∃ d : Nat → ℝ, atom = ∑ i ∈ range t, d i • points (s.selected i))) :
    Columns (t + 1) (extend c.eps t atom s.q s.r).1 ∧ (c.interval < k → ∀ i < t + 1, inner ℝ ((extend c.eps t atom s.q s.r).1 i) ((extend c.eps t atom s.q s.r).1 i) = 1) ∧
    (∀ i j, j < i → (extend c.eps t atom s.q s.r).2 i j = 0) ∧ (∀ i < t + 1, (extend c.eps t atom s.q s.r).2 i i ≠ 0) ∧
    (∀ j < t, points (s.selected j) = ∑ i ∈ range (t + 1), (extend c.eps t atom s.q s.r).2 i j • (extend c.eps t atom s.q s.r).1 i) ∧
    atom = ∑ i ∈ range (t + 1), (extend c.eps t atom s.q s.r).2 i t • (extend c.eps t atom s.q s.r).1 i := by
  have hrem : remainder s.q t atom = residualOf s.q t atom := rfl
  -- the length of the remainder
  have hcase : c.eps ≤ ‖remainder s.q t atom‖ ∨ (0 < t ∧ k ≤ c.interval ∧ remainder s.q t atom = 0) := by
    rcases ha with ha | ⟨h0, hk, d, hd⟩
    · left
      have := ha (backSub t s.r (fun i => inner ℝ (s.q i) atom) t)
      rw [columns_to_points hg.col hg.upper hg.diag] at this
      exact this
    · right
      refine ⟨h0, hk, ?_⟩
      rw [← norm_le_zero_iff, hrem]
      refine (residual_least hg.cols atom (fun i => ∑ j ∈ range t, s.r i j * d j)).trans ?_
      rw [← points_to_columns hg.col, ← hd, sub_self, norm_zero]
  have hpos : 0 < max ‖remainder s.q t atom‖ c.eps := lt_of_lt_of_le heps (le_max_right _ _)
  -- the columns
  have hq : ∀ i, (extend c.eps t atom s.q s.r).1 i = if i = t then (max ‖remainder s.q t atom‖ c.eps)⁻¹ • remainder s.q t atom else s.q i := by
    intro i
    unfold extend
    split
    · rename_i h; subst h; simp [remainder]
    · rfl
  have hr : ∀ i j, (extend c.eps t atom s.q s.r).2 i j =
      if j = t ∧ i < t then inner ℝ (s.q i) atom else if j = t ∧ i = t then max ‖remainder s.q t atom‖ c.eps else s.r i j := by
    intro i j
    unfold extend
    split
    · rename_i h
      subst h
      have hn : max ‖remainder s.q 0 atom‖ c.eps = ‖atom‖ := by
        rcases hcase with h | ⟨h, _⟩
        · rw [max_eq_left h]; simp [remainder]
        · omega
      simp only [Nat.not_lt_zero, and_false, if_false, hn]
      by_cases h1 : i = 0 ∧ j = 0
      · rw [if_pos h1, if_pos ⟨h1.2, h1.1⟩]
      · rw [if_neg h1, if_neg (fun h => h1 ⟨h.2, h.1⟩)]
    · rfl
  have hqt : (extend c.eps t atom s.q s.r).1 t = (max ‖remainder s.q t atom‖ c.eps)⁻¹ • remainder s.q t atom := by rw [hq, if_pos rfl]
  have hqi : ∀ i < t, (extend c.eps t atom s.q s.r).1 i = s.q i := fun i hi => by rw [hq, if_neg (by omega)]
  have horth : ∀ i < t, inner ℝ (s.q i) ((max ‖remainder s.q t atom‖ c.eps)⁻¹ • remainder s.q t atom) = 0 := by
    intro i hi
    rw [inner_smul_right, hrem, residual_orth hg.cols atom hi, mul_zero]
  have hunit : c.eps ≤ ‖remainder s.q t atom‖ →
      inner ℝ ((max ‖remainder s.q t atom‖ c.eps)⁻¹ • remainder s.q t atom) ((max ‖remainder s.q t atom‖ c.eps)⁻¹ • remainder s.q t atom) = 1 := by
    intro h
    rw [max_eq_left h] at hpos ⊢
    rw [inner_smul_left, inner_smul_right, real_inner_self_eq_norm_sq]
    simp only [conj_trivial]
    field_simp
  refine ⟨⟨?_, ?_⟩, ?_, ?_, ?_, ?_, ?_⟩
  · intro i hi j hj hne
    by_cases h1 : i = t
    · subst h1
      rw [hqt, hqi j (by omega), real_inner_comm]
      exact horth j (by omega)
    · by_cases h2 : j = t
      · subst h2
        rw [hqt, hqi i (by omega)]
        exact horth i (by omega)
      · rw [hqi i (by omega), hqi j (by omega)]
        exact hg.cols.1 i (by omega) j (by omega) hne
  · intro i hi
    by_cases h1 : i = t
    · subst h1
      rw [hqt]
      rcases hcase with h | ⟨_, _, h⟩
      · exact Or.inl (hunit h)
      · right; rw [h, smul_zero]
    · rw [hqi i (by omega)]
      exact hg.cols.2 i (by omega)
  · intro hk i hi
    by_cases h1 : i = t
    · subst h1
      rw [hqt]
      rcases hcase with h | ⟨_, hk', _⟩
      · exact hunit h
      · omega
    · rw [hqi i (by omega)]
      exact hg.unit hk i (by omega)
  · intro i j hji
    rw [hr]
    rw [if_neg (by omega), if_neg (by omega)]
    exact hg.upper i j hji
  · intro i hi
    rw [hr]
    rw [if_neg (by omega)]
    split
    · exact hpos.ne'
    · exact hg.diag i (by omega)
  · intro j hj
    rw [Finset.sum_range_succ, hr t j, if_neg (by omega), if_neg (by omega), hg.upper t j hj, zero_smul, add_zero, hg.col j hj]
    refine Finset.sum_congr rfl (fun i hi => ?_)
    rw [Finset.mem_range] at hi
    rw [hqi i hi, hr, if_neg (by omega), if_neg (by omega)]
  · have hs : ∑ i ∈ range t, (extend c.eps t atom s.q s.r).2 i t • (extend c.eps t atom s.q s.r).1 i = ∑ i ∈ range t, (inner ℝ (s.q i) atom : ℝ) • s.q i := by
      refine Finset.sum_congr rfl (fun i hi => ?_)
      rw [Finset.mem_range] at hi
      rw [hqi i hi, hr, if_pos ⟨rfl, hi⟩]
    rw [Finset.sum_range_succ, hs, hr t t, if_neg (by omega), if_pos ⟨rfl, rfl⟩, hqt, smul_smul, mul_inv_cancel₀ hpos.ne', one_smul]
    unfold remainder
    abel

theorem reorth_good {o : Oracle E} {n : Nat} {q : Nat → E} {r : Nat → Nat → ℝ} (hq : Ortho n q) (hf : IsQr n q (o.qr n q)) :
    Ortho n (reorthogonalize o n q r).1 ∧ (∀ i < n, ∃ e : ℝ, e * e = 1 ∧ (∀ j < n, (reorthogonalize o n q r).2 i j = e * r i j) ∧ q i = e • (reorthogonalize o n q r).1 i) ∧
    ∀ i j, ¬ (i < n ∧ j < n) → (reorthogonalize o n q r).2 i j = r i j := by
  have hs := qr_signs hq hf
  have h1 : ∀ i < n, (reorthogonalize o n q r).1 i = (o.qr n q).1 i := fun i hi => if_pos hi
  refine ⟨?_, ?_, ?_⟩
  · intro i hi j hj
    rw [h1 i hi, h1 j hj]
    exact hf.1 i hi j hj
  · intro i hi
    obtain ⟨a, b, _⟩ := hs i hi
    refine ⟨(o.qr n q).2 i i, b, ?_, by rw [h1 i hi]; exact a⟩
    intro j hj
    have : (reorthogonalize o n q r).2 i j = ∑ l ∈ range n, (o.qr n q).2 i l * r l j := if_pos ⟨hi, hj⟩
    rw [this]
    refine Finset.sum_eq_single i (fun l hl hne => ?_) (fun h => absurd (Finset.mem_range.mpr hi) h)
    rw [(hs l (Finset.mem_range.mp hl)).2.2 i hi hne.symm, zero_mul]
  · intro i j h
    exact if_neg h

theorem ortho_of_columns {n : Nat} {q : Nat → E} (h : Columns n q) (hu : ∀ i < n, inner ℝ (q i) (q i) = 1) : Ortho n q := by
  intro i hi j hj
  split
  · rename_i he; rw [← he]; exact hu i hi
  · rename_i he; exact h.1 i hi j hj he

/-- Every round keeps the invariant. -/
theorem step_good {o : Oracle E} {c : Setup} (heps : 0 < c.eps) (hqr : ∀ n q, Ortho n q → IsQr n q (o.qr n q)) {k : Nat} {points : Nat → E} {target : E}
    {t : Nat} (ht : t < k) {s : State E} (hg : Good c k points target t s) (ha : Apart c k points (step o c points target t s).selected t) :
    Good c k points target (t + 1) (step o c points target t s) := by
  have hsel : (step o c points target t s).selected t = o.argmax (score points s) := if_pos rfl
  have hold : ∀ i < t, (step o c points target t s).selected i = s.selected i := fun i hi => if_neg (by omega)
  have hsum : ∀ d : Nat → ℝ, ∑ i ∈ range t, d i • points ((step o c points target t s).selected i) = ∑ i ∈ range t, d i • points (s.selected i) := by
    intro d
    refine Finset.sum_congr rfl (fun i hi => ?_)
    rw [hold i (Finset.mem_range.mp hi)]
  unfold Apart at ha
  simp only [hsum, hsel] at ha
  obtain ⟨e1, e2, e3, e4, e5, e6⟩ := extend_good heps hg ha
  have hpts : ∀ j < t + 1, points ((step o c points target t s).selected j) =
      ∑ i ∈ range (t + 1), (extend c.eps t (points (o.argmax (score points s))) s.q s.r).2 i j • (extend c.eps t (points (o.argmax (score points s))) s.q s.r).1 i := by
    intro j hj
    by_cases h : j = t
    · subst h; rw [hsel]; exact e6
    · rw [hold j (by omega)]; exact e5 j (by omega)
  by_cases hre : 0 < t ∧ t % c.interval = 0
  · have hcol : columns o c t (points (o.argmax (score points s))) s = reorthogonalize o (t + 1) (extend c.eps t (points (o.argmax (score points s))) s.q s.r).1
        (extend c.eps t (points (o.argmax (score points s))) s.q s.r).2 := if_pos hre
    have hk : c.interval < k := by
      have : c.interval ≤ t := Nat.le_of_dvd hre.1 (Nat.dvd_of_mod_eq_zero hre.2)
      omega
    have ho := ortho_of_columns e1 (e2 hk)
    obtain ⟨r1, r2, r3⟩ := reorth_good (o := o) (r := (extend c.eps t (points (o.argmax (score points s))) s.q s.r).2) ho (hqr _ _ ho)
    have hq' : (step o c points target t s).q = (columns o c t (points (o.argmax (score points s))) s).1 := rfl
    have hr' : (step o c points target t s).r = (columns o c t (points (o.argmax (score points s))) s).2 := rfl
    rw [hcol] at hq' hr'
    refine ⟨⟨?_, ?_⟩, ?_, ?_, ?_, ?_, rfl⟩
    · intro i hi j hj hne
      rw [hq', r1 i hi j hj, if_neg hne]
    · intro i hi
      left
      rw [hq', r1 i hi i hi, if_pos rfl]
    · intro _ i hi
      rw [hq', r1 i hi i hi, if_pos rfl]
    · intro i j hji
      rw [hr']
      by_cases h : i < t + 1
      · obtain ⟨e, _, h2, _⟩ := r2 i h
        rw [h2 j (by omega), e3 i j hji, mul_zero]
      · rw [r3 i j (fun h' => h h'.1)]; exact e3 i j hji
    · intro i hi
      obtain ⟨e, h1, h2, _⟩ := r2 i hi
      rw [hr', h2 i hi]
      refine mul_ne_zero ?_ (e4 i hi)
      rintro rfl
      simp at h1
    · intro j hj
      rw [hpts j hj, hq', hr']
      refine Finset.sum_congr rfl (fun i hi => ?_)
      obtain ⟨e, h1, h2, h3⟩ := r2 i (Finset.mem_range.mp hi)
      rw [h2 j hj]
      conv_lhs => rw [h3]
      rw [smul_smul, mul_comm]
  · have hcol : columns o c t (points (o.argmax (score points s))) s = extend c.eps t (points (o.argmax (score points s))) s.q s.r := if_neg hre
    have hq' : (step o c points target t s).q = (columns o c t (points (o.argmax (score points s))) s).1 := rfl
    have hr' : (step o c points target t s).r = (columns o c t (points (o.argmax (score points s))) s).2 := rfl
    rw [hcol] at hq' hr'
    refine ⟨?_, ?_, ?_, ?_, ?_, rfl⟩
    · rw [hq']; exact e1
    · rw [hq']; exact e2
    · rw [hr']; exact e3
    · rw [hr']; exact e4
    · rw [hq', hr']; exact hpts

/-- The point picked in round `t`. -/
noncomputable def pick (o : Oracle E) (c : Setup) (points : Nat → E) (target : E) (t : Nat) : Nat := (loop o c points target (t + 1)).selected t

theorem selected_pick (o : Oracle E) (c : Setup) (points : Nat → E) (target : E) (t : Nat) :
    ∀ i < t, (loop o c points target t).selected i = pick o c points target i := by
  induction t with
  | zero => intro i hi; omega
  | succ t ih =>
    intro i hi
    by_cases h : i = t
    · subst h; rfl
    · have : (loop o c points target (t + 1)).selected i = (loop o c points target t).selected i := if_neg h
      rw [this, ih i (by omega)]

theorem apart_congr {c : Setup} {k : Nat} {points : Nat → E} {f g : Nat → Nat} {t : Nat} (h : ∀ i ≤ t, f i = g i) (ha : Apart c k points f t) : Apart c k points g t := by
  have hs : ∀ d : Nat → ℝ, ∑ i ∈ range t, d i • points (f i) = ∑ i ∈ range t, d i • points (g i) := by
    intro d
    refine Finset.sum_congr rfl (fun i hi => ?_)
    rw [h i (Finset.mem_range.mp hi).le]
  unfold Apart at ha ⊢
  simpa only [hs, h t (le_refl t)] using ha

theorem loop_good {o : Oracle E} {c : Setup} (heps : 0 < c.eps) (hqr : ∀ n q, Ortho n q → IsQr n q (o.qr n q)) {k : Nat} {points : Nat → E} {target : E}
    (ha : ∀ t < k, Apart c k points (pick o c points target) t) : ∀ t ≤ k, Good c k points target t (loop o c points target t) := by
  intro t
  induction t with
  | zero =>
    intro _
    refine ⟨⟨fun i hi => by omega, fun i hi => by omega⟩, fun _ i hi => by omega, fun _ _ _ => rfl, fun i hi => by omega, fun j hj => by omega, ?_⟩
    simp [loop, start, residualOf]
  | succ t ih =>
    intro ht
    refine step_good heps hqr (by omega) (ih (by omega)) (apart_congr (fun i hi => ?_) (ha t (by omega)))
    exact (selected_pick o c points target (t + 1) i (by omega)).symm

/-! ## C81 -/

/-- The combination of some of the points with the given coefficients. -/
noncomputable def combine (points : Nat → E) (sel : List Nat) (co : List ℝ) : E := ((sel.zip co).map (fun e => e.2 • points e.1)).sum

theorem combine_range (points : Nat → E) (f : Nat → Nat) (d : Nat → ℝ) (k : Nat) :
    combine points ((List.range k).map f) ((List.range k).map d) = ∑ i ∈ range k, d i • points (f i) := by
  unfold combine
  rw [List.zip_map']
  induction k with
  | zero => simp
  | succ k ih =>
    rw [List.range_succ, List.map_append, List.map_append, List.sum_append, ih, Finset.sum_range_succ]
    simp

theorem list_as_range (d : List ℝ) : d = (List.range d.length).map (fun i => d.getD i 0) := by
  apply List.ext_getElem
  · simp
  · intro i h1 h2
    simp [List.getD_eq_getElem?_getD, h1]

/-- The points that the pursuit picks, one per round, are far enough from the combinations of those before (in exact arithmetic: linearly independent). -/
def WellPosed (c : Setup) (points : Nat → E) (sel : List Nat) : Prop :=
  ∀ t < sel.length, Apart c sel.length points (fun i => sel.getD i 0) t

theorem omp_ok {o : Oracle E} {c : Setup} {points : Nat → E} {target : E} {k : Nat} {sel : List Nat} {co : List ℝ}
    (h : omp o c points target k = .ok (sel, co)) : k ≤ c.n ∧ sel = (List.range k).map (pick o c points target) ∧
      co = (List.range k).map (coefficients k target (loop o c points target k)) := by
  unfold omp at h
  split at h
  · cases h
  · split at h
    · cases h
    · cases h
      refine ⟨by omega, ?_, rfl⟩
      apply List.map_congr_left
      intro i hi
      exact selected_pick o c points target k i (List.mem_range.mp hi)

theorem wellPosed_apart {o : Oracle E} {c : Setup} {points : Nat → E} {target : E} {k : Nat} (h : WellPosed c points ((List.range k).map (pick o c points target))) :
    ∀ t < k, Apart c k points (pick o c points target) t := by
  intro t ht
  unfold WellPosed at h
  simp only [List.length_map, List.length_range] at h
  refine apart_congr (fun i hi => ?_) (h t ht)
  simp [show i < k by omega]

/-- The combination that is found leaves the residual of the loop. -/
theorem combine_residual {c : Setup} {k : Nat} {points : Nat → E} {target : E} {s : State E} (hg : Good c k points target k s) :
    target - ∑ j ∈ range k, coefficients k target s j • points (s.selected j) = s.residual := by
  unfold coefficients
  rw [columns_to_points hg.col hg.upper hg.diag, hg.res]
  rfl

/-- No combination of the selected points is closer to the target than the one found. -/
theorem C81_best {o : Oracle E} {c : Setup} (heps : 0 < c.eps) (hqr : ∀ n q, Ortho n q → IsQr n q (o.qr n q)) {points : Nat → E} {target : E} {k : Nat}
    {sel : List Nat} {co : List ℝ} (h : omp o c points target k = .ok (sel, co)) (hw : WellPosed c points sel) (d : List ℝ) (hd : d.length = k) :
    ‖target - combine points sel co‖ ≤ ‖target - combine points sel d‖ := by
  obtain ⟨_, hsel, hco⟩ := omp_ok h
  have hg := loop_good heps hqr (wellPosed_apart (hsel ▸ hw)) k (le_refl k)
  have hpick : ∀ d : Nat → ℝ, ∑ i ∈ range k, d i • points (pick o c points target i) = ∑ i ∈ range k, d i • points ((loop o c points target k).selected i) := by
    intro d
    refine Finset.sum_congr rfl (fun i hi => ?_)
    rw [selected_pick o c points target k i (Finset.mem_range.mp hi)]
  rw [list_as_range d, hd, hsel, hco, combine_range, combine_range, hpick, hpick, combine_residual hg, points_to_columns hg.col, hg.res]
  exact residual_least hg.cols target _

/-- A well posed run ends with coefficients, not with infinities. -/
theorem C81_finite {o : Oracle E} {c : Setup} (heps : 0 < c.eps) (hqr : ∀ n q, Ortho n q → IsQr n q (o.qr n q)) {points : Nat → E} {target : E} {k : Nat} (hk : k ≤ c.n)
    (hw : ∀ t < k, Apart c k points (pick o c points target) t) :
    ∃ co, omp o c points target k = .ok ((List.range k).map (pick o c points target), co) ∧ co.length = k := by
  have hg := loop_good heps hqr hw k (le_refl k)
  unfold omp
  rw [if_neg (by omega), if_neg (fun ⟨i, hi, h0⟩ => hg.diag i hi h0)]
  refine ⟨(List.range k).map (coefficients k target (loop o c points target k)), ?_, by simp⟩
  congr 2
  apply List.map_congr_left
  intro i hi
  exact selected_pick o c points target k i (List.mem_range.mp hi)

theorem loop_good_at {o : Oracle E} {c : Setup} (heps : 0 < c.eps) (hqr : ∀ n q, Ortho n q → IsQr n q (o.qr n q)) {k : Nat} {points : Nat → E} {target : E} {t : Nat}
    (ha : ∀ i < t, Apart c k points (pick o c points target) i) (ht : t ≤ k) : Good c k points target t (loop o c points target t) := by
  induction t with
  | zero =>
    refine ⟨⟨fun i hi => by omega, fun i hi => by omega⟩, fun _ i hi => by omega, fun _ _ _ => rfl, fun i hi => by omega, fun j hj => by omega, ?_⟩
    simp [loop, start, residualOf]
  | succ t ih =>
    refine step_good heps hqr (by omega) (ih (fun i hi => ha i (by omega)) (by omega)) (apart_congr (fun i hi => ?_) (ha t (by omega)))
    exact (selected_pick o c points target (t + 1) i (by omega)).symm

/-- Each point is chosen because, among those not yet chosen, it correlates most with what the best combination of the earlier ones leaves. -/
theorem C81_greedy {o : Oracle E} {c : Setup} (ho : IsArgmax c.n o.argmax) (heps : 0 < c.eps) (hqr : ∀ n q, Ortho n q → IsQr n q (o.qr n q)) {points : Nat → E} {target : E} {k : Nat}
    {sel : List Nat} {co : List ℝ} (h : omp o c points target k = .ok (sel, co)) (hw : WellPosed c points sel) (t : Nat) (ht : t < k) :
    ∃ best : List ℝ, best.length = t ∧ (∀ d : List ℝ, d.length = t → ‖target - combine points (sel.take t) best‖ ≤ ‖target - combine points (sel.take t) d‖) ∧
      ∀ m < c.n, m ∉ sel.take t →
        |inner ℝ (target - combine points (sel.take t) best) (points m)| ≤ |inner ℝ (target - combine points (sel.take t) best) (points (sel.getD t 0))| := by
  obtain ⟨hkn, hsel, _⟩ := omp_ok h
  have hap := wellPosed_apart (hsel ▸ hw)
  have hg := loop_good heps hqr hap t ht.le
  -- the columns for `t` rounds
  have hpick : ∀ d : Nat → ℝ, ∑ i ∈ range t, d i • points (pick o c points target i) = ∑ i ∈ range t, d i • points ((loop o c points target t).selected i) := by
    intro d
    refine Finset.sum_congr rfl (fun i hi => ?_)
    rw [selected_pick o c points target t i (Finset.mem_range.mp hi)]
  have htake : sel.take t = (List.range t).map (pick o c points target) := by
    rw [hsel, ← List.map_take, List.take_range, Nat.min_eq_left ht.le]
  have hbest : target - combine points (sel.take t) ((List.range t).map (backSub t (loop o c points target t).r (fun i => inner ℝ ((loop o c points target t).q i) target) t)) =
      (loop o c points target t).residual := by
    rw [htake, combine_range, hpick, columns_to_points hg.col hg.upper hg.diag, hg.res]
    rfl
  refine ⟨(List.range t).map (backSub t (loop o c points target t).r (fun i => inner ℝ ((loop o c points target t).q i) target) t), by simp, ?_, ?_⟩
  · intro d hd
    rw [hbest, list_as_range d, hd, htake, combine_range, hpick, points_to_columns hg.col, hg.res]
    exact residual_least hg.cols target _
  · intro m hm hnot
    rw [hbest]
    have hget : sel.getD t 0 = o.argmax (score points (loop o c points target t)) := by
      rw [hsel]
      simp only [List.getD_eq_getElem?_getD, List.getElem?_map, List.getElem?_range ht, Option.map_some, Option.getD_some]
      exact if_pos rfl
    obtain ⟨_, hmask, _⟩ := selection ho points target t (by omega)
    have hfree : ∀ m, m ∉ sel.take t → ¬ ((loop o c points target t).mask m = true) := by
      intro m hnot hm
      obtain ⟨i, hi, he⟩ := (hmask m).mp hm
      apply hnot
      rw [htake, List.mem_map]
      exact ⟨i, List.mem_range.mpr hi, by rw [← he, selected_pick o c points target t i hi]⟩
    obtain ⟨_, hmax⟩ := ho (by omega) (score points (loop o c points target t))
    have hle := hmax m hm
    have e1 : score points (loop o c points target t) m = ((|inner ℝ (loop o c points target t).residual (points m)| : ℝ) : WithBot ℝ) := if_neg (hfree m hnot)
    rw [e1] at hle
    rw [hget]
    by_cases hmk : (loop o c points target t).mask (o.argmax (score points (loop o c points target t))) = true
    · have e2 : score points (loop o c points target t) (o.argmax (score points (loop o c points target t))) = ⊥ := if_pos hmk
      rw [e2] at hle
      exact absurd hle (by simp)
    · have e2 : score points (loop o c points target t) (o.argmax (score points (loop o c points target t))) =
        ((|inner ℝ (loop o c points target t).residual (points (o.argmax (score points (loop o c points target t))))| : ℝ) : WithBot ℝ) := if_neg hmk
      rw [e2] at hle
      exact WithBot.coe_le_coe.mp hle

theorem combine_snoc (points : Nat → E) (sel : List Nat) (co : List ℝ) (i : Nat) (h : sel.length = co.length) :
    combine points (sel ++ [i]) (co ++ [0]) = combine points sel co := by
  unfold combine
  rw [List.zip_append h]
  simp

/-- Asking for one point more keeps the points and does not make the approximation worse. -/
theorem C81_monotone {o : Oracle E} {c : Setup} (heps : 0 < c.eps) (hqr : ∀ n q, Ortho n q → IsQr n q (o.qr n q)) {points : Nat → E} {target : E} {k : Nat}
    {sel sel' : List Nat} {co co' : List ℝ} (h : omp o c points target k = .ok (sel, co)) (h' : omp o c points target (k + 1) = .ok (sel', co'))
    (hw : WellPosed c points sel') : sel'.take k = sel ∧ ‖target - combine points sel' co'‖ ≤ ‖target - combine points sel co‖ := by
  obtain ⟨_, hsel, hco⟩ := omp_ok h
  obtain ⟨_, hsel', _⟩ := omp_ok h'
  have happ : sel' = sel ++ [pick o c points target k] := by rw [hsel', hsel, List.range_succ]; simp
  have hl : sel.length = k := by rw [hsel]; simp
  have hlc : co.length = k := by rw [hco]; simp
  refine ⟨by rw [happ, List.take_left' hl], ?_⟩
  have := C81_best heps hqr h' hw (co ++ [0]) (by simp [hlc])
  conv_rhs at this => rw [happ, combine_snoc points sel co _ (by rw [hl, hlc])]
  exact this

theorem combine_linear {F : Type} [AddCommGroup F] [Module ℝ F] (f : E →ₗ[ℝ] F) (points : Nat → E) (sel : List Nat) (co : List ℝ) :
    f (combine points sel co) = ((sel.zip co).map (fun e => e.2 • f (points e.1))).sum := by
  unfold combine
  rw [map_list_sum, List.map_map]
  congr 1
  apply List.map_congr_left
  intro e _
  simp

/-- When the target is a combination of the selected points, it is met exactly, and the coefficients carry over: if the other model's vectors are a linear image of
these points, then the vector made for it is the same image of the target. -/
theorem C81_exact {o : Oracle E} {c : Setup} (heps : 0 < c.eps) (hqr : ∀ n q, Ortho n q → IsQr n q (o.qr n q)) {points : Nat → E} {target : E} {k : Nat}
    {sel : List Nat} {co : List ℝ} (h : omp o c points target k = .ok (sel, co)) (hw : WellPosed c points sel)
    (hspan : ∃ d : List ℝ, d.length = k ∧ target = combine points sel d) :
    combine points sel co = target ∧ ∀ {F : Type} [NormedAddCommGroup F] [InnerProductSpace ℝ F] (f : E →ₗ[ℝ] F) (other : Nat → F),
      (∀ i ∈ sel, other i = f (points i)) → combine other sel co = f target := by
  obtain ⟨d, hd, he⟩ := hspan
  have h1 : combine points sel co = target := by
    have := C81_best heps hqr h hw d hd
    rw [← he, sub_self, norm_zero, norm_le_zero_iff, sub_eq_zero] at this
    exact this.symm
  refine ⟨h1, ?_⟩
  intro F _ _ f other ho
  rw [← h1, combine_linear]
  unfold combine
  congr 1
  apply List.map_congr_left
  intro e he
  rw [ho e.1 (List.of_mem_zip he).1]

/-- A round makes progress when the point it picks is not almost orthogonal to what is left; then the run is well posed. -/
theorem C81_progress {o : Oracle E} {c : Setup} (heps : 0 < c.eps) (hqr : ∀ n q, Ortho n q → IsQr n q (o.qr n q)) {points : Nat → E} {target : E} {k : Nat}
    (hp : ∀ t < k, (loop o c points target t).residual ≠ 0 ∧
      c.eps * ‖(loop o c points target t).residual‖ ≤ |inner ℝ (loop o c points target t).residual (points (pick o c points target t))|) :
    ∀ t < k, Apart c k points (pick o c points target) t := by
  intro t
  induction t using Nat.strongRecOn with
  | ind t ih =>
    intro ht
    have hg := loop_good_at heps hqr (k := k) (t := t) (fun i hi => ih i hi (by omega)) ht.le
    obtain ⟨h0, h1⟩ := hp t ht
    left
    intro d
    have hd : ∑ i ∈ range t, d i • points (pick o c points target i) = ∑ i ∈ range t, (∑ j ∈ range t, (loop o c points target t).r i j * d j) • (loop o c points target t).q i := by
      rw [← points_to_columns hg.col]
      refine Finset.sum_congr rfl (fun i hi => ?_)
      rw [selected_pick o c points target t i (Finset.mem_range.mp hi)]
    have hin : inner ℝ (loop o c points target t).residual (points (pick o c points target t) - ∑ i ∈ range t, d i • points (pick o c points target i)) =
        inner ℝ (loop o c points target t).residual (points (pick o c points target t)) := by
      rw [inner_sub_right, hd, hg.res, real_inner_comm _ (residualOf _ _ _), real_inner_comm _ (residualOf _ _ _), residual_orth_sum hg.cols, sub_zero]
    rw [← hin] at h1
    have hcs := abs_real_inner_le_norm (loop o c points target t).residual (points (pick o c points target t) - ∑ i ∈ range t, d i • points (pick o c points target i))
    have hpos : 0 < ‖(loop o c points target t).residual‖ := norm_pos_iff.mpr h0
    have := h1.trans hcs
    rw [mul_comm] at this
    exact le_of_mul_le_mul_left this hpos

/-! ## Instances -/

/-- Orthonormal candidates never are a problem. -/
theorem orthonormal_apart {o : Oracle E} {c : Setup} (ho : IsArgmax c.n o.argmax) (hle : c.eps ≤ 1) {points : Nat → E} (hp : Ortho c.n points) {target : E} {k : Nat} (hk : k ≤ c.n) :
    ∀ t < k, Apart c k points (pick o c points target) t := by
  intro t ht
  left
  intro d
  obtain ⟨h1, _, h3⟩ := selection ho points target k hk
  have hlt : ∀ i < k, pick o c points target i < c.n := fun i hi => by rw [← selected_pick o c points target k i hi]; exact h1 i hi
  have hin : inner ℝ (points (pick o c points target t)) (points (pick o c points target t) - ∑ i ∈ range t, d i • points (pick o c points target i)) = (1 : ℝ) := by
    rw [inner_sub_right, inner_sum, hp _ (hlt t ht) _ (hlt t ht), if_pos rfl, Finset.sum_eq_zero, sub_zero]
    intro i hi
    rw [Finset.mem_range] at hi
    rw [inner_smul_right, hp _ (hlt t ht) _ (hlt i (by omega)), if_neg, mul_zero]
    intro he
    rw [← selected_pick o c points target k t ht, ← selected_pick o c points target k i (by omega)] at he
    have := h3 t ht i (by omega) he
    omega
  have hn : ‖points (pick o c points target t)‖ = 1 := by
    have := hp _ (hlt t ht) _ (hlt t ht)
    rw [if_pos rfl, real_inner_self_eq_norm_sq] at this
    nlinarith [norm_nonneg (points (pick o c points target t))]
  have hcs := abs_real_inner_le_norm (points (pick o c points target t)) (points (pick o c points target t) - ∑ i ∈ range t, d i • points (pick o c points target i))
  rw [hin, hn, one_mul, abs_one] at hcs
  exact hle.trans hcs

/-- There are such library functions: a maximum exists, and orthonormal columns are factorized by themselves. -/
theorem oracle_exists (n : Nat) : ∃ o : Oracle E, IsArgmax n o.argmax ∧ ∀ m q, Ortho m q → IsQr m q (o.qr m q) := by
  classical
  refine ⟨⟨fun f => if h : 0 < n then ((Finset.exists_max_image (range n) f ⟨0, Finset.mem_range.mpr h⟩).choose) else 0,
    fun _ q => (q, fun i j => if i = j then 1 else 0)⟩, ?_, ?_⟩
  · intro h f
    simp only [h, dif_pos]
    have := (Finset.exists_max_image (range n) f ⟨0, Finset.mem_range.mpr h⟩).choose_spec
    exact ⟨Finset.mem_range.mp this.1, fun i hi => this.2 i (Finset.mem_range.mpr hi)⟩
  · intro m q hq
    refine ⟨hq, ?_, ?_⟩
    · intro i hi
      simp [Finset.mem_range.mpr hi]
    · intro l _ i hi
      simp only []
      rw [if_neg (by omega)]

/-- Three orthonormal vectors in space. -/
noncomputable def axes (i : Nat) : EuclideanSpace ℝ (Fin 3) := if h : i < 3 then EuclideanSpace.single ⟨i, h⟩ 1 else 0

theorem axes_ortho : Ortho 3 axes := by
  intro i hi j hj
  unfold axes
  rw [dif_pos hi, dif_pos hj, EuclideanSpace.inner_single_left]
  simp [EuclideanSpace.single_apply, Fin.ext_iff, eq_comm]

/-- The hypotheses of `C66_distinct`, `C81_best`, `C81_finite`, `C81_greedy` and `C81_exact` can be met: the coordinates of a vector are found. -/
example (target : EuclideanSpace ℝ (Fin 3)) : ∃ (o : Oracle (EuclideanSpace ℝ (Fin 3))) (sel : List Nat) (co : List ℝ),
    IsArgmax 3 o.argmax ∧ (∀ n q, Ortho n q → IsQr n q (o.qr n q)) ∧ omp o ⟨3, 1 / 1000, 256⟩ axes target 3 = .ok (sel, co) ∧
      WellPosed ⟨3, 1 / 1000, 256⟩ axes sel ∧ co.length = 3 := by
  obtain ⟨o, h1, h2⟩ := oracle_exists (E := EuclideanSpace ℝ (Fin 3)) 3
  have hap := orthonormal_apart (o := o) (c := ⟨3, 1 / 1000, 256⟩) h1 (by norm_num) axes_ortho (target := target) (k := 3) (le_refl 3)
  obtain ⟨co, hco, hl⟩ := C81_finite (by norm_num) h2 (le_refl 3) hap
  refine ⟨o, _, co, h1, h2, hco, ?_, hl⟩
  intro t ht
  simp only [List.length_map, List.length_range] at ht ⊢
  refine apart_congr (fun i hi => ?_) (hap t ht)
  simp [show i < 3 by omega]

end Verif.Omp
