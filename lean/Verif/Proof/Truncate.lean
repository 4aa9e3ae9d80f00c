import Mathlib.LinearAlgebra.Matrix.Trace
import Mathlib.Analysis.InnerProductSpace.PiL2
import Mathlib.Data.Real.Sqrt

/-! # Truncating a singular value decomposition

The best approximation by a product of two thin matrices (Eckart and Young), for the sum of squares of the entries. -/

namespace Verif.Lora

open Matrix

variable {m n k r d : Nat}

/-- Sum of the squares of all entries. -/
def sumSq (X : Matrix (Fin m) (Fin n) ℝ) : ℝ := ∑ a, ∑ b, X a b ^ 2

theorem sumSq_trace (X : Matrix (Fin m) (Fin n) ℝ) : sumSq X = trace (Xᵀ * X) := by
  rw [sumSq, Finset.sum_comm]
  simp only [trace, diag_apply, mul_apply, transpose_apply, sq]

theorem sumSq_nonneg (X : Matrix (Fin m) (Fin n) ℝ) : 0 ≤ sumSq X :=
  Finset.sum_nonneg (fun _ _ => Finset.sum_nonneg (fun _ _ => sq_nonneg _))

theorem sumSq_eq_zero {X : Matrix (Fin m) (Fin n) ℝ} (h : sumSq X ≤ 0) : X = 0 := by
  have h0 : sumSq X = 0 := le_antisymm h (sumSq_nonneg X)
  have h1 := (Finset.sum_eq_zero_iff_of_nonneg (fun a _ => Finset.sum_nonneg (fun b _ => sq_nonneg (X a b)))).mp h0
  ext a b
  have h2 := (Finset.sum_eq_zero_iff_of_nonneg (fun b _ => sq_nonneg (X a b))).mp (h1 a (Finset.mem_univ _))
  simpa using h2 b (Finset.mem_univ _)

theorem sumSq_svd {u : Matrix (Fin m) (Fin k) ℝ} {v : Matrix (Fin k) (Fin n) ℝ} (hu : uᵀ * u = 1) (hv : v * vᵀ = 1) (t : Fin k → ℝ) :
    sumSq (u * diagonal t * v) = ∑ i, t i ^ 2 := by
  have h : (u * diagonal t * v)ᵀ * (u * diagonal t * v) = vᵀ * (diagonal t * diagonal t * v) := by
    simp only [transpose_mul, diagonal_transpose]
    calc vᵀ * (diagonal t * uᵀ) * (u * diagonal t * v) = vᵀ * (diagonal t * (uᵀ * u) * diagonal t * v) := by simp only [Matrix.mul_assoc]
      _ = vᵀ * (diagonal t * diagonal t * v) := by rw [hu, Matrix.mul_one]
  rw [sumSq_trace, h, trace_mul_comm, Matrix.mul_assoc, hv, Matrix.mul_one, diagonal_mul_diagonal, trace_diagonal]
  simp only [sq]

theorem diag_nonneg_of_square (X : Matrix (Fin m) (Fin n) ℝ) (i : Fin n) : 0 ≤ (Xᵀ * X) i i := by
  simp only [mul_apply, transpose_apply]
  exact Finset.sum_nonneg (fun _ _ => mul_self_nonneg _)

/-- The rest of a projection is a square. -/
theorem rest_square {q : Matrix (Fin m) (Fin d) ℝ} (hq : qᵀ * q = 1) : (1 - q * qᵀ)ᵀ * (1 - q * qᵀ) = 1 - q * qᵀ := by
  have h : q * qᵀ * (q * qᵀ) = q * qᵀ := by
    calc q * qᵀ * (q * qᵀ) = q * (qᵀ * q) * qᵀ := by simp only [Matrix.mul_assoc]
      _ = q * qᵀ := by rw [hq, Matrix.mul_one]
  rw [transpose_sub, transpose_one, transpose_mul, transpose_transpose, Matrix.sub_mul, Matrix.one_mul, Matrix.mul_sub, Matrix.mul_one, h, sub_self,
    sub_zero]

/-- Projected columns do not get longer. -/
theorem proj_diag_le {q : Matrix (Fin m) (Fin d) ℝ} {u : Matrix (Fin m) (Fin k) ℝ} (hq : qᵀ * q = 1) (hu : uᵀ * u = 1) (i : Fin k) :
    ((qᵀ * u)ᵀ * (qᵀ * u)) i i ≤ 1 := by
  have h := diag_nonneg_of_square ((1 - q * qᵀ) * u) i
  have he : ((1 - q * qᵀ) * u)ᵀ * ((1 - q * qᵀ) * u) = 1 - (qᵀ * u)ᵀ * (qᵀ * u) := by
    rw [transpose_mul ((1 - q * qᵀ)) u]
    calc uᵀ * (1 - q * qᵀ)ᵀ * ((1 - q * qᵀ) * u) = uᵀ * ((1 - q * qᵀ)ᵀ * (1 - q * qᵀ)) * u := by simp only [Matrix.mul_assoc]
      _ = uᵀ * (1 - q * qᵀ) * u := by rw [rest_square hq]
      _ = uᵀ * u - (qᵀ * u)ᵀ * (qᵀ * u) := by
        rw [Matrix.mul_sub, Matrix.mul_one, Matrix.sub_mul, transpose_mul, transpose_transpose]; simp only [Matrix.mul_assoc]
      _ = _ := by rw [hu]
  rw [he, Matrix.sub_apply, one_apply_eq] at h
  linarith

/-- All projected columns together. -/
theorem proj_trace_le {q : Matrix (Fin m) (Fin d) ℝ} {u : Matrix (Fin m) (Fin k) ℝ} (hq : qᵀ * q = 1) (hu : uᵀ * u = 1) :
    ∑ i, ((qᵀ * u)ᵀ * (qᵀ * u)) i i ≤ d := by
  have h1 : ∑ i, ((qᵀ * u)ᵀ * (qᵀ * u)) i i = ∑ a, ((uᵀ * q)ᵀ * (uᵀ * q)) a a := by
    change trace _ = trace _
    rw [trace_mul_comm]
    simp only [transpose_mul, transpose_transpose]
  rw [h1]
  calc ∑ a, ((uᵀ * q)ᵀ * (uᵀ * q)) a a ≤ ∑ _a : Fin d, (1 : ℝ) := Finset.sum_le_sum (fun a _ => proj_diag_le hu hq a)
    _ = d := by simp

/-- Weighted sums of weights between zero and one that add up to at most `r`: no more than the `r` largest. -/
theorem weighted_le {w c : Fin k → ℝ} (hw : ∀ i j : Fin k, i ≤ j → w j ≤ w i) (hw0 : ∀ i, 0 ≤ w i) (hc0 : ∀ i, 0 ≤ c i) (hc1 : ∀ i, c i ≤ 1)
    (hc : ∑ i, c i ≤ r) : ∑ i, w i * c i ≤ ∑ i : Fin k, if i.val < r then w i else 0 := by
  set t : ℝ := if h : r < k then w ⟨r, h⟩ else 0 with ht
  have ht0 : 0 ≤ t := by rw [ht]; split <;> simp [hw0]
  have hterm : ∀ i : Fin k, w i * c i - (if i.val < r then w i else 0) ≤ t * (c i - if i.val < r then 1 else 0) := by
    intro i
    by_cases hi : i.val < r
    · rw [if_pos hi, if_pos hi]
      have htw : t ≤ w i := by
        rw [ht]
        split
        · exact hw _ _ (Fin.mk_le_mk.mpr hi.le : i ≤ ⟨r, by assumption⟩)
        · exact hw0 i
      nlinarith [hc1 i]
    · rw [if_neg hi, if_neg hi, sub_zero, sub_zero]
      have hlt : r < k := lt_of_le_of_lt (not_lt.mp hi) i.isLt
      have htw : w i ≤ t := by
        rw [ht, dif_pos hlt]
        exact hw ⟨r, hlt⟩ i (not_lt.mp hi)
      exact mul_le_mul_of_nonneg_right htw (hc0 i)
  have hsum : ∑ i, (w i * c i - (if i.val < r then w i else 0)) ≤ ∑ i : Fin k, t * (c i - if i.val < r then 1 else 0) :=
    Finset.sum_le_sum (fun i _ => hterm i)
  rw [Finset.sum_sub_distrib, ← Finset.mul_sum, Finset.sum_sub_distrib] at hsum
  have hle : t * (∑ i, c i - ∑ i : Fin k, if i.val < r then (1 : ℝ) else 0) ≤ 0 := by
    by_cases hr : r < k
    · have hcount : ∑ i : Fin k, (if i.val < r then (1 : ℝ) else 0) = r := by
        rw [Finset.sum_boole]
        have : (Finset.univ.filter (fun i : Fin k => i.val < r)).card = r := by
          rw [Fin.card_filter_val_lt]; omega
        rw [this]
      rw [hcount]
      exact mul_nonpos_of_nonneg_of_nonpos ht0 (by linarith)
    · have : t = 0 := by rw [ht, dif_neg hr]
      rw [this, zero_mul]
  linarith

/-- The columns of a thin matrix lie in the span of at most as many orthonormal ones. -/
theorem orthonormal_columns (b : Matrix (Fin m) (Fin r) ℝ) :
    ∃ d, d ≤ r ∧ ∃ (q : Matrix (Fin m) (Fin d) ℝ) (c : Matrix (Fin d) (Fin r) ℝ), qᵀ * q = 1 ∧ b = q * c := by
  let col : Fin r → EuclideanSpace ℝ (Fin m) := fun j => WithLp.toLp 2 (fun a => b a j)
  let W : Submodule ℝ (EuclideanSpace ℝ (Fin m)) := Submodule.span ℝ (Set.range col)
  let e := stdOrthonormalBasis ℝ W
  have hmem : ∀ j, col j ∈ W := fun j => Submodule.subset_span ⟨j, rfl⟩
  refine ⟨Module.finrank ℝ W, ?_, Matrix.of (fun a i => (e i : EuclideanSpace ℝ (Fin m)) a), Matrix.of (fun i j => inner ℝ (e i) (⟨col j, hmem j⟩ : W)), ?_, ?_⟩
  · have := finrank_range_le_card (R := ℝ) col
    rwa [Fintype.card_fin] at this
  · ext i j
    have ho := (orthonormal_iff_ite.mp e.orthonormal) i j
    rw [Submodule.coe_inner, PiLp.inner_apply] at ho
    simp only [mul_apply, transpose_apply, of_apply, one_apply]
    rw [← ho]
    refine Finset.sum_congr rfl (fun x _ => ?_)
    simp [mul_comm]
  · ext a j
    have h := e.sum_repr' (⟨col j, hmem j⟩ : W)
    have h' := congrArg (fun w : W => (w : EuclideanSpace ℝ (Fin m)) a) h
    simp only [Submodule.coe_sum, Submodule.coe_smul, mul_apply, of_apply] at h' ⊢
    have hs : (∑ x, inner ℝ (e x) (⟨col j, hmem j⟩ : W) • (e x : EuclideanSpace ℝ (Fin m))) a =
        ∑ x, inner ℝ (e x) (⟨col j, hmem j⟩ : W) * (e x : EuclideanSpace ℝ (Fin m)) a := by
      simp
    rw [hs] at h'
    rw [show b a j = col j a from rfl, ← h']
    exact Finset.sum_congr rfl (fun x _ => mul_comm _ _)

/-- The part of the singular values below `r`. -/
noncomputable def upTo (r : Nat) (s : Fin k → ℝ) : Fin k → ℝ := fun i => if i.val < r then s i else 0

theorem sumSq_sub_proj {q : Matrix (Fin m) (Fin d) ℝ} (hq : qᵀ * q = 1) (M : Matrix (Fin m) (Fin n) ℝ) (y : Matrix (Fin d) (Fin n) ℝ) :
    sumSq M - sumSq (qᵀ * M) ≤ sumSq (M - q * y) := by
  have key : sumSq (M - q * y) = sumSq M - sumSq (qᵀ * M) + sumSq (y - qᵀ * M) := by
    simp only [sumSq_trace, transpose_sub, transpose_mul, transpose_transpose, Matrix.sub_mul, Matrix.mul_sub, trace_sub]
    have h1 : trace (Mᵀ * (q * y)) = trace (Mᵀ * q * y) := by rw [Matrix.mul_assoc]
    have h2 : trace (yᵀ * qᵀ * (q * y)) = trace (yᵀ * y) := by
      have : yᵀ * qᵀ * (q * y) = yᵀ * (qᵀ * q) * y := by simp only [Matrix.mul_assoc]
      rw [this, hq, Matrix.mul_one]
    have h3 : trace (yᵀ * qᵀ * M) = trace (yᵀ * (qᵀ * M)) := by rw [Matrix.mul_assoc]
    rw [h1, h2, h3]
    ring
  have := sumSq_nonneg (y - qᵀ * M)
  linarith

/-- Nothing of at most rank `r` is closer than the truncated decomposition. -/
theorem truncate_best {u : Matrix (Fin m) (Fin k) ℝ} {v : Matrix (Fin k) (Fin n) ℝ} {s : Fin k → ℝ} (hu : uᵀ * u = 1) (hv : v * vᵀ = 1)
    (hs0 : ∀ i, 0 ≤ s i) (hs : ∀ i j, i ≤ j → s j ≤ s i) (b : Matrix (Fin m) (Fin r) ℝ) (a : Matrix (Fin r) (Fin n) ℝ) :
    ∑ i, (if i.val < r then 0 else s i ^ 2) ≤ sumSq (u * diagonal s * v - b * a) := by
  obtain ⟨d, hd, q, c, hq, hb⟩ := orthonormal_columns b
  have h1 := sumSq_sub_proj hq (u * diagonal s * v) (c * a)
  rw [← Matrix.mul_assoc q c a, ← hb] at h1
  have h2 : sumSq (qᵀ * (u * diagonal s * v)) = ∑ i, s i ^ 2 * ((qᵀ * u)ᵀ * (qᵀ * u)) i i := by
    have he : qᵀ * (u * diagonal s * v) = (qᵀ * u) * (diagonal s * v) := by simp only [Matrix.mul_assoc]
    rw [he, sumSq_trace, trace_mul_comm]
    have hf : qᵀ * u * (diagonal s * v) * (qᵀ * u * (diagonal s * v))ᵀ = (qᵀ * u) * (diagonal s * (v * vᵀ) * diagonal s) * (qᵀ * u)ᵀ := by
      rw [transpose_mul (qᵀ * u), transpose_mul (diagonal s), diagonal_transpose]
      simp only [Matrix.mul_assoc]
    rw [hf, hv, Matrix.mul_one, diagonal_mul_diagonal, trace_mul_comm, ← Matrix.mul_assoc, trace_mul_comm]
    simp only [trace, diag_apply, diagonal_mul, sq]
  have h3 := weighted_le (w := fun i => s i ^ 2) (c := fun i => ((qᵀ * u)ᵀ * (qᵀ * u)) i i) (r := r)
    (fun i j hij => by have := hs i j hij; have := hs0 j; show s j ^ 2 ≤ s i ^ 2; gcongr) (fun i => sq_nonneg _)
    (fun i => diag_nonneg_of_square _ i) (fun i => proj_diag_le hq hu i)
    ((proj_trace_le hq hu).trans (by exact_mod_cast hd))
  rw [h2, sumSq_svd hu hv] at h1
  have h4 : ∑ i : Fin k, (if i.val < r then 0 else s i ^ 2) = ∑ i, s i ^ 2 - ∑ i : Fin k, (if i.val < r then s i ^ 2 else 0) := by
    rw [← Finset.sum_sub_distrib]
    refine Finset.sum_congr rfl (fun i _ => ?_)
    split <;> simp
  rw [h4]
  linarith

end Verif.Lora
