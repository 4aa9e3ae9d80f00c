import Mathlib.Analysis.Matrix.Spectrum
import Mathlib.Analysis.Matrix.PosDef
import Mathlib.Analysis.InnerProductSpace.PiL2
import Mathlib.Data.Fin.Tuple.Sort
import Mathlib.Algebra.Order.Star.Real
import Mathlib.Tactic.FieldSimp
import Mathlib.Tactic.Ring

/-! # Every real matrix has a singular value decomposition -/

namespace Verif.SvdExists

open Matrix

variable {m n : Nat}

/-- The eigenvalues of `MᵀM` in descending order, and eigenvectors. -/
theorem gram (M : Matrix (Fin m) (Fin n) ℝ) : ∃ (V : Matrix (Fin n) (Fin n) ℝ) (l : Fin n → ℝ), Vᵀ * V = 1 ∧ V * Vᵀ = 1 ∧ (∀ i, 0 ≤ l i) ∧
    (∀ i j, i ≤ j → l j ≤ l i) ∧ (M * V)ᵀ * (M * V) = diagonal l := by
  have hps : (Mᵀ * M).PosSemidef := by
    have := Matrix.posSemidef_conjTranspose_mul_self M
    rwa [conjTranspose_eq_transpose_of_trivial] at this
  have hh := hps.1
  let U : Matrix (Fin n) (Fin n) ℝ := hh.eigenvectorUnitary
  have hU : Uᵀ * U = 1 := by
    have := (Matrix.mem_unitaryGroup_iff' (A := U)).1 hh.eigenvectorUnitary.2
    rwa [star_eq_conjTranspose, conjTranspose_eq_transpose_of_trivial] at this
  have hd : Uᵀ * (Mᵀ * M) * U = diagonal hh.eigenvalues := by
    have hs : Mᵀ * M = U * diagonal hh.eigenvalues * Uᵀ := by
      have := hh.spectral_theorem
      rw [Unitary.conjStarAlgAut_apply] at this
      exact this
    refine (congrArg (fun x => Uᵀ * x * U) hs).trans ?_
    calc Uᵀ * (U * diagonal hh.eigenvalues * Uᵀ) * U = (Uᵀ * U) * diagonal hh.eigenvalues * (Uᵀ * U) := by simp only [Matrix.mul_assoc]
      _ = _ := by rw [hU, Matrix.one_mul, Matrix.mul_one]
  let σ := Tuple.sort (fun i => - hh.eigenvalues i)
  have hσ : ∀ i j, i ≤ j → hh.eigenvalues (σ j) ≤ hh.eigenvalues (σ i) := by
    intro i j hij
    have := Tuple.monotone_sort (fun i => - hh.eigenvalues i) hij
    simpa using this
  have hV : (U.submatrix id σ)ᵀ * U.submatrix id σ = 1 := by
    rw [transpose_submatrix, ← Matrix.submatrix_mul _ _ _ id _ Function.bijective_id, hU]
    exact Matrix.submatrix_one _ σ.injective
  refine ⟨U.submatrix id σ, fun i => hh.eigenvalues (σ i), hV, mul_eq_one_comm.1 hV, fun i => hps.eigenvalues_nonneg _, hσ, ?_⟩
  have : (M * U.submatrix id σ)ᵀ * (M * U.submatrix id σ) = (Uᵀ * (Mᵀ * M) * U).submatrix σ σ := by
    have h1 : M * U.submatrix id σ = (M * U).submatrix id σ := by
      rw [Matrix.submatrix_mul _ _ _ id _ Function.bijective_id, submatrix_id_id]
    rw [h1, transpose_submatrix, ← Matrix.submatrix_mul _ _ _ id _ Function.bijective_id, transpose_mul]
    simp only [Matrix.mul_assoc]
  rw [this, hd, submatrix_diagonal_equiv]
  rfl

theorem real_inner_eq (x y : ℝ) : inner ℝ x y = x * y := by
  simp only [inner, star_trivial, RCLike.re_to_real]
  ring

theorem wide (h : n ≤ m) (M : Matrix (Fin m) (Fin n) ℝ) : ∃ (u : Matrix (Fin m) (Fin n) ℝ) (s : Fin n → ℝ) (vh : Matrix (Fin n) (Fin n) ℝ),
    uᵀ * u = 1 ∧ vh * vhᵀ = 1 ∧ (∀ i, 0 ≤ s i) ∧ (∀ i j, i ≤ j → s j ≤ s i) ∧ u * diagonal s * vh = M := by
  obtain ⟨V, l, hV, hV', hl, hsort, hg⟩ := gram M
  let W := M * V
  let s : Fin n → ℝ := fun i => Real.sqrt (l i)
  have hW : ∀ i j, ∑ x, W x i * W x j = if i = j then l i else 0 := by
    intro i j
    have := congrFun (congrFun hg i) j
    rw [Matrix.mul_apply, diagonal_apply] at this
    exact this
  let v : Fin m → EuclideanSpace ℝ (Fin m) := fun i => if hi : i.val < n then WithLp.toLp 2 (fun x => W x ⟨i.val, hi⟩ / s ⟨i.val, hi⟩) else 0
  let S : Set (Fin m) := {i | ∃ hi : i.val < n, s ⟨i.val, hi⟩ ≠ 0}
  have hort : Orthonormal ℝ (S.domRestrict v) := by
    rw [orthonormal_iff_ite]
    rintro ⟨i, hi, hsi⟩ ⟨j, hj, hsj⟩
    have hvi : S.domRestrict v ⟨i, hi, hsi⟩ = WithLp.toLp 2 (fun x => W x ⟨i.val, hi⟩ / s ⟨i.val, hi⟩) := dif_pos hi
    have hvj : S.domRestrict v ⟨j, hj, hsj⟩ = WithLp.toLp 2 (fun x => W x ⟨j.val, hj⟩ / s ⟨j.val, hj⟩) := dif_pos hj
    rw [hvi, hvj, PiLp.inner_apply]
    have hsum : ∑ x, inner ℝ (W x ⟨i, hi⟩ / s ⟨i, hi⟩) (W x ⟨j, hj⟩ / s ⟨j, hj⟩) = (∑ x, W x ⟨i, hi⟩ * W x ⟨j, hj⟩) / (s ⟨i, hi⟩ * s ⟨j, hj⟩) := by
      rw [Finset.sum_div]
      refine Finset.sum_congr rfl (fun x _ => ?_)
      rw [real_inner_eq]
      field_simp
    refine hsum.trans ?_
    rw [hW]
    by_cases hij : i = j
    · subst hij
      rw [if_pos rfl, if_pos rfl]
      have : s ⟨i, hi⟩ * s ⟨i, hi⟩ = l ⟨i, hi⟩ := Real.mul_self_sqrt (hl _)
      rw [← this]
      exact div_self (mul_ne_zero hsi hsi)
    · rw [if_neg (fun h => hij (Fin.ext (Fin.mk.inj h))), if_neg (fun h => hij (Subtype.ext_iff.1 h)), zero_div]
  obtain ⟨b, hb⟩ := hort.exists_orthonormalBasis_extension_of_card_eq (by simp)
  have hbb := orthonormal_iff_ite.1 b.orthonormal
  refine ⟨Matrix.of (fun x i => (b (Fin.castLE h i)).ofLp x), s, Vᵀ, ?_, ?_, fun i => Real.sqrt_nonneg _, fun i j hij => Real.sqrt_le_sqrt (hsort i j hij), ?_⟩
  · ext i j
    rw [Matrix.mul_apply, Matrix.one_apply]
    have := hbb (Fin.castLE h i) (Fin.castLE h j)
    rw [PiLp.inner_apply] at this
    have hs : ∑ x, (b (Fin.castLE h i)) x * (b (Fin.castLE h j)) x = ∑ x, inner ℝ ((b (Fin.castLE h i)) x) ((b (Fin.castLE h j)) x) := by
      refine Finset.sum_congr rfl (fun x _ => ?_)
      rw [real_inner_eq]
    refine hs.trans (this.trans ?_)
    by_cases hij : i = j
    · rw [if_pos hij, if_pos (congrArg _ hij)]
    · rw [if_neg hij, if_neg (fun h' => hij (Fin.castLE_injective h h'))]
  · rw [transpose_transpose]
    exact hV
  · have hWu : (Matrix.of (fun x i => (b (Fin.castLE h i)).ofLp x) : Matrix (Fin m) (Fin n) ℝ) * diagonal s = W := by
      ext x i
      rw [mul_diagonal]
      by_cases hs : s i = 0
      · rw [hs, mul_zero]
        have hli : l i = 0 := (Real.sqrt_eq_zero (hl i)).1 hs
        have := hW i i
        rw [if_pos rfl, hli] at this
        have h0 := (Finset.sum_eq_zero_iff_of_nonneg (fun x _ => mul_self_nonneg (W x i))).1 this x (Finset.mem_univ _)
        exact (mul_self_eq_zero.1 h0).symm
      · have := hb (Fin.castLE h i) ⟨i.2, hs⟩
        rw [Matrix.of_apply, this]
        have hv : v (Fin.castLE h i) = WithLp.toLp 2 (fun x => W x i / s i) := dif_pos i.2
        rw [hv]
        exact div_mul_cancel₀ _ hs
    rw [hWu]
    show M * V * Vᵀ = M
    rw [Matrix.mul_assoc, hV', Matrix.mul_one]

/-- Every real matrix has one, of the size `full_matrices=False` gives. -/
theorem exists_svd {k : Nat} (hk : k = min m n) (M : Matrix (Fin m) (Fin n) ℝ) : ∃ (u : Matrix (Fin m) (Fin k) ℝ) (s : Fin k → ℝ) (vh : Matrix (Fin k) (Fin n) ℝ),
    uᵀ * u = 1 ∧ vh * vhᵀ = 1 ∧ (∀ i, 0 ≤ s i) ∧ (∀ i j, i ≤ j → s j ≤ s i) ∧ u * diagonal s * vh = M := by
  rcases Nat.le_total n m with h | h
  · have : k = n := by omega
    subst this
    exact wide h M
  · have : k = m := by omega
    subst this
    obtain ⟨u, s, vh, h1, h2, h3, h4, h5⟩ := wide h Mᵀ
    refine ⟨vhᵀ, s, uᵀ, by rw [transpose_transpose]; exact h2, by rw [transpose_transpose]; exact h1, h3, h4, ?_⟩
    have := congrArg Matrix.transpose h5
    rwa [transpose_mul, transpose_mul, diagonal_transpose, transpose_transpose, ← Matrix.mul_assoc] at this

end Verif.SvdExists
