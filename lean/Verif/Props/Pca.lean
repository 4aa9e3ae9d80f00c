import Verif.Model.Pca
import Mathlib.LinearAlgebra.Matrix.Trace
import Mathlib.Algebra.BigOperators.Field
import Mathlib.Algebra.Order.BigOperators.Ring.Finset
import Mathlib.Data.Matrix.Diagonal
import Mathlib.LinearAlgebra.Matrix.NonsingularInverse
import Mathlib.Order.Fin.Basic
import Mathlib.Tactic.Linarith
import Mathlib.Tactic.Ring
import Mathlib.Tactic.NoncommRing
import Mathlib.Tactic.FinCases
import Mathlib.LinearAlgebra.Matrix.Notation

/-! # New tokens by principal components (C84) -/

namespace Verif.Pca

open Matrix

/-- An orthogonal matrix. -/
def Orthogonal {q : Nat} (w : Matrix (Fin q) (Fin q) ℝ) : Prop := wᵀ * w = 1

theorem Orthogonal.right {q : Nat} {w : Matrix (Fin q) (Fin q) ℝ} (h : Orthogonal w) : w * wᵀ = 1 := mul_eq_one_comm.mp h

theorem Orthogonal.mul {q : Nat} {u v : Matrix (Fin q) (Fin q) ℝ} (hu : Orthogonal u) (hv : Orthogonal v) : Orthogonal (u * v) := by
  unfold Orthogonal at *
  rw [transpose_mul, Matrix.mul_assoc, ← Matrix.mul_assoc uᵀ, hu, Matrix.one_mul, hv]

theorem Orthogonal.transpose {q : Nat} {u : Matrix (Fin q) (Fin q) ℝ} (hu : Orthogonal u) : Orthogonal uᵀ := by
  unfold Orthogonal
  rw [transpose_transpose]
  exact hu.right

/-- A singular value decomposition. -/
def IsSvd {q : Nat} (m : Matrix (Fin q) (Fin q) ℝ) (f : Matrix (Fin q) (Fin q) ℝ × (Fin q → ℝ) × Matrix (Fin q) (Fin q) ℝ) : Prop :=
  Orthogonal f.1 ∧ Orthogonal f.2.2 ∧ (∀ i, 0 ≤ f.2.1 i) ∧ m = f.1 * diagonal f.2.1 * f.2.2ᵀ

/-- Principal directions: orthonormal, without correlations between the coordinates, and sorted by variance. -/
def IsPca {n d q : Nat} (c : Matrix (Fin n) (Fin d) ℝ) (v : Matrix (Fin d) (Fin q) ℝ) : Prop :=
  vᵀ * v = 1 ∧ ∃ l : Fin q → ℝ, Antitone l ∧ (c * v)ᵀ * (c * v) = diagonal l

/-- The squared distance between the rows of two matrices, in sum. -/
def gap {n q : Nat} (x y : Matrix (Fin n) (Fin q) ℝ) : ℝ := ∑ i, ∑ j, (x i j - y i j) ^ 2

theorem gap_trace {n q : Nat} (x y : Matrix (Fin n) (Fin q) ℝ) : gap x y = trace ((x - y)ᵀ * (x - y)) := by
  unfold gap trace
  rw [Finset.sum_comm]
  refine Finset.sum_congr rfl (fun j _ => ?_)
  simp only [diag_apply, mul_apply, transpose_apply, Matrix.sub_apply]
  exact Finset.sum_congr rfl (fun i _ => by ring)

theorem gap_nonneg {n q : Nat} (x y : Matrix (Fin n) (Fin q) ℝ) : 0 ≤ gap x y :=
  Finset.sum_nonneg (fun i _ => Finset.sum_nonneg (fun j _ => sq_nonneg _))

theorem gap_eq_zero {n q : Nat} {x y : Matrix (Fin n) (Fin q) ℝ} (h : gap x y ≤ 0) : x = y := by
  ext i j
  have h0 := (Finset.sum_eq_zero_iff_of_nonneg (fun i _ => Finset.sum_nonneg (fun j _ => sq_nonneg _))).mp (le_antisymm h (gap_nonneg x y)) i (Finset.mem_univ i)
  have h1 := (Finset.sum_eq_zero_iff_of_nonneg (fun j _ => sq_nonneg _)).mp h0 j (Finset.mem_univ j)
  have := pow_eq_zero_iff (two_ne_zero) |>.mp h1
  linarith

/-- The gap after a rotation. -/
theorem gap_rotated {n q : Nat} (x y : Matrix (Fin n) (Fin q) ℝ) {r : Matrix (Fin q) (Fin q) ℝ} (hr : Orthogonal r) :
    gap (x * r) y = trace (xᵀ * x) + trace (yᵀ * y) - 2 * trace (rᵀ * (xᵀ * y)) := by
  rw [gap_trace, transpose_sub, transpose_mul, Matrix.sub_mul, Matrix.mul_sub, Matrix.mul_sub, trace_sub, trace_sub, trace_sub]
  have h1 : trace (rᵀ * xᵀ * (x * r)) = trace (xᵀ * x) := by
    rw [trace_mul_comm, Matrix.mul_assoc, ← Matrix.mul_assoc r, hr.right, Matrix.one_mul, trace_mul_comm]
  have h2 : trace (yᵀ * (x * r)) = trace (rᵀ * (xᵀ * y)) := by
    rw [← trace_transpose, transpose_mul, transpose_mul, transpose_transpose, Matrix.mul_assoc]
  rw [h1, h2, Matrix.mul_assoc]
  ring

theorem orth_entry {q : Nat} {z : Matrix (Fin q) (Fin q) ℝ} (hz : Orthogonal z) (i j : Fin q) : z i j ≤ 1 := by
  have h := congrFun (congrFun hz j) j
  rw [mul_apply, one_apply_eq] at h
  simp only [transpose_apply] at h
  have := Finset.single_le_sum (f := fun k => z k j * z k j) (fun k _ => mul_self_nonneg _) (Finset.mem_univ i)
  nlinarith [sq_nonneg (z i j - 1)]

/-- The product of the factors of a singular value decomposition correlates most with the matrix. -/
theorem trace_best {q : Nat} {m : Matrix (Fin q) (Fin q) ℝ} {f : Matrix (Fin q) (Fin q) ℝ × (Fin q → ℝ) × Matrix (Fin q) (Fin q) ℝ} (hf : IsSvd m f)
    {w : Matrix (Fin q) (Fin q) ℝ} (hw : Orthogonal w) : trace (wᵀ * m) ≤ trace ((f.1 * f.2.2ᵀ)ᵀ * m) := by
  obtain ⟨hu, hv, hs, hm⟩ := hf
  have key : ∀ x : Matrix (Fin q) (Fin q) ℝ, trace (xᵀ * m) = trace ((f.2.2ᵀ * xᵀ * f.1) * diagonal f.2.1) := by
    intro x
    rw [hm, ← Matrix.mul_assoc, trace_mul_comm, ← Matrix.mul_assoc, ← Matrix.mul_assoc]
  have hdiag : ∀ z : Matrix (Fin q) (Fin q) ℝ, trace (z * diagonal f.2.1) = ∑ i, z i i * f.2.1 i := by
    intro z
    unfold trace
    refine Finset.sum_congr rfl (fun i _ => ?_)
    rw [diag_apply, mul_diagonal]
  rw [key, key, hdiag, hdiag]
  refine Finset.sum_le_sum (fun i _ => mul_le_mul_of_nonneg_right ?_ (hs i))
  have h1 : f.2.2ᵀ * (f.1 * f.2.2ᵀ)ᵀ * f.1 = 1 := by
    rw [transpose_mul, transpose_transpose, ← Matrix.mul_assoc, hv, Matrix.one_mul, hu]
  rw [h1, one_apply_eq]
  exact orth_entry ((hv.transpose.mul hw.transpose).mul hu) i i

theorem rotation_orthogonal {o : Oracle} {n q : Nat} {a b : Matrix (Fin n) (Fin q) ℝ} (h : IsSvd (bᵀ * a) (o.svd (bᵀ * a))) : Orthogonal (rotation o a b) :=
  h.1.mul h.2.1.transpose

/-- The rotation is the best one for taking the second set of points to the first, although it is then applied to the first. -/
theorem C84_wrong_way {o : Oracle} {n q : Nat} {a b : Matrix (Fin n) (Fin q) ℝ} (h : IsSvd (bᵀ * a) (o.svd (bᵀ * a))) :
    Orthogonal (rotation o a b) ∧ ∀ w, Orthogonal w → gap (b * rotation o a b) a ≤ gap (b * w) a := by
  refine ⟨rotation_orthogonal h, fun w hw => ?_⟩
  rw [gap_rotated b a (rotation_orthogonal h), gap_rotated b a hw]
  have := trace_best h hw
  unfold rotation
  linarith

/-- It is the best for the first set, too, if the matrix of the products is symmetric. -/
theorem C84_symmetric_partial {o : Oracle} {n q : Nat} {a b : Matrix (Fin n) (Fin q) ℝ} (h : IsSvd (bᵀ * a) (o.svd (bᵀ * a))) (hs : bᵀ * a = aᵀ * b) :
    ∀ w, Orthogonal w → gap (a * rotation o a b) b ≤ gap (a * w) b := by
  intro w hw
  rw [gap_rotated a b (rotation_orthogonal h), gap_rotated a b hw, ← hs]
  have := trace_best h hw
  unfold rotation
  linarith

/-- If the second set is the first one rotated, then the rotation is the inverse of that. -/
theorem rotation_inverse {o : Oracle} {n q : Nat} {a b : Matrix (Fin n) (Fin q) ℝ} {r : Matrix (Fin q) (Fin q) ℝ} (h : IsSvd (bᵀ * a) (o.svd (bᵀ * a)))
    (hr : Orthogonal r) (hb : b = a * r) (hinj : ∀ x : Matrix (Fin q) (Fin q) ℝ, a * x = 0 → x = 0) : rotation o a b = rᵀ := by
  obtain ⟨ho, hbest⟩ := C84_wrong_way h
  have h1 := hbest rᵀ hr.transpose
  have h0 : b * rᵀ = a := by rw [hb, Matrix.mul_assoc, hr.right, Matrix.mul_one]
  have hz : gap (b * rᵀ) a = 0 := by rw [h0]; simp [gap]
  rw [hz] at h1
  have h2 := gap_eq_zero h1
  have h2 : a * (r * rotation o a b) = a := by rw [← Matrix.mul_assoc, ← hb]; exact h2
  have h3 : a * (r * rotation o a b - 1) = 0 := by rw [Matrix.mul_sub, Matrix.mul_one, h2, sub_self]
  have h4 := sub_eq_zero.mp (hinj _ h3)
  have h5 := congrArg (fun z => rᵀ * z) h4
  simp only [← Matrix.mul_assoc] at h5
  rw [hr, Matrix.one_mul, Matrix.mul_one] at h5
  exact h5

/-- If the original's principal coordinates are the donor's rotated by `w`, the target is rotated the other way. -/
theorem C84_inverse {o : Oracle} {n da db : Nat} {a : Matrix (Fin n) (Fin da) ℝ} {b : Matrix (Fin n) (Fin db) ℝ} {w : Matrix (Fin (min da db)) (Fin (min da db)) ℝ}
    (hsvd : IsSvd ((coordinates o (min da db) b)ᵀ * coordinates o (min da db) a) (o.svd ((coordinates o (min da db) b)ᵀ * coordinates o (min da db) a))) (hw : Orthogonal w)
    (hb : coordinates o (min da db) b = coordinates o (min da db) a * w)
    (hinj : ∀ x : Matrix (Fin (min da db)) (Fin (min da db)) ℝ, coordinates o (min da db) a * x = 0 → x = 0) (target : Fin da → ℝ) :
    approximate o target a b = ((((target - mean a) ᵥ* o.pca (min da db) (centered a)) ᵥ* wᵀ) ᵥ* (o.pca (min da db) (centered b))ᵀ) + mean b := by
  unfold approximate approximateAt
  rw [rotation_inverse hsvd hw hb hinj]

theorem square_right {d q : Nat} (hq : q = d) {v : Matrix (Fin d) (Fin q) ℝ} (h : vᵀ * v = 1) : v * vᵀ = 1 := by
  subst hq
  exact mul_eq_one_comm.mp h

/-- A rotation between two sets of uncorrelated coordinates with the same, different variances only changes signs. -/
theorem rotation_diagonal {q : Nat} {w : Matrix (Fin q) (Fin q) ℝ} (hw : Orthogonal w) {l l' : Fin q → ℝ} (hl : StrictAnti l) (hl' : Antitone l')
    (h : wᵀ * diagonal l * w = diagonal l') : wᵀ = w := by
  have hcomm : ∀ i j, w i j ≠ 0 → l i = l' j := by
    intro i j hne
    have h1 : diagonal l * w = w * diagonal l' := by
      rw [← h, ← Matrix.mul_assoc, ← Matrix.mul_assoc, hw.right, Matrix.one_mul]
    have h2 := congrFun (congrFun h1 i) j
    rw [diagonal_mul, mul_diagonal, mul_comm] at h2
    exact mul_left_cancel₀ hne h2
  have hcol : ∀ j, ∃ i, w i j ≠ 0 := by
    intro j
    by_contra hn
    push Not at hn
    have h1 := congrFun (congrFun hw j) j
    rw [mul_apply, one_apply_eq] at h1
    simp [hn] at h1
  choose σ hσ using hcol
  have hl2 : ∀ j, l' j = l (σ j) := fun j => (hcomm _ _ (hσ j)).symm
  have honly : ∀ i j, w i j ≠ 0 → i = σ j := fun i j hne => hl.injective ((hcomm i j hne).trans (hl2 j))
  have hinj : Function.Injective σ := by
    intro j j' he
    by_contra hne
    have h1 := congrFun (congrFun hw j) j'
    rw [mul_apply, one_apply_ne hne, Finset.sum_eq_single (σ j)] at h1
    · rw [transpose_apply] at h1
      rcases mul_eq_zero.mp h1 with h | h
      · exact hσ j h
      · rw [he] at h; exact hσ j' h
    · intro k _ hk
      rw [transpose_apply]
      have : w k j = 0 := by
        by_contra h0; exact hk (honly k j h0)
      rw [this, zero_mul]
    · intro hn; exact absurd (Finset.mem_univ _) hn
  have hmono : StrictMono σ := by
    intro j j' hlt
    refine lt_of_le_of_ne ?_ (fun he => hlt.ne (hinj he))
    have := hl' hlt.le
    rw [hl2, hl2] at this
    exact hl.le_iff_ge.mp this
  have hid : ∀ j, σ j = j := by
    have hsur := Finite.surjective_of_injective hinj
    have : StrictMono.orderIsoOfSurjective σ hmono hsur = OrderIso.refl _ := Subsingleton.elim _ _
    intro j
    exact congrArg (fun e => e j) this
  ext i j
  rw [transpose_apply]
  by_cases hij : i = j
  · rw [hij]
  · have h1 : w j i = 0 := by
      by_contra h0; have := honly j i h0; rw [hid] at this; exact hij this.symm
    have h2 : w i j = 0 := by
      by_contra h0; have := honly i j h0; rw [hid] at this; exact hij this
    rw [h1, h2]

theorem mean_rotated {n d : Nat} (hn : 0 < n) {a b : Matrix (Fin n) (Fin d) ℝ} {r : Matrix (Fin d) (Fin d) ℝ} {shift : Fin d → ℝ} (hb : ∀ i, b i = a i ᵥ* r + shift) :
    mean b = mean a ᵥ* r + shift := by
  have hn' : (n : ℝ) ≠ 0 := by exact_mod_cast hn.ne'
  ext j
  simp only [mean, hb, Pi.add_apply, vecMul, dotProduct]
  rw [Finset.sum_add_distrib, Finset.sum_comm, Finset.sum_const, Finset.card_univ, Fintype.card_fin, nsmul_eq_mul, add_div, mul_div_cancel_left₀ _ hn', Finset.sum_div]
  congr 1
  refine Finset.sum_congr rfl (fun k _ => ?_)
  rw [← Finset.sum_mul]
  ring

theorem centered_rotated {n d : Nat} {a b : Matrix (Fin n) (Fin d) ℝ} {r : Matrix (Fin d) (Fin d) ℝ} {shift : Fin d → ℝ} (hb : ∀ i, b i = a i ᵥ* r + shift) :
    centered b = centered a * r := by
  ext i j
  have hn : 0 < n := i.pos
  have h1 : centered b i j = (b i - mean b) j := rfl
  have h2 : (centered a * r) i j = ((a i - mean a) ᵥ* r) j := rfl
  rw [h1, h2, mean_rotated hn hb, hb i, sub_vecMul]
  simp

/-- C84 for landmarks whose principal variances are positive and all different: when the original's shared embeddings are the donor's rotated and shifted, then so are the new
ones. -/
theorem C84_rotated_partial {o : Oracle} {n d : Nat} (hn : 0 < n) {a b : Matrix (Fin n) (Fin d) ℝ} {r : Matrix (Fin d) (Fin d) ℝ} {shift : Fin d → ℝ} (hr : Orthogonal r)
    (hb : ∀ i, b i = a i ᵥ* r + shift) (hsvd : IsSvd ((coordinates o (min d d) b)ᵀ * coordinates o (min d d) a) (o.svd ((coordinates o (min d d) b)ᵀ * coordinates o (min d d) a)))
    (hpa : IsPca (centered a) (o.pca (min d d) (centered a))) (hpb : IsPca (centered b) (o.pca (min d d) (centered b)))
    (hdist : ∃ l : Fin (min d d) → ℝ, StrictAnti l ∧ (∀ i, l i ≠ 0) ∧ (coordinates o (min d d) a)ᵀ * coordinates o (min d d) a = diagonal l) (target : Fin d → ℝ) :
    approximate o target a b = target ᵥ* r + shift := by
  obtain ⟨l, hl1, hl2, hl3⟩ := hdist
  obtain ⟨hva, _⟩ := hpa
  obtain ⟨hvb, l', hl', hb'⟩ := hpb
  have hva' := square_right (Nat.min_self d) hva
  have hvb' := square_right (Nat.min_self d) hvb
  -- the rotation between the coordinates
  obtain ⟨w, hwdef⟩ : ∃ w, w = (o.pca (min d d) (centered a))ᵀ * r * o.pca (min d d) (centered b) := ⟨_, rfl⟩
  have hw : Orthogonal w := by
    unfold Orthogonal
    rw [hwdef, transpose_mul, transpose_mul, transpose_transpose]
    calc (o.pca (min d d) (centered b))ᵀ * (rᵀ * o.pca (min d d) (centered a)) * ((o.pca (min d d) (centered a))ᵀ * r * o.pca (min d d) (centered b))
        = (o.pca (min d d) (centered b))ᵀ * (rᵀ * ((o.pca (min d d) (centered a)) * (o.pca (min d d) (centered a))ᵀ) * r) * o.pca (min d d) (centered b) := by
          simp only [Matrix.mul_assoc]
      _ = 1 := by rw [hva', Matrix.mul_one, hr, Matrix.mul_one, hvb]
  have hco : coordinates o (min d d) b = coordinates o (min d d) a * w := by
    unfold coordinates
    rw [hwdef]
    calc centered b * o.pca (min d d) (centered b) = centered a * (o.pca (min d d) (centered a) * (o.pca (min d d) (centered a))ᵀ) * r * o.pca (min d d) (centered b) := by
          rw [hva', Matrix.mul_one, ← centered_rotated hb]
      _ = _ := by simp only [Matrix.mul_assoc]
  have hinj : ∀ x : Matrix (Fin (min d d)) (Fin (min d d)) ℝ, coordinates o (min d d) a * x = 0 → x = 0 := by
    intro x hx
    have h1 : diagonal l * x = 0 := by rw [← hl3, Matrix.mul_assoc, hx, Matrix.mul_zero]
    ext i j
    have h2 := congrFun (congrFun h1 i) j
    rw [diagonal_mul] at h2
    rcases mul_eq_zero.mp h2 with h | h
    · exact absurd h (hl2 i)
    · exact h
  have hsym : wᵀ = w := by
    refine rotation_diagonal hw hl1 hl' ?_
    rw [← hb', show centered b * o.pca (min d d) (centered b) = coordinates o (min d d) b from rfl, hco, transpose_mul, ← hl3]
    simp only [Matrix.mul_assoc]
  rw [C84_inverse hsvd hw hco hinj, hsym, hwdef, vecMul_vecMul, vecMul_vecMul]
  have : o.pca (min d d) (centered a) * ((o.pca (min d d) (centered a))ᵀ * r * o.pca (min d d) (centered b) * (o.pca (min d d) (centered b))ᵀ) = r := by
    calc _ = (o.pca (min d d) (centered a) * (o.pca (min d d) (centered a))ᵀ) * r * (o.pca (min d d) (centered b) * (o.pca (min d d) (centered b))ᵀ) := by
          simp only [Matrix.mul_assoc]
      _ = r := by rw [hva', hvb', Matrix.one_mul, Matrix.mul_one]
  rw [this, mean_rotated hn hb, sub_vecMul]
  abel

/-! ## Instances -/

/-- The directions are the axes; the decomposition of a multiple of a rotation (by its first column's length). -/
noncomputable def axesOracle (s : {q : Nat} → Fin q → ℝ) : Oracle where
  pca := fun {_ _} _ _ => Matrix.of (fun i j => if i.val = j.val then 1 else 0)
  svd := fun {_} m => (Matrix.of (fun i j => m i j / s j), s, 1)

/-- Four points around the origin, stretched along the first axis. -/
noncomputable def cross (x : ℝ) : Matrix (Fin 4) (Fin 2) ℝ := !![x, 0; -x, 0; 0, 1; 0, -1]

/-- A quarter turn. -/
def quarter : Matrix (Fin 2) (Fin 2) ℝ := !![0, 1; -1, 0]

/-- A reflection. -/
def flip : Matrix (Fin 2) (Fin 2) ℝ := !![1, 0; 0, -1]

theorem quarter_orthogonal : Orthogonal quarter := by
  ext i j
  fin_cases i <;> fin_cases j <;> simp [quarter, mul_apply, Fin.sum_univ_two]

theorem flip_orthogonal : Orthogonal flip := by
  ext i j
  fin_cases i <;> fin_cases j <;> simp [flip, mul_apply, Fin.sum_univ_two]

theorem centered_of_mean {n d : Nat} {a : Matrix (Fin n) (Fin d) ℝ} (h : mean a = 0) : centered a = a := by
  ext i j
  simp [centered, h]

theorem mean_cross (x : ℝ) : mean (cross x) = 0 := by
  ext j
  fin_cases j <;> simp [mean, cross, Fin.sum_univ_four]

theorem mean_mul {n d : Nat} {a : Matrix (Fin n) (Fin d) ℝ} (h : mean a = 0) (r : Matrix (Fin d) (Fin d) ℝ) (hn : 0 < n) : mean (a * r) = 0 := by
  have := mean_rotated hn (a := a) (b := a * r) (r := r) (shift := 0) (fun i => by ext j; simp [vecMul, dotProduct, mul_apply])
  rw [this, h]; simp

theorem axes_one (s : {q : Nat} → Fin q → ℝ) (c : Matrix (Fin 4) (Fin 2) ℝ) : (axesOracle s).pca 2 c = 1 := by
  ext i j
  simp [axesOracle, one_apply, Fin.ext_iff]

theorem coordinates_axes (s : {q : Nat} → Fin q → ℝ) {c : Matrix (Fin 4) (Fin 2) ℝ} (h : mean c = 0) : coordinates (axesOracle s) 2 c = c := by
  unfold coordinates
  rw [axes_one, Matrix.mul_one, centered_of_mean h]

theorem cross_gram (x : ℝ) : (cross x)ᵀ * cross x = diagonal ![2 * x ^ 2, 2] := by
  ext i j
  fin_cases i <;> fin_cases j <;> simp [cross, mul_apply, Fin.sum_univ_four] <;> ring

/-- C84, refuted when two principal variances are equal: the original's shared embeddings are the donor's, rotated by a quarter turn, and every one of them would be put at the
opposite of where it is. -/
theorem C84_reversed : ∃ (o : Oracle) (a b : Matrix (Fin 4) (Fin 2) ℝ) (r : Matrix (Fin 2) (Fin 2) ℝ), Orthogonal r ∧ (∀ i, b i = a i ᵥ* r) ∧
    IsPca (centered a) (o.pca 2 (centered a)) ∧ IsPca (centered b) (o.pca 2 (centered b)) ∧
    IsSvd ((coordinates o 2 b)ᵀ * coordinates o 2 a) (o.svd ((coordinates o 2 b)ᵀ * coordinates o 2 a)) ∧
    (∀ i, approximate o (a i) a b = - b i) ∧ ∀ i, b i ≠ 0 := by
  have hma := mean_cross 1
  have hmb : mean (cross 1 * quarter) = 0 := mean_mul hma quarter (by norm_num)
  have hgram : (cross 1 * quarter)ᵀ * (cross 1 * quarter) = diagonal (fun _ => 2) := by
    ext i j
    fin_cases i <;> fin_cases j <;> simp [cross, quarter, mul_apply, Fin.sum_univ_four, Fin.sum_univ_two] <;> norm_num
  have hm : (cross 1 * quarter)ᵀ * cross 1 = !![0, -2; 2, 0] := by
    ext i j
    fin_cases i <;> fin_cases j <;> simp [cross, quarter, mul_apply, Fin.sum_univ_four, Fin.sum_univ_two] <;> norm_num
  have hsvd : IsSvd ((coordinates (axesOracle (fun {_} _ => 2)) 2 (cross 1 * quarter))ᵀ * coordinates (axesOracle (fun {_} _ => 2)) 2 (cross 1))
      ((axesOracle (fun {_} _ => 2)).svd ((coordinates (axesOracle (fun {_} _ => 2)) 2 (cross 1 * quarter))ᵀ * coordinates (axesOracle (fun {_} _ => 2)) 2 (cross 1))) := by
    rw [coordinates_axes _ hma, coordinates_axes _ hmb, hm]
    refine ⟨?_, ?_, ?_, ?_⟩
    · ext i j
      fin_cases i <;> fin_cases j <;> simp [axesOracle, mul_apply, Fin.sum_univ_two]
    · simp [axesOracle, Orthogonal]
    · intro i; simp [axesOracle]
    · ext i j
      fin_cases i <;> fin_cases j <;> simp [axesOracle, mul_apply, Fin.sum_univ_two]
  refine ⟨axesOracle (fun {_} _ => 2), cross 1, cross 1 * quarter, quarter, quarter_orthogonal, ?_, ?_, ?_, hsvd, ?_, ?_⟩
  · intro i; ext j; simp [vecMul, dotProduct, mul_apply]
  · rw [axes_one, centered_of_mean hma]
    refine ⟨by simp, fun _ => 2, antitone_const, ?_⟩
    rw [Matrix.mul_one, cross_gram]
    ext i j
    fin_cases i <;> fin_cases j <;> simp
  · rw [axes_one, centered_of_mean hmb]
    exact ⟨by simp, fun _ => 2, antitone_const, by rw [Matrix.mul_one]; exact hgram⟩
  · intro i
    have h1 : approximate (axesOracle (fun {_} _ => 2)) (cross 1 i) (cross 1) (cross 1 * quarter) =
        approximateAt (axesOracle (fun {_} _ => 2)) 2 (cross 1 i) (cross 1) (cross 1 * quarter) := rfl
    have hrot : rotation (axesOracle (fun {_} _ => 2)) (cross 1) (cross 1 * quarter) = -quarter := by
      unfold rotation
      rw [hm]
      ext i j
      fin_cases i <;> fin_cases j <;> simp [axesOracle, quarter, mul_apply, Fin.sum_univ_two]
    rw [h1]
    unfold approximateAt
    rw [axes_one, axes_one, coordinates_axes _ hma, coordinates_axes _ hmb, hrot, hma, hmb]
    ext j
    simp only [sub_zero, vecMul_one, transpose_one, add_zero, vecMul_neg, Pi.neg_apply]
    rfl
  · intro i h0
    have := congrFun h0
    fin_cases i
    · have := this 1; simp [cross, quarter, mul_apply, Fin.sum_univ_two] at this
    · have := this 1; simp [cross, quarter, mul_apply, Fin.sum_univ_two] at this
    · have := this 0; simp [cross, quarter, mul_apply, Fin.sum_univ_two] at this
    · have := this 0; simp [cross, quarter, mul_apply, Fin.sum_univ_two] at this

/-- `C84_rotated_partial` applies to reflected landmarks with different variances. -/
example (target : Fin 2 → ℝ) : approximate (axesOracle (fun {_} i => if i.val = 0 then 8 else 2)) target (cross 2) (cross 2 * flip) = target ᵥ* flip := by
  have hma := mean_cross 2
  have hmb : mean (cross 2 * flip) = 0 := mean_mul hma flip (by norm_num)
  have hgram : (cross 2 * flip)ᵀ * (cross 2 * flip) = diagonal ![8, 2] := by
    ext i j
    fin_cases i <;> fin_cases j <;> simp [cross, flip, mul_apply, Fin.sum_univ_four, Fin.sum_univ_two] <;> norm_num
  have hm : (cross 2 * flip)ᵀ * cross 2 = !![8, 0; 0, -2] := by
    ext i j
    fin_cases i <;> fin_cases j <;> simp [cross, flip, mul_apply, Fin.sum_univ_four, Fin.sum_univ_two] <;> norm_num
  have hanti : StrictAnti (![8, 2] : Fin 2 → ℝ) := by
    intro i j hij
    fin_cases i <;> fin_cases j <;> simp at hij ⊢
    norm_num
  have key := C84_rotated_partial (o := axesOracle (fun {_} i => if i.val = 0 then 8 else 2)) (n := 4) (d := 2) (a := cross 2) (b := cross 2 * flip) (r := flip) (shift := 0)
    (by norm_num) flip_orthogonal (fun i => by ext j; simp [vecMul, dotProduct, mul_apply])
    (by
      show IsSvd ((coordinates _ 2 (cross 2 * flip))ᵀ * coordinates _ 2 (cross 2)) (Oracle.svd _ ((coordinates _ 2 (cross 2 * flip))ᵀ * coordinates _ 2 (cross 2)))
      rw [coordinates_axes _ hma, coordinates_axes _ hmb, hm]
      refine ⟨?_, ?_, ?_, ?_⟩
      · ext i j
        fin_cases i <;> fin_cases j <;> simp [axesOracle, mul_apply, Fin.sum_univ_two]
      · simp [axesOracle, Orthogonal]
      · intro i; simp only [axesOracle]; split <;> norm_num
      · ext i j
        fin_cases i <;> fin_cases j <;> simp [axesOracle, mul_apply, Fin.sum_univ_two])
    (by
      show IsPca (centered (cross 2)) (Oracle.pca _ 2 (centered (cross 2)))
      rw [axes_one, centered_of_mean hma]
      refine ⟨by simp, ![8, 2], hanti.antitone, ?_⟩
      rw [Matrix.mul_one, cross_gram]
      norm_num)
    (by
      show IsPca (centered (cross 2 * flip)) (Oracle.pca _ 2 (centered (cross 2 * flip)))
      rw [axes_one, centered_of_mean hmb]
      exact ⟨by simp, ![8, 2], hanti.antitone, by rw [Matrix.mul_one]; exact hgram⟩)
    (by
      show ∃ l : Fin 2 → ℝ, StrictAnti l ∧ (∀ i, l i ≠ 0) ∧ (coordinates _ 2 (cross 2))ᵀ * coordinates _ 2 (cross 2) = diagonal l
      rw [coordinates_axes _ hma]
      refine ⟨![8, 2], hanti, fun i => by fin_cases i <;> simp, ?_⟩
      rw [cross_gram]
      norm_num) target
  rw [key, add_zero]

end Verif.Pca
