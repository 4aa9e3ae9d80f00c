import Verif.Model.Rope
import Mathlib.Tactic.Linarith
import Mathlib.Tactic.Ring
import Mathlib.Tactic.Positivity
import Mathlib.Tactic.FieldSimp
import Mathlib.Tactic.NormNum
import Mathlib.Algebra.BigOperators.Field
import Mathlib.Analysis.Real.Pi.Bounds
import Mathlib.Analysis.SpecialFunctions.Trigonometric.Bounds

/-! # Rotary positions (C94, C95) -/

namespace Verif.Rope

open Finset

/-! ## Specification -/

/-- Pair `j` of head `h` of a vector as a complex number: in heads of `d` entries, entry `j` and the entry half a head later. -/
noncomputable def pair (d : Nat) (x : Nat → ℝ) (h j : Nat) : ℂ := ⟨x (h * d + j), x (h * d + (d / 2 + j))⟩

/-- The square of the distance of two vectors of `n` entries. -/
noncomputable def dist2 (n : Nat) (x y : Nat → ℝ) : ℝ := ∑ i ∈ range n, (x i - y i) ^ 2

/-! ## Helpers -/

theorem view_unview {d : Nat} (y : Nat → Nat → ℝ) {h j : Nat} (hj : j < d) : unview d y (h * d + j) = y h j := by
  unfold unview
  rw [show h * d + j = j + d * h by ring, Nat.add_mul_div_left _ _ (by omega), Nat.add_mul_mod_self_left, Nat.div_eq_of_lt hj, Nat.mod_eq_of_lt hj]
  simp

theorem sum_heads (heads d : Nat) (f : Nat → ℝ) : ∑ i ∈ range (heads * d), f i = ∑ h ∈ range heads, ∑ j ∈ range d, f (h * d + j) := by
  induction heads with
  | zero => simp
  | succ m ih => rw [Nat.succ_mul, sum_range_add, ih, sum_range_succ]

theorem sum_pairs {d : Nat} (hd : d % 2 = 0) (f : Nat → ℝ) : ∑ j ∈ range d, f j = ∑ j ∈ range (d / 2), (f j + f (d / 2 + j)) := by
  have : d = d / 2 + d / 2 := by omega
  conv_lhs => rw [this, sum_range_add]
  rw [← sum_add_distrib]

theorem sum_all {heads d n : Nat} (hf : fits heads d n = true) (f : Nat → ℝ) :
    ∑ i ∈ range n, f i = ∑ h ∈ range heads, ∑ j ∈ range (d / 2), (f (h * d + j) + f (h * d + (d / 2 + j))) := by
  unfold fits at hf
  simp only [Bool.and_eq_true, decide_eq_true_eq] at hf
  rw [hf.1, sum_heads]
  exact sum_congr rfl fun h _ => sum_pairs hf.2 _

theorem rotate_low {d : Nat} (theta : Nat → Nat → ℝ) (x : Nat → ℝ) (h : Nat) {j : Nat} (hj : j < d / 2) :
    rotate d theta x (h * d + j) = x (h * d + j) * Real.cos (theta h j) - x (h * d + (d / 2 + j)) * Real.sin (theta h j) := by
  unfold rotate
  rw [view_unview _ (by omega)]
  unfold rotateHead view
  rw [if_pos hj]

theorem rotate_high {d : Nat} (theta : Nat → Nat → ℝ) (x : Nat → ℝ) (h : Nat) {j : Nat} (hj : j < d / 2) :
    rotate d theta x (h * d + (d / 2 + j)) = x (h * d + (d / 2 + j)) * Real.cos (theta h j) + x (h * d + j) * Real.sin (theta h j) := by
  unfold rotate
  rw [view_unview _ (by omega)]
  unfold rotateHead view
  rw [if_neg (by omega), show d / 2 + j - d / 2 = j by omega]

theorem ext_pairs {heads d n : Nat} (hf : fits heads d n = true) {x y : Nat → ℝ} (hp : ∀ h < heads, ∀ j < d / 2, pair d x h j = pair d y h j) :
    ∀ i < n, x i = y i := by
  intro i hi
  unfold fits at hf
  simp only [Bool.and_eq_true, decide_eq_true_eq] at hf
  obtain ⟨rfl, hd⟩ := hf
  have hd0 : 0 < d := Nat.pos_of_ne_zero fun h => by subst h; simp at hi
  have hh : i / d < heads := Nat.div_lt_of_lt_mul (by rwa [Nat.mul_comm])
  have hm := Nat.mod_lt i hd0
  have hi' : i = i / d * d + i % d := by rw [Nat.mul_comm]; exact (Nat.div_add_mod i d).symm
  by_cases hlt : i % d < d / 2
  · have := congrArg Complex.re (hp _ hh _ hlt)
    simp only [pair] at this
    rw [hi']; exact this
  · have := congrArg Complex.im (hp _ hh (i % d - d / 2) (by omega))
    simp only [pair] at this
    rw [show d / 2 + (i % d - d / 2) = i % d by omega] at this
    rw [hi']; exact this

/-! ## C94: rotations -/

/-- C94: rotating a vector multiplies the pairs of its heads, read as complex numbers, by the unit numbers with the angles given. -/
theorem C94_rotation (d : Nat) (theta : Nat → Nat → ℝ) (x : Nat → ℝ) (h : Nat) {j : Nat} (hj : j < d / 2) :
    pair d (rotate d theta x) h j = Complex.exp (theta h j * Complex.I) * pair d x h j := by
  unfold pair
  rw [rotate_low theta x h hj, rotate_high theta x h hj, Complex.exp_mul_I]
  apply Complex.ext
  · simp [Complex.cos_ofReal_re, Complex.sin_ofReal_re]; ring
  · simp [Complex.cos_ofReal_re, Complex.sin_ofReal_re]; ring

/-- C94: rotations keep inner products, and so lengths. -/
theorem C94_isometry {heads d n : Nat} (hf : fits heads d n = true) (theta : Nat → Nat → ℝ) (x y : Nat → ℝ) :
    dot n (rotate d theta x) (rotate d theta y) = dot n x y := by
  unfold dot
  rw [sum_all hf, sum_all hf]
  refine sum_congr rfl fun h _ => sum_congr rfl fun j hj => ?_
  rw [mem_range] at hj
  rw [rotate_low _ _ _ hj, rotate_high _ _ _ hj, rotate_low _ _ _ hj, rotate_high _ _ _ hj]
  linear_combination (x (h * d + j) * y (h * d + j) + x (h * d + (d / 2 + j)) * y (h * d + (d / 2 + j))) * Real.sin_sq_add_cos_sq (theta h j)

/-- C94: positions add: position `p` after position `q` is position `p + q`, and position 0 changes nothing. -/
theorem C94_positions {heads d n : Nat} (hf : fits heads d n = true) (base p q : ℝ) (x : Nat → ℝ) :
    ∀ i < n, rope d base p (rope d base q x) i = rope d base (p + q) x i ∧ rope d base 0 x i = x i := by
  have h1 : ∀ i < n, rope d base p (rope d base q x) i = rope d base (p + q) x i := by
    apply ext_pairs hf
    intro h _ j hj
    unfold rope
    rw [C94_rotation _ _ _ _ hj, C94_rotation _ _ _ _ hj, C94_rotation _ _ _ _ hj, ← mul_assoc, ← Complex.exp_add]
    push_cast
    ring_nf
  have h2 : ∀ i < n, rope d base 0 x i = x i := by
    apply ext_pairs hf
    intro h _ j hj
    unfold rope
    rw [C94_rotation _ _ _ _ hj]
    simp
  exact fun i hi => ⟨h1 i hi, h2 i hi⟩

/-- C94: the inner product of two vectors at positions `p` and `q` depends only on how far apart the positions are. -/
theorem C94_relative {heads d n : Nat} (hf : fits heads d n = true) (base p q : ℝ) (x y : Nat → ℝ) :
    dot n (rope d base p x) (rope d base q y) = dot n x (rope d base (q - p) y) := by
  have : ∀ i < n, rope d base q y i = rope d base p (rope d base (q - p) y) i := by
    intro i hi
    rw [(C94_positions hf base p (q - p) y i hi).1]
    congr 1; ring
  have e : dot n (rope d base p x) (rope d base q y) = dot n (rope d base p x) (rope d base p (rope d base (q - p) y)) := by
    unfold dot
    exact sum_congr rfl fun i hi => by rw [this i (mem_range.mp hi)]
  rw [e]
  exact C94_isometry hf _ _ _

/-- A sum with at most two terms. -/
theorem sum_two {m a b : Nat} (ha : a < m) (hb : b < m) (hab : a ≠ b) (f : Nat → ℝ) (hz : ∀ i < m, i ≠ a → i ≠ b → f i = 0) :
    ∑ i ∈ range m, f i = f a + f b := by
  rw [← sum_pair hab]
  symm
  apply sum_subset
  · intro i hi
    simp only [mem_insert, mem_singleton] at hi
    rcases hi with rfl | rfl <;> exact mem_range.mpr ‹_›
  · intro i hi hn
    simp only [mem_insert, mem_singleton, not_or] at hn
    exact hz i (mem_range.mp hi) hn.1 hn.2

/-- C94: the rotation matrix of a head does the same to a head (a row, multiplied from the left) as the rotation. -/
theorem C94_matrix {d : Nat} (hd : d % 2 = 0) (theta : Nat → Nat → ℝ) (x : Nat → ℝ) (h : Nat) {j : Nat} (hj : j < d) :
    rotate d theta x (h * d + j) = ∑ i ∈ range d, x (h * d + i) * matrix d (theta h) i j := by
  by_cases hlt : j < d / 2
  · rw [rotate_low _ _ _ hlt, sum_two (a := j) (b := d / 2 + j) (by omega) (by omega) (by omega)]
    · have e1 : matrix d (theta h) j j = Real.cos (theta h j) := by unfold matrix; rw [if_pos ⟨hlt, rfl⟩]
      have e2 : matrix d (theta h) (d / 2 + j) j = -Real.sin (theta h j) := by
        unfold matrix
        rw [if_neg (by omega), if_neg (by omega), if_pos (by omega), show d / 2 + j - d / 2 = j by omega]
      rw [e1, e2]; ring
    · intro i hi h1 h2
      have : matrix d (theta h) i j = 0 := by
        unfold matrix
        rw [if_neg (by omega), if_neg (by omega), if_neg (by omega), if_neg (by omega)]
      rw [this, mul_zero]
  · obtain ⟨k, rfl⟩ : ∃ k, j = d / 2 + k := ⟨j - d / 2, by omega⟩
    have hk : k < d / 2 := by omega
    rw [rotate_high _ _ _ hk, sum_two (a := k) (b := d / 2 + k) (by omega) (by omega) (by omega)]
    · have e1 : matrix d (theta h) k (d / 2 + k) = Real.sin (theta h k) := by
        unfold matrix
        rw [if_neg (by omega), if_pos ⟨hk, rfl⟩]
      have e2 : matrix d (theta h) (d / 2 + k) (d / 2 + k) = Real.cos (theta h k) := by
        unfold matrix
        rw [if_neg (by omega), if_neg (by omega), if_neg (by omega), if_pos (by omega), show d / 2 + k - d / 2 = k by omega]
      rw [e1, e2]; ring
    · intro i hi h1 h2
      have : matrix d (theta h) i (d / 2 + k) = 0 := by
        unfold matrix
        rw [if_neg (by omega), if_neg (by omega), if_neg (by omega), if_neg (by omega)]
      rw [this, mul_zero]

/-- Two heads of four entries. -/
example : fits 2 4 8 = true := by decide

/-- A quarter turn of a head of two entries. -/
example : pair 2 (rotate 2 (fun _ _ => Real.pi / 2) (fun i => if i = 0 then 1 else 0)) 0 0 = Complex.I := by
  rw [C94_rotation _ _ _ _ (by decide)]
  unfold pair
  apply Complex.ext <;> simp [Complex.exp_mul_I, ← Complex.ofReal_ofNat, ← Complex.ofReal_div, ← Complex.ofReal_cos, ← Complex.ofReal_sin]

/-! ## C95: angles and positions found from two vectors -/

/-- The angle found for a pair, in terms of complex numbers. -/
theorem estimateTheta_eq (d : Nat) (x0 x1 : Nat → ℝ) (h j : Nat) :
    estimateTheta d x0 x1 h j = Complex.arg ((starRingEnd ℂ) (pair d x0 h j) * pair d x1 h j) := by
  unfold estimateTheta thetaHead atan2 pair view
  congr 1
  apply Complex.ext
  · simp
  · simp; ring

/-- C95: no angles turn the first vector nearer to the second than the ones found. -/
theorem C95_angles {heads d n : Nat} (hf : fits heads d n = true) (x0 x1 : Nat → ℝ) (theta : Nat → Nat → ℝ) :
    dist2 n (rotate d (estimateTheta d x0 x1) x0) x1 ≤ dist2 n (rotate d theta x0) x1 := by
  unfold dist2
  rw [sum_all hf, sum_all hf]
  refine sum_le_sum fun h _ => sum_le_sum fun j hj => ?_
  rw [mem_range] at hj
  rw [rotate_low _ _ _ hj, rotate_high _ _ _ hj, rotate_low _ _ _ hj, rotate_high _ _ _ hj]
  set a := x0 (h * d + j)
  set b := x0 (h * d + (d / 2 + j))
  set c := x1 (h * d + j)
  set e := x1 (h * d + (d / 2 + j))
  set A := a * c + b * e with hA
  set B := a * e - b * c with hB
  have key : ∀ t : ℝ, A * Real.cos t + B * Real.sin t ≤ A * Real.cos (estimateTheta d x0 x1 h j) + B * Real.sin (estimateTheta d x0 x1 h j) := by
    intro t
    have hest : estimateTheta d x0 x1 h j = Complex.arg ⟨A, B⟩ := rfl
    rw [hest]
    have hc : ‖(⟨A, B⟩ : ℂ)‖ * Real.cos (Complex.arg ⟨A, B⟩) = A := Complex.norm_mul_cos_arg _
    have hs : ‖(⟨A, B⟩ : ℂ)‖ * Real.sin (Complex.arg ⟨A, B⟩) = B := Complex.norm_mul_sin_arg _
    have hn : 0 ≤ ‖(⟨A, B⟩ : ℂ)‖ := norm_nonneg _
    set r := ‖(⟨A, B⟩ : ℂ)‖
    set u := Complex.arg ⟨A, B⟩
    rw [← hc, ← hs]
    have h1 : Real.cos u * Real.cos t + Real.sin u * Real.sin t = Real.cos (u - t) := (Real.cos_sub u t).symm
    have h2 : Real.cos (u - t) ≤ 1 := Real.cos_le_one _
    have h3 := Real.sin_sq_add_cos_sq u
    nlinarith [mul_le_mul_of_nonneg_left h2 hn]
  have expand : ∀ t : ℝ, (a * Real.cos t - b * Real.sin t - c) ^ 2 + (b * Real.cos t + a * Real.sin t - e) ^ 2
      = (a ^ 2 + b ^ 2 + c ^ 2 + e ^ 2) - 2 * (A * Real.cos t + B * Real.sin t) := by
    intro t
    rw [hA, hB]
    linear_combination (a ^ 2 + b ^ 2) * Real.sin_sq_add_cos_sq t
  rw [expand, expand]
  linarith [key (theta h j)]

/-- C95: when the second vector is the first one turned (and made longer or shorter), the angles found are the angles of the turn. -/
theorem C95_angles_exact {d : Nat} (x0 : Nat → ℝ) (theta : Nat → Nat → ℝ) {c : ℝ} (hc : 0 < c) (x1 : Nat → ℝ) (h : Nat) {j : Nat} (hj : j < d / 2)
    (hx : pair d x1 h j = c * pair d (rotate d theta x0) h j) (hne : pair d x0 h j ≠ 0) (hlo : -Real.pi < theta h j) (hhi : theta h j ≤ Real.pi) :
    estimateTheta d x0 x1 h j = theta h j := by
  rw [estimateTheta_eq, hx, C94_rotation _ _ _ _ hj]
  have : (starRingEnd ℂ) (pair d x0 h j) * (c * (Complex.exp (theta h j * Complex.I) * pair d x0 h j))
      = ((c * Complex.normSq (pair d x0 h j) : ℝ) : ℂ) * (Complex.cos (theta h j) + Complex.sin (theta h j) * Complex.I) := by
    rw [Complex.ofReal_mul, Complex.normSq_eq_conj_mul_self, Complex.exp_mul_I]
    ring
  rw [this]
  exact Complex.arg_mul_cos_add_sin_mul_I (mul_pos hc (Complex.normSq_pos.mpr hne)) ⟨hlo, hhi⟩

theorem invFreq_pos {base : ℝ} (hb : 0 < base) (d j : Nat) : 0 < invFreq base d j := by
  unfold invFreq
  exact div_pos one_pos (Real.rpow_pos_of_pos hb _)

theorem invFreq_le_one {base : ℝ} (hb : 1 ≤ base) (d j : Nat) : invFreq base d j ≤ 1 := by
  unfold invFreq
  rw [div_le_one (Real.rpow_pos_of_pos (by linarith) _)]
  exact Real.one_le_rpow hb (by positivity)

theorem invFreq_zero (base : ℝ) (d : Nat) : invFreq base d 0 = 1 := by unfold invFreq; simp

/-- The sum of the squares of the frequencies of all heads. -/
noncomputable def weight (heads d : Nat) (base : ℝ) : ℝ := ∑ _h ∈ range heads, ∑ j ∈ range (d / 2), invFreq base d j ^ 2

theorem weight_ge {heads d : Nat} (hh : 0 < heads) (hd : 2 ≤ d) (base : ℝ) : 1 ≤ weight heads d base := by
  unfold weight
  rw [sum_const, card_range, nsmul_eq_mul]
  have h1 : 1 ≤ ∑ j ∈ range (d / 2), invFreq base d j ^ 2 := by
    have := single_le_sum (f := fun j => invFreq base d j ^ 2) (s := range (d / 2)) (fun i _ => sq_nonneg _) (mem_range.mpr (show 0 < d / 2 by omega))
    simp only [invFreq_zero, one_pow] at this
    exact this
  have h2 : (1 : ℝ) ≤ heads := by exact_mod_cast hh
  nlinarith

theorem scalingFactor_eq (heads d : Nat) (base : ℝ) : scalingFactor heads d base = Real.sqrt (weight heads d base) := by
  unfold scalingFactor weight
  rw [sum_const, card_range, nsmul_eq_mul, Real.sqrt_mul (by positivity)]

/-- The position found, as a fraction. -/
theorem projectPosition_eq (heads d : Nat) (base : ℝ) (x0 x1 : Nat → ℝ) :
    projectPosition heads d base x0 x1 =
      (∑ h ∈ range heads, ∑ j ∈ range (d / 2), estimateTheta d x0 x1 h j * invFreq base d j) / (Real.sqrt (weight heads d base) + tiny) ^ 2 := by
  unfold projectPosition
  rw [scalingFactor_eq, show basisNorm heads d base = Real.sqrt (weight heads d base) from rfl, sq, ← div_div]
  congr 1
  rw [Finset.sum_div]
  apply sum_congr rfl
  intro h _
  rw [Finset.sum_div]
  apply sum_congr rfl
  intro j _
  ring

theorem tiny_pos : 0 < tiny := by unfold tiny; norm_num

/-- The bias of the small numbers added. -/
theorem bias {w : ℝ} (hw : 1 ≤ w) (p : ℝ) : |p * w / (Real.sqrt w + tiny) ^ 2 - p| ≤ 2 * tiny * |p| := by
  have hs : 1 ≤ Real.sqrt w := by rw [show (1 : ℝ) = Real.sqrt 1 by simp]; exact Real.sqrt_le_sqrt hw
  have hsq : Real.sqrt w ^ 2 = w := Real.sq_sqrt (by linarith)
  set s := Real.sqrt w
  have ht := tiny_pos
  have hpos : 0 < (s + tiny) ^ 2 := by positivity
  have : p * w / (s + tiny) ^ 2 - p = -(p * ((2 * s * tiny + tiny ^ 2) / (s + tiny) ^ 2)) := by
    rw [← hsq]; field_simp; ring
  rw [this, abs_neg, abs_mul, mul_comm]
  apply mul_le_mul_of_nonneg_right _ (abs_nonneg p)
  rw [abs_of_nonneg (by positivity), div_le_iff₀ hpos]
  nlinarith [mul_pos ht ht, mul_nonneg (mul_nonneg ht.le (by linarith : 0 ≤ s - 1)) (by linarith : 0 ≤ s)]

/-- The angles of a vector put at a position are found, where the pair is not zero. -/
theorem theta_found {heads d n : Nat} (hf : fits heads d n = true) {base : ℝ} (hb : 1 ≤ base)
    (x0 x1 : Nat → ℝ) {c p : ℝ} (hc : 0 < c) (hx : ∀ i < n, x1 i = c * rope d base p x0 i) (hp : |p| < Real.pi) :
    ∀ h < heads, ∀ j < d / 2, pair d x0 h j ≠ 0 → estimateTheta d x0 x1 h j = p * invFreq base d j := by
  have hf' := hf
  unfold fits at hf'
  simp only [Bool.and_eq_true, decide_eq_true_eq] at hf'
  intro h hh' j hj hne
  have hin : ∀ l < d, h * d + l < n := by
    intro l hl
    rw [hf'.1]
    calc h * d + l < h * d + d := by omega
      _ = (h + 1) * d := by ring
      _ ≤ heads * d := Nat.mul_le_mul_right _ hh'
  have h1 := invFreq_pos (by linarith : 0 < base) d j
  have h2 := invFreq_le_one hb d j
  have habs : |p * invFreq base d j| < Real.pi := by
    rw [abs_mul, abs_of_pos h1]
    calc |p| * invFreq base d j ≤ |p| * 1 := mul_le_mul_of_nonneg_left h2 (abs_nonneg p)
      _ < Real.pi := by rw [mul_one]; exact hp
  rw [abs_lt] at habs
  refine C95_angles_exact x0 (fun _ j => p * invFreq base d j) hc x1 h hj ?_ hne habs.1 habs.2.le
  unfold pair
  rw [hx _ (hin _ (by omega)), hx _ (hin _ (by omega))]
  apply Complex.ext <;> simp [rope]

/-- C95: when the second vector is the first one (without zero pairs) put at position `p` and scaled by a positive number, and `p` is less than half a turn
of the fastest pair, the position found is `p` up to a relative error of `2e-8`.

Partial: positions of half a turn and more are not found, see `C95_bounded_partial`. -/
theorem C95_position_partial {heads d n : Nat} (hf : fits heads d n = true) (hh : 0 < heads) (hd : 2 ≤ d) {base : ℝ} (hb : 1 ≤ base)
    (x0 x1 : Nat → ℝ) {c p : ℝ} (hc : 0 < c) (hx : ∀ i < n, x1 i = c * rope d base p x0 i) (hne : ∀ h < heads, ∀ j < d / 2, pair d x0 h j ≠ 0)
    (hp : |p| < Real.pi) :
    |bestPosition heads d base x0 x1 - p| ≤ 2 * tiny * |p| := by
  have hθ := fun h hh' j hj => theta_found hf hb x0 x1 hc hx hp h hh' j hj (hne h hh' j hj)
  unfold bestPosition
  rw [projectPosition_eq]
  have hsum : ∑ h ∈ range heads, ∑ j ∈ range (d / 2), estimateTheta d x0 x1 h j * invFreq base d j = p * weight heads d base := by
    unfold weight
    rw [mul_sum]
    refine sum_congr rfl fun h hh' => ?_
    rw [mul_sum]
    refine sum_congr rfl fun j hj => ?_
    rw [hθ h (mem_range.mp hh') j (mem_range.mp hj)]; ring
  rw [hsum]
  exact bias (weight_ge hh hd base) p

/-- C95: the weighted estimate of a position (`estimate_position_id`), for the same vectors - zero pairs do not matter here -, is `p` times the length of the first vector
squared, divided by that and `1e-8`. -/
theorem C95_weighted {heads d n : Nat} (hf : fits heads d n = true) {base : ℝ} (hb : 1 ≤ base)
    (x0 x1 : Nat → ℝ) {c p : ℝ} (hc : 0 < c) (hx : ∀ i < n, x1 i = c * rope d base p x0 i) (hp : |p| < Real.pi) :
    estimatePosition heads d base x0 x1 = p * ((∑ i ∈ range n, x0 i ^ 2) / ((∑ i ∈ range n, x0 i ^ 2) + 1 / 10 ^ 8)) := by
  have hsum : ∑ h ∈ range heads, ∑ j ∈ range (d / 2), estimateTheta d x0 x1 h j / invFreq base d j * (view d x0 h j ^ 2 + view d x0 h (d / 2 + j) ^ 2) =
      p * ∑ i ∈ range n, x0 i ^ 2 := by
    rw [sum_all hf, mul_sum]
    refine sum_congr rfl fun h hh' => ?_
    rw [mul_sum]
    refine sum_congr rfl fun j hj => ?_
    unfold view
    by_cases hne : pair d x0 h j = 0
    · have h1 : x0 (h * d + j) = 0 := congrArg Complex.re hne
      have h2 : x0 (h * d + (d / 2 + j)) = 0 := congrArg Complex.im hne
      rw [h1, h2]; simp
    · rw [theta_found hf hb x0 x1 hc hx hp h (mem_range.mp hh') j (mem_range.mp hj) hne,
        mul_div_cancel_right₀ _ (invFreq_pos (by linarith : 0 < base) d j).ne']
  unfold estimatePosition
  rw [hsum, mul_div_assoc, sum_all hf (fun i => x0 i ^ 2)]
  rfl

/-- The hypotheses are met by two heads of four entries, put at position 1 and doubled. -/
example : fits 2 4 8 = true ∧ ∃ x0 x1 : Nat → ℝ, x0 0 ≠ 0 ∧ (∀ i < 8, x1 i = 2 * rope 4 10000 1 x0 i) ∧ |(1 : ℝ)| < Real.pi := by
  refine ⟨by decide, fun _ => 1, _, one_ne_zero, fun _ _ => rfl, ?_⟩
  have := Real.pi_gt_three
  rw [abs_one]; linarith

/-- C95: the position found is never larger than half a turn times the sum of the frequencies over the sum of their squares, so larger positions are
never found.  With one frequency this is half a turn. -/
theorem C95_bounded_partial {heads d : Nat} (hh : 0 < heads) (hd : 2 ≤ d) {base : ℝ} (hb : 0 < base) (x0 x1 : Nat → ℝ) :
    |bestPosition heads d base x0 x1| ≤ Real.pi * (∑ j ∈ range (d / 2), invFreq base d j) / ∑ j ∈ range (d / 2), invFreq base d j ^ 2 := by
  unfold bestPosition
  rw [projectPosition_eq]
  have hw := weight_ge hh hd base
  have hs : 1 ≤ Real.sqrt (weight heads d base) := by rw [show (1 : ℝ) = Real.sqrt 1 by simp]; exact Real.sqrt_le_sqrt hw
  have hsq : Real.sqrt (weight heads d base) ^ 2 = weight heads d base := Real.sq_sqrt (by linarith)
  have ht := tiny_pos
  have hden : weight heads d base ≤ (Real.sqrt (weight heads d base) + tiny) ^ 2 := by nlinarith
  have hnum : |∑ h ∈ range heads, ∑ j ∈ range (d / 2), estimateTheta d x0 x1 h j * invFreq base d j| ≤
      heads * (Real.pi * ∑ j ∈ range (d / 2), invFreq base d j) := by
    calc _ ≤ ∑ h ∈ range heads, |∑ j ∈ range (d / 2), estimateTheta d x0 x1 h j * invFreq base d j| := abs_sum_le_sum_abs _ _
      _ ≤ ∑ h ∈ range heads, (Real.pi * ∑ j ∈ range (d / 2), invFreq base d j) := by
          refine sum_le_sum fun h _ => ?_
          refine (abs_sum_le_sum_abs _ _).trans ?_
          rw [mul_sum]
          refine sum_le_sum fun j _ => ?_
          rw [abs_mul, abs_of_pos (invFreq_pos hb d j), estimateTheta_eq]
          exact mul_le_mul_of_nonneg_right (Complex.abs_arg_le_pi _) (invFreq_pos hb d j).le
      _ = _ := by rw [sum_const, card_range, nsmul_eq_mul]
  rw [abs_div, abs_of_pos (show 0 < (Real.sqrt (weight heads d base) + tiny) ^ 2 by positivity)]
  have hh' : (0 : ℝ) < heads := by exact_mod_cast hh
  have hwe : weight heads d base = heads * ∑ j ∈ range (d / 2), invFreq base d j ^ 2 := by
    unfold weight; rw [sum_const, card_range, nsmul_eq_mul]
  calc _ ≤ heads * (Real.pi * ∑ j ∈ range (d / 2), invFreq base d j) / weight heads d base := by
        apply div_le_div₀ _ hnum (by linarith) hden
        have : 0 ≤ ∑ j ∈ range (d / 2), invFreq base d j := sum_nonneg fun j _ => (invFreq_pos hb d j).le
        have := Real.pi_pos
        positivity
    _ = _ := by rw [hwe, mul_div_mul_left _ _ hh'.ne']

/-- C95: up to the small numbers added, the position found is the one whose angles are nearest to the angles found: it is within a relative error of
`2e-8` of a position `p` for which no other position has nearer angles. -/
theorem C95_projection {heads d : Nat} (hh : 0 < heads) (hd : 2 ≤ d) (base : ℝ) (x0 x1 : Nat → ℝ) :
    ∃ p, |bestPosition heads d base x0 x1 - p| ≤ 2 * tiny * |p| ∧
      ∀ q, ∑ h ∈ range heads, ∑ j ∈ range (d / 2), (estimateTheta d x0 x1 h j - p * invFreq base d j) ^ 2 ≤
        ∑ h ∈ range heads, ∑ j ∈ range (d / 2), (estimateTheta d x0 x1 h j - q * invFreq base d j) ^ 2 := by
  have hw := weight_ge hh hd base
  set S := ∑ h ∈ range heads, ∑ j ∈ range (d / 2), estimateTheta d x0 x1 h j * invFreq base d j with hS
  refine ⟨S / weight heads d base, ?_, fun q => ?_⟩
  · have := bias hw (S / weight heads d base)
    rw [div_mul_cancel₀ _ (by linarith : weight heads d base ≠ 0)] at this
    unfold bestPosition
    rw [projectPosition_eq]
    exact this
  · have expand : ∀ q, ∑ h ∈ range heads, ∑ j ∈ range (d / 2), (estimateTheta d x0 x1 h j - q * invFreq base d j) ^ 2 =
        (∑ h ∈ range heads, ∑ j ∈ range (d / 2), estimateTheta d x0 x1 h j ^ 2) - 2 * q * S + q ^ 2 * weight heads d base := by
      intro q
      rw [hS]
      unfold weight
      rw [mul_sum, mul_sum, ← sum_sub_distrib, ← sum_add_distrib]
      refine sum_congr rfl fun h _ => ?_
      rw [mul_sum, mul_sum, ← sum_sub_distrib, ← sum_add_distrib]
      exact sum_congr rfl fun j _ => by ring
    rw [expand, expand]
    have hw0 : 0 < weight heads d base := by linarith
    have : S = S / weight heads d base * weight heads d base := by rw [div_mul_cancel₀ _ hw0.ne']
    set p := S / weight heads d base
    rw [this]
    nlinarith [mul_nonneg hw0.le (sq_nonneg (q - p))]

/-- Heads of two entries have one frequency, 1. -/
theorem bounded_two {heads : Nat} (hh : 0 < heads) {base : ℝ} (hb : 0 < base) (x0 x1 : Nat → ℝ) : |bestPosition heads 2 base x0 x1| ≤ Real.pi := by
  have := C95_bounded_partial hh (le_refl 2) hb x0 x1
  simp only [show 2 / 2 = 1 from rfl, sum_range_one, invFreq_zero, one_pow, mul_one, div_one] at this
  exact this

/-- C95 does not hold as stated: there are vectors, the second being the first one at position 4, for which the position found gives another vector. -/
theorem C95_wraps_partial : ∃ x0 x1 : Nat → ℝ, x1 = rope 4 10000 4 x0 ∧ 0 < dist2 4 (rope 4 10000 (bestPosition 1 4 10000 x0 x1) x0) x1 := by
  let x0 : Nat → ℝ := fun i => if i < 2 then 1 else 0
  refine ⟨x0, rope 4 10000 4 x0, rfl, ?_⟩
  set q := bestPosition 1 4 10000 x0 (rope 4 10000 4 x0) with hq
  have hf1 : invFreq 10000 4 1 = 1 / 100 := by
    unfold invFreq
    have : ((10000 : ℝ)) ^ ((((2 * 1 : Nat) : ℝ)) / ((4 : Nat) : ℝ)) = 100 := by
      rw [show ((((2 * 1 : Nat) : ℝ)) / ((4 : Nat) : ℝ)) = (1 / 2 : ℝ) by norm_num, ← Real.sqrt_eq_rpow,
        show (10000 : ℝ) = 100 ^ 2 by norm_num]
      exact Real.sqrt_sq (by norm_num)
    rw [this]
  have hbound : |q| ≤ 16 / 5 := by
    have := C95_bounded_partial (heads := 1) (d := 4) (by decide) (by decide) (by norm_num : (0 : ℝ) < 10000) x0 (rope 4 10000 4 x0)
    rw [← hq] at this
    simp only [show 4 / 2 = 2 from rfl, sum_range_succ, sum_range_zero, invFreq_zero, hf1] at this
    refine this.trans ?_
    rw [div_le_iff₀ (by norm_num)]
    have := Real.pi_lt_d2
    linarith
  rw [abs_le] at hbound
  -- the slow pair is turned by different angles
  have hsin : Real.sin (q / 100) < Real.sin (4 / 100) := by
    apply Real.sin_lt_sin_of_lt_of_le_pi_div_two
    · have := Real.pi_gt_three; linarith [hbound.1]
    · have := Real.pi_gt_three; linarith
    · linarith [hbound.2]
  have e3 : ∀ p : ℝ, rope 4 10000 p x0 3 = Real.sin (p / 100) := by
    intro p
    have := rotate_high (d := 4) (fun _ j => p * invFreq 10000 4 j) x0 0 (j := 1) (by decide)
    simp only [show 0 * 4 + (4 / 2 + 1) = 3 from rfl, show 0 * 4 + 1 = 1 from rfl, hf1] at this
    unfold rope
    rw [this]
    simp only [x0]
    norm_num
    congr 1
    ring
  have hpos : 0 < (rope 4 10000 q x0 3 - rope 4 10000 4 x0 3) ^ 2 := by
    rw [e3, e3]
    have : Real.sin (q / 100) - Real.sin (4 / 100) ≠ 0 := by linarith
    positivity
  unfold dist2
  exact lt_of_lt_of_le hpos (single_le_sum (f := fun i => (rope 4 10000 q x0 i - rope 4 10000 4 x0 i) ^ 2) (fun i _ => sq_nonneg _) (mem_range.mpr (by decide)))

/-- The hypotheses of `C95_position_partial` can be met: a vector of two heads of four entries, at position 3 and twice as long. -/
example : |bestPosition 2 4 10000 (fun _ => 1) (fun i => 2 * rope 4 10000 3 (fun _ => 1) i) - 3| ≤ 2 * tiny * |3| := by
  apply C95_position_partial (n := 8) (c := 2) (by decide) (by decide) (by decide) (by norm_num) _ _ (by norm_num) (fun _ _ => rfl)
  · intro h _ j _ hp
    have := congrArg Complex.re hp
    simp [pair] at this
  · have := Real.pi_gt_three
    rw [abs_of_pos (by norm_num)]; exact this

end Verif.Rope
