import Verif.Model.Sphere
import Verif.Props.Linear

/-! # C34, C69: slerp and nuslerp -/

namespace Verif.Sphere

open Verif.Tensor Verif.Merge

/-! ## Lemmas on dot products -/

theorem dotOn_comm (L : List Nat) (a b : Nat → ℝ) : dotOn L a b = dotOn L b a := by
  unfold dotOn
  simp only [mul_comm]

theorem dotOn_comb (L : List Nat) (a b c d : ℝ) (x y : Nat → ℝ) :
    dotOn L (fun i => a * x i + b * y i) (fun i => c * x i + d * y i) =
      a * c * dotOn L x x + (a * d + b * c) * dotOn L x y + b * d * dotOn L y y := by
  unfold dotOn
  induction L with
  | nil => simp
  | cons j L ih =>
    simp only [List.map_cons, List.sum_cons]
    rw [ih]
    ring

theorem dotOn_scale (L : List Nat) (a b : ℝ) (x y : Nat → ℝ) : dotOn L (fun i => a * x i) (fun i => b * y i) = a * b * dotOn L x y := by
  unfold dotOn
  induction L with
  | nil => simp
  | cons j L ih =>
    simp only [List.map_cons, List.sum_cons]
    rw [ih]
    ring

theorem dotOn_congr (L : List Nat) (a b a' b' : Nat → ℝ) (h1 : ∀ j ∈ L, a j = a' j) (h2 : ∀ j ∈ L, b j = b' j) :
    dotOn L a b = dotOn L a' b' := by
  unfold dotOn
  congr 1
  exact List.map_congr_left (fun j hj => by rw [h1 j hj, h2 j hj])

theorem dotOn_self_nonneg (L : List Nat) (a : Nat → ℝ) : 0 ≤ dotOn L a a := by
  unfold dotOn
  apply List.sum_nonneg
  intro x hx
  obtain ⟨j, _, rfl⟩ := List.mem_map.1 hx
  exact mul_self_nonneg _

theorem normOn_mul_self (L : List Nat) (a : Nat → ℝ) : normOn L a * normOn L a = dotOn L a a :=
  Real.mul_self_sqrt (dotOn_self_nonneg L a)

theorem normOn_nonneg (L : List Nat) (a : Nat → ℝ) : 0 ≤ normOn L a := Real.sqrt_nonneg _

theorem sin_arccos_pos (d : ℝ) (h : |d| < 1) : 0 < Real.sin (Real.arccos d) := by
  rw [Real.sin_arccos]
  apply Real.sqrt_pos.2
  have := (sq_lt_one_iff_abs_lt_one d).2 h
  linarith

/-! ## C34 -/

/-- The cosine `slerp` works with: of the vectors divided by their norms, where these are not negligible (specification). -/
noncomputable def cosine (n : Nat) (v0 v1 : Nat → ℝ) : ℝ :=
  (if 1 / 100000000 < normOn (List.range n) v0 then 1 / normOn (List.range n) v0 else 1) *
  (if 1 / 100000000 < normOn (List.range n) v1 then 1 / normOn (List.range n) v1 else 1) * dotOn (List.range n) v0 v1

theorem normalized_dot (n : Nat) (v0 v1 : Nat → ℝ) :
    dotOn (List.range n) (normalizeEps (List.range n) v0 (1 / 100000000)) (normalizeEps (List.range n) v1 (1 / 100000000)) = cosine n v0 v1 := by
  have h : ∀ v : Nat → ℝ, normalizeEps (List.range n) v (1 / 100000000) =
      fun i => (if 1 / 100000000 < normOn (List.range n) v then 1 / normOn (List.range n) v else 1) * v i := by
    intro v
    unfold normalizeEps
    funext i
    by_cases hn : 1 / 100000000 < normOn (List.range n) v
    · rw [if_pos hn, if_pos hn]
      ring
    · rw [if_neg hn, if_neg hn, one_mul]
  rw [h v0, h v1, dotOn_scale]
  rfl

/-- **C34** Nearly parallel tensors are interpolated linearly, all others with the sines of the parts of the angle. -/
theorem C34_formula (n : Nat) (t : ℝ) (v0 v1 : Nat → ℝ) :
    (9995 / 10000 < |cosine n v0 v1| → ∀ i, slerp n t v0 v1 i = (1 - t) * v0 i + t * v1 i) ∧
    (|cosine n v0 v1| ≤ 9995 / 10000 →
      0 < Real.sin (Real.arccos (cosine n v0 v1)) ∧ ∀ i, slerp n t v0 v1 i =
        (Real.sin ((1 - t) * Real.arccos (cosine n v0 v1)) * v0 i + Real.sin (t * Real.arccos (cosine n v0 v1)) * v1 i) /
          Real.sin (Real.arccos (cosine n v0 v1))) := by
  unfold slerp
  simp only [normalized_dot]
  constructor
  · intro h i
    rw [if_pos h]
  · intro h
    refine ⟨sin_arccos_pos _ (by linarith), fun i => ?_⟩
    rw [if_neg (not_lt.2 h)]
    rw [show Real.arccos (cosine n v0 v1) - Real.arccos (cosine n v0 v1) * t = (1 - t) * Real.arccos (cosine n v0 v1) by ring,
      mul_comm (Real.arccos (cosine n v0 v1)) t]
    ring

/-- **C34** `t = 0` gives the first and `t = 1` the second tensor. -/
theorem C34_endpoints (n : Nat) (v0 v1 : Nat → ℝ) : (∀ i, slerp n 0 v0 v1 i = v0 i) ∧ (∀ i, slerp n 1 v0 v1 i = v1 i) := by
  rcases lt_or_ge (9995 / 10000) |cosine n v0 v1| with h | h
  · constructor <;> (intro i; rw [(C34_formula n _ v0 v1).1 h]; ring)
  · constructor
    · intro i
      obtain ⟨hs, hf⟩ := (C34_formula n 0 v0 v1).2 h
      rw [hf]
      simp only [sub_zero, one_mul, zero_mul, Real.sin_zero, add_zero]
      field_simp
    · intro i
      obtain ⟨hs, hf⟩ := (C34_formula n 1 v0 v1).2 h
      rw [hf]
      simp only [sub_self, zero_mul, Real.sin_zero, zero_add, one_mul]
      field_simp

theorem cosine_comm (n : Nat) (v0 v1 : Nat → ℝ) : cosine n v0 v1 = cosine n v1 v0 := by
  unfold cosine
  rw [dotOn_comm]
  ring

/-- **C34** Exchanging the tensors and replacing `t` by `1 - t` changes nothing. -/
theorem C34_symmetric (n : Nat) (t : ℝ) (v0 v1 : Nat → ℝ) : ∀ i, slerp n (1 - t) v1 v0 i = slerp n t v0 v1 i := by
  intro i
  rcases lt_or_ge (9995 / 10000) |cosine n v0 v1| with h | h
  · rw [(C34_formula n _ v0 v1).1 h, (C34_formula n _ v1 v0).1 (by rw [cosine_comm]; exact h)]
    ring
  · rw [((C34_formula n _ v0 v1).2 h).2, ((C34_formula n _ v1 v0).2 (by rw [cosine_comm]; exact h)).2, cosine_comm n v1 v0]
    rw [sub_sub_cancel]
    ring

theorem slerp_identity (θ t : ℝ) :
    Real.sin ((1 - t) * θ) ^ 2 + Real.sin (t * θ) ^ 2 + 2 * Real.sin ((1 - t) * θ) * Real.sin (t * θ) * Real.cos θ = Real.sin θ ^ 2 := by
  have h1 : Real.sin ((1 - t) * θ) = Real.sin θ * Real.cos (t * θ) - Real.cos θ * Real.sin (t * θ) := by
    rw [← Real.sin_sub]
    congr 1
    ring
  rw [h1]
  have h2 := Real.sin_sq_add_cos_sq (t * θ)
  have h3 := Real.sin_sq_add_cos_sq θ
  have h4 : Real.cos (t * θ) ^ 2 = 1 - Real.sin (t * θ) ^ 2 := by linarith
  have h5 : Real.cos θ ^ 2 = 1 - Real.sin θ ^ 2 := by linarith
  ring_nf
  rw [h4, h5]
  ring

/-- **C34** For unit vectors that are not nearly parallel the result is a unit vector, at the fraction `t` of the angle away from the first one. -/
theorem C34_unit (n : Nat) (t : ℝ) (v0 v1 : Nat → ℝ) (h0 : normOn (List.range n) v0 = 1) (h1 : normOn (List.range n) v1 = 1)
    (hd : |dotOn (List.range n) v0 v1| ≤ 9995 / 10000) :
    normOn (List.range n) (slerp n t v0 v1) = 1 ∧
    dotOn (List.range n) v0 (slerp n t v0 v1) = Real.cos (t * Real.arccos (dotOn (List.range n) v0 v1)) := by
  have hc : cosine n v0 v1 = dotOn (List.range n) v0 v1 := by
    unfold cosine
    rw [h0, h1]
    norm_num
  obtain ⟨hs, hf⟩ := (C34_formula n t v0 v1).2 (by rw [hc]; exact hd)
  rw [hc] at hs hf
  have e0 : dotOn (List.range n) v0 v0 = 1 := by rw [← normOn_mul_self, h0, one_mul]
  have e1 : dotOn (List.range n) v1 v1 = 1 := by rw [← normOn_mul_self, h1, one_mul]
  have hcos : Real.cos (Real.arccos (dotOn (List.range n) v0 v1)) = dotOn (List.range n) v0 v1 := by
    have := abs_le.1 hd
    exact Real.cos_arccos (by linarith) (by linarith)
  have hfun : slerp n t v0 v1 = fun i =>
      (Real.sin ((1 - t) * Real.arccos (dotOn (List.range n) v0 v1)) / Real.sin (Real.arccos (dotOn (List.range n) v0 v1))) * v0 i +
      (Real.sin (t * Real.arccos (dotOn (List.range n) v0 v1)) / Real.sin (Real.arccos (dotOn (List.range n) v0 v1))) * v1 i := by
    funext i
    rw [hf]
    ring
  generalize hθ : Real.arccos (dotOn (List.range n) v0 v1) = θ at *
  have hid := slerp_identity θ t
  constructor
  · unfold normOn
    rw [hfun, dotOn_comb, e0, e1, ← hcos]
    have : Real.sin ((1 - t) * θ) / Real.sin θ * (Real.sin ((1 - t) * θ) / Real.sin θ) * 1 +
        (Real.sin ((1 - t) * θ) / Real.sin θ * (Real.sin (t * θ) / Real.sin θ) +
          Real.sin (t * θ) / Real.sin θ * (Real.sin ((1 - t) * θ) / Real.sin θ)) * Real.cos θ +
        Real.sin (t * θ) / Real.sin θ * (Real.sin (t * θ) / Real.sin θ) * 1 = 1 := by
      field_simp
      linarith
    rw [this, Real.sqrt_one]
  · have hx := dotOn_comb (List.range n) 1 0 (Real.sin ((1 - t) * θ) / Real.sin θ) (Real.sin (t * θ) / Real.sin θ) v0 v1
    rw [hfun]
    have hv : (fun i => (1 : ℝ) * v0 i + 0 * v1 i) = v0 := by
      funext i
      ring
    rw [hv] at hx
    rw [hx, e0, e1, ← hcos]
    have h1' : Real.sin ((1 - t) * θ) = Real.sin θ * Real.cos (t * θ) - Real.cos θ * Real.sin (t * θ) := by
      rw [← Real.sin_sub]
      congr 1
      ring
    rw [h1']
    field_simp
    ring

section
variable {M : Type} [DecidableEq M]

/-- **C34** One tensor is returned as it is; other numbers than two, and a missing base, are errors. -/
theorem C34_inputs (isEmbed : Bool) (b : M) (t : ℝ) (tensors : List (M × Tensor ℝ)) :
    (∀ m x, tensors = [(m, x)] → slerpTask isEmbed b t tensors = .ok x) ∧
    (tensors.length ≠ 1 → tensors.length ≠ 2 → slerpTask isEmbed b t tensors = .error .count) ∧
    (tensors.length = 2 → (∀ e ∈ tensors, e.1 ≠ b) → slerpTask isEmbed b t tensors = .error .noBase) := by
  refine ⟨?_, ?_, ?_⟩
  · rintro m x rfl
    rfl
  · intro h1 h2
    match tensors, h1, h2 with
    | [], _, _ => rfl
    | [_], h, _ => simp at h
    | [_, _], _, h => simp at h
    | _ :: _ :: _ :: _, _, _ => rfl
  · intro h hb
    match tensors, h with
    | [x, y], _ => simp [slerpTask, hb x (by simp), hb y (by simp)]

/-- **C34** The base model is the `t = 0` end, in whatever order the tensors come. -/
theorem C34_base_first (isEmbed : Bool) (b m : M) (hm : m ≠ b) (t : ℝ) (x y : Tensor ℝ) (hs : x.shape = y.shape)
    (tensors : List (M × Tensor ℝ)) (ht : tensors = [(b, x), (m, y)] ∨ tensors = [(m, y), (b, x)]) :
    ∃ r, slerpTask isEmbed b t tensors = .ok r ∧ r.shape = x.shape ∧ ∀ i, r.get i = slerp x.numel t x.get y.get i := by
  have hr : rectify isEmbed [x, y] = [x, y] := rectify_oneShape isEmbed [x, y] x.shape (by simp [hs])
  rcases ht with rfl | rfl
  · simp only [slerpTask, ne_eq, not_true_eq_false, false_and, if_false, hr, hs, if_true]
    exact ⟨_, rfl, rfl, fun i => rfl⟩
  · simp only [slerpTask, ne_eq, not_true_eq_false, and_false, if_false, hm, not_false_eq_true, if_true, hr, hs]
    exact ⟨_, rfl, rfl, fun i => rfl⟩

end

/-- The two coordinate vectors of the plane meet the conditions of `C34_unit`. -/
example : normOn (List.range 2) (fun i => if i = 0 then 1 else 0) = 1 ∧ normOn (List.range 2) (fun i => if i = 1 then 1 else 0) = 1 ∧
    |dotOn (List.range 2) (fun i => if i = 0 then 1 else 0) (fun i => if i = 1 then 1 else 0)| ≤ 9995 / 10000 := by
  refine ⟨?_, ?_, ?_⟩
  · norm_num [normOn, dotOn, List.range_succ]
  · norm_num [normOn, dotOn, List.range_succ]
  · norm_num [dotOn, List.range_succ]

/-! ## C69 -/

/-- The angle NuSLERP works with on a line (specification). -/
noncomputable def angleOn (L : List Nat) (v0 v1 : Nat → ℝ) : ℝ :=
  Real.arccos (max (-1) (min 1 (dotOn L v0 v1 / (max (normOn L v0) (1 / 10000000) * max (normOn L v1) (1 / 10000000)))))

theorem nuslerp_angle (L : List Nat) (v0 v1 : Nat → ℝ) :
    Real.arccos (clamp (-1) 1 (dotOn L (fun j => v0 j / max (normOn L v0) (1 / 10000000)) (fun j => v1 j / max (normOn L v1) (1 / 10000000)))) =
      angleOn L v0 v1 := by
  unfold angleOn clamp
  have h : dotOn L (fun j => v0 j / max (normOn L v0) (1 / 10000000)) (fun j => v1 j / max (normOn L v1) (1 / 10000000)) =
      dotOn L v0 v1 / (max (normOn L v0) (1 / 10000000) * max (normOn L v1) (1 / 10000000)) := by
    have := dotOn_scale L (1 / max (normOn L v0) (1 / 10000000)) (1 / max (normOn L v1) (1 / 10000000)) v0 v1
    simp only [one_div, inv_mul_eq_div] at this ⊢
    rw [this]
    field_simp
  rw [h]
  generalize dotOn L v0 v1 / (max (normOn L v0) (1 / 10000000) * max (normOn L v1) (1 / 10000000)) = d
  congr 1
  rcases le_total d 1 with h1 | h1 <;> rcases le_total d (-1) with h2 | h2
  · rw [max_eq_right h2, min_eq_right h1, max_eq_left h2, min_eq_left (by norm_num)]
  · rw [max_eq_left h2, min_eq_right h1, max_eq_right h2, min_eq_left h1]
  · linarith
  · rw [max_eq_left h2, min_eq_left h1, min_eq_right h1, max_eq_right (by norm_num)]

theorem nuslerpAt_eq (L : List Nat) (t : ℝ) (v0 v1 : Nat → ℝ) (i : Nat) :
    nuslerpAt L t v0 v1 i = if |Real.sin (angleOn L v0 v1)| < 1 / 100000000 then (1 - t) * v0 i + t * v1 i
      else (Real.sin ((1 - t) * angleOn L v0 v1) * v0 i + Real.sin (t * angleOn L v0 v1) * v1 i) / Real.sin (angleOn L v0 v1) := by
  unfold nuslerpAt
  simp only
  rw [nuslerp_angle]

theorem nuslerpAt_ends (L : List Nat) (v0 v1 : Nat → ℝ) (i : Nat) : nuslerpAt L 0 v0 v1 i = v0 i ∧ nuslerpAt L 1 v0 v1 i = v1 i := by
  rw [nuslerpAt_eq, nuslerpAt_eq]
  by_cases h : |Real.sin (angleOn L v0 v1)| < 1 / 100000000
  · rw [if_pos h, if_pos h]
    constructor <;> ring
  · rw [if_neg h, if_neg h]
    have hne : Real.sin (angleOn L v0 v1) ≠ 0 := by
      intro h0
      rw [h0] at h
      norm_num at h
    simp only [sub_zero, one_mul, zero_mul, Real.sin_zero, add_zero, sub_self, zero_add]
    constructor <;> field_simp

theorem angleOn_comm (L : List Nat) (v0 v1 : Nat → ℝ) : angleOn L v0 v1 = angleOn L v1 v0 := by
  unfold angleOn
  rw [dotOn_comm, mul_comm (max (normOn L v0) _)]

theorem nuslerpAt_symm (L : List Nat) (t : ℝ) (v0 v1 : Nat → ℝ) (i : Nat) : nuslerpAt L (1 - t) v1 v0 i = nuslerpAt L t v0 v1 i := by
  rw [nuslerpAt_eq, nuslerpAt_eq, angleOn_comm L v1 v0, sub_sub_cancel]
  by_cases h : |Real.sin (angleOn L v0 v1)| < 1 / 100000000
  · rw [if_pos h, if_pos h]
    ring
  · rw [if_neg h, if_neg h]
    ring

section
variable {M : Type} [DecidableEq M]

/-- The interpolation parameter: the second weight's share, one half if the weights cancel (specification). -/
noncomputable def share (w0 w1 : ℝ) : ℝ := if |w0 + w1| < 1 / 1000000 then 1 / 2 else w1 / (w0 + w1)

theorem share_symm (w0 w1 : ℝ) : share w1 w0 = 1 - share w0 w1 := by
  unfold share
  rw [add_comm w1 w0]
  by_cases h : |w0 + w1| < 1 / 1000000
  · rw [if_pos h, if_pos h]
    norm_num
  · rw [if_neg h, if_neg h]
    have hne : w0 + w1 ≠ 0 := by
      intro h0
      rw [h0] at h
      norm_num at h
    field_simp
    ring

/-- What two tensors are merged to: each position from the angle between the lines through it (specification). -/
noncomputable def interpolated (flatten rowWise : Bool) (shape : List Nat) (t : ℝ) (x y : Nat → ℝ) (i : Nat) : ℝ :=
  let L := nuslerpLine flatten rowWise shape i
  let θ := angleOn L x y
  if |Real.sin θ| < 1 / 100000000 then (1 - t) * x i + t * y i
  else (Real.sin ((1 - t) * θ) * x i + Real.sin (t * θ) * y i) / Real.sin θ

/-- **C69** Two models are interpolated with the second one's share of the weights as parameter. -/
theorem C69_two_models (isEmbed flatten rowWise : Bool) (weight : M → ℝ) (m0 m1 : M) (x y : Tensor ℝ) (hs : x.shape = y.shape) :
    ∃ r, nuslerpTask isEmbed flatten rowWise none weight [(m0, x), (m1, y)] = .ok r ∧ r.shape = x.shape ∧
      ∀ i, r.get i = interpolated flatten rowWise x.shape (share (weight m0) (weight m1)) x.get y.get i := by
  have hr : rectify isEmbed [x, y] = [x, y] := rectify_oneShape isEmbed [x, y] x.shape (by simp [hs])
  simp only [nuslerpTask, hr]
  rw [if_pos hs]
  refine ⟨_, rfl, rfl, fun i => ?_⟩
  simp only [nuslerpAt_eq]
  rfl

/-- **C69** With a base model, the differences to it are interpolated and added to it. -/
theorem C69_with_base (isEmbed flatten rowWise : Bool) (weight : M → ℝ) (b m0 m1 : M) (h0 : m0 ≠ b) (h1 : m1 ≠ b)
    (z x y : Tensor ℝ) (hx : x.shape = z.shape) (hy : y.shape = z.shape) (tensors : List (M × Tensor ℝ))
    (ht : tensors = [(b, z), (m0, x), (m1, y)] ∨ tensors = [(m0, x), (b, z), (m1, y)] ∨ tensors = [(m0, x), (m1, y), (b, z)]) :
    ∃ r, nuslerpTask isEmbed flatten rowWise (some b) weight tensors = .ok r ∧ r.shape = z.shape ∧
      ∀ i, r.get i = z.get i + interpolated flatten rowWise z.shape (share (weight m0) (weight m1))
        (fun j => x.get j - z.get j) (fun j => y.get j - z.get j) i := by
  have hr : rectify isEmbed [x, y, z] = [x, y, z] := rectify_oneShape isEmbed [x, y, z] z.shape (by simp [hx, hy])
  rcases ht with rfl | rfl | rfl <;>
  · simp only [nuslerpTask, List.length_cons, List.length_nil, ne_eq, not_true_eq_false, if_false, lookup, List.find?_cons,
      decide_true, Option.map_some, List.filter_cons, h0, h1, decide_false, decide_true, Bool.false_eq_true,
      if_false, if_true, List.filter_nil, hr, not_false_eq_true, zero_add, Nat.reduceAdd]
    rw [if_pos ⟨hx, hy⟩]
    refine ⟨_, rfl, rfl, fun i => ?_⟩
    simp only [nuslerpAt_eq]
    rfl

/-- **C69** Weights of 0 and something give one of the models; the order of the two models does not matter. -/
theorem C69_ends_and_order (isEmbed flatten rowWise : Bool) (weight : M → ℝ) (m0 m1 : M) (x y : Tensor ℝ) (hs : x.shape = y.shape) :
    ∃ r r', nuslerpTask isEmbed flatten rowWise none weight [(m0, x), (m1, y)] = .ok r ∧
      nuslerpTask isEmbed flatten rowWise none weight [(m1, y), (m0, x)] = .ok r' ∧ (∀ i, r.get i = r'.get i) ∧
      (weight m1 = 0 → 1 / 1000000 ≤ |weight m0| → ∀ i, r.get i = x.get i) ∧
      (weight m0 = 0 → 1 / 1000000 ≤ |weight m1| → ∀ i, r.get i = y.get i) := by
  obtain ⟨r, h1, h2, h3⟩ := C69_two_models isEmbed flatten rowWise weight m0 m1 x y hs
  obtain ⟨r', h1', h2', h3'⟩ := C69_two_models isEmbed flatten rowWise weight m1 m0 y x hs.symm
  refine ⟨r, r', h1, h1', ?_, ?_, ?_⟩
  · intro i
    rw [h3, h3', share_symm (weight m0) (weight m1), ← hs]
    have := nuslerpAt_symm (nuslerpLine flatten rowWise x.shape i) (share (weight m0) (weight m1)) x.get y.get i
    rw [nuslerpAt_eq, nuslerpAt_eq] at this
    exact this.symm
  · intro h0 hne i
    have hsh : share (weight m0) (weight m1) = 0 := by
      unfold share
      rw [h0, add_zero, if_neg (not_lt.2 hne), zero_div]
    rw [h3, hsh]
    have := (nuslerpAt_ends (nuslerpLine flatten rowWise x.shape i) x.get y.get i).1
    rw [nuslerpAt_eq] at this
    exact this
  · intro h0 hne i
    have hsh : share (weight m0) (weight m1) = 1 := by
      unfold share
      rw [h0, zero_add, if_neg (not_lt.2 hne), div_self]
      intro hz
      rw [hz] at hne
      norm_num at hne
    rw [h3, hsh]
    have := (nuslerpAt_ends (nuslerpLine flatten rowWise x.shape i) x.get y.get i).2
    rw [nuslerpAt_eq] at this
    exact this

/-- **C69** Other numbers of models are refused, also if the base is one of only two models; a single one is returned as it is. -/
theorem C69_count (isEmbed flatten rowWise : Bool) (weight : M → ℝ) (baseModel : Option M) (tensors : List (M × Tensor ℝ))
    (h1 : tensors.length ≠ 1) :
    (baseModel = none → tensors.length ≠ 2 → nuslerpTask isEmbed flatten rowWise baseModel weight tensors = .error .count) ∧
    (∀ b, baseModel = some b → tensors.length ≠ 3 → nuslerpTask isEmbed flatten rowWise baseModel weight tensors = .error .count) := by
  constructor
  · rintro rfl h2
    match tensors, h1, h2 with
    | [], _, _ => rfl
    | [_], h, _ => simp at h
    | [_, _], _, h => simp at h
    | _ :: _ :: _ :: _, _, _ => rfl
  · rintro b rfl h3
    match tensors, h1, h3 with
    | [], _, _ => rfl
    | [_], h, _ => simp at h
    | [_, _], _, _ => rfl
    | [_, _, _], _, h => simp at h
    | _ :: _ :: _ :: _ :: _, _, _ => simp [nuslerpTask]

end

/-- **C69** Angles are measured over the whole tensor if flattened, otherwise over the last dimension or, row-wise, along the first. -/
theorem C69_lines (shape : List Nat) (rowWise : Bool) (i j : Nat) :
    nuslerpLine true rowWise shape i = List.range shape.prod ∧
    (0 < shape.prod → (nuslerpLine false rowWise shape i).Nodup) ∧
    (0 < shape.getLastD 1 → (j ∈ nuslerpLine false false shape i ↔ j / shape.getLastD 1 = i / shape.getLastD 1)) ∧
    (∀ r rest, shape = r :: rest → 0 < shape.prod →
      (j ∈ nuslerpLine false true shape i ↔ j < shape.prod ∧ j % rest.prod = i % rest.prod)) := by
  refine ⟨rfl, fun hpos => ?_, ?_, ?_⟩
  · unfold nuslerpLine
    cases rowWise
    · simp only [Bool.false_eq_true, if_false]
      exact List.Nodup.map (fun a b h => by simpa using h) List.nodup_range
    · simp only [Bool.false_eq_true, if_false, if_true]
      cases shape with
      | nil => simp
      | cons r rest =>
        simp only [List.headD_cons, List.prod_cons]
        rcases Nat.eq_zero_or_pos r with rfl | hr
        · simp
        · rw [Nat.mul_div_cancel_left _ hr]
          have h : 0 < rest.prod := Nat.pos_of_mul_pos_left (by rwa [List.prod_cons] at hpos)
          exact List.Nodup.map (fun a b hab => by simpa [h.ne'] using hab) List.nodup_range
  · intro hc
    unfold nuslerpLine
    simp only [Bool.false_eq_true, if_false, List.mem_map, List.mem_range]
    generalize shape.getLastD 1 = c at hc
    constructor
    · rintro ⟨k, hk, rfl⟩
      rw [mul_comm, Nat.mul_add_div hc, Nat.div_eq_of_lt hk, add_zero]
    · intro h
      exact ⟨j % c, Nat.mod_lt _ hc, by rw [← h]; exact Nat.div_add_mod' j c⟩
  · rintro r rest rfl hpos
    unfold nuslerpLine
    rw [List.prod_cons] at hpos ⊢
    have hr : 0 < r := Nat.pos_of_mul_pos_right hpos
    have hs : 0 < rest.prod := Nat.pos_of_mul_pos_left hpos
    simp only [Bool.false_eq_true, if_false, if_true, List.headD_cons, List.prod_cons, List.mem_map, List.mem_range,
      Nat.mul_div_cancel_left _ hr]
    generalize rest.prod = s at hs
    constructor
    · rintro ⟨k, hk, rfl⟩
      refine ⟨?_, by simp⟩
      have h1 := Nat.mod_lt i hs
      have h2 : (k + 1) * s ≤ r * s := Nat.mul_le_mul_right _ hk
      rw [Nat.succ_mul] at h2
      omega
    · rintro ⟨h1, h2⟩
      refine ⟨j / s, Nat.div_lt_of_lt_mul (by rwa [mul_comm]), ?_⟩
      rw [← h2, Nat.div_add_mod']

/-- **C69** On lines of unit length that are not parallel the result has unit length. -/
theorem C69_unit (L : List Nat) (t : ℝ) (v0 v1 : Nat → ℝ) (h0 : normOn L v0 = 1) (h1 : normOn L v1 = 1)
    (hd : |dotOn L v0 v1| ≤ 1) (hc : 1 / 100000000 ≤ |Real.sin (Real.arccos (dotOn L v0 v1))|) :
    normOn L (nuslerpAt L t v0 v1) = 1 := by
  have hb := abs_le.1 hd
  have ha : angleOn L v0 v1 = Real.arccos (dotOn L v0 v1) := by
    unfold angleOn
    rw [h0, h1, max_eq_left (show (1 / 10000000 : ℝ) ≤ 1 by norm_num), one_mul, div_one, min_eq_right hb.2, max_eq_right hb.1]
  have e0 : dotOn L v0 v0 = 1 := by rw [← normOn_mul_self, h0, one_mul]
  have e1 : dotOn L v1 v1 = 1 := by rw [← normOn_mul_self, h1, one_mul]
  have hcos : Real.cos (Real.arccos (dotOn L v0 v1)) = dotOn L v0 v1 := Real.cos_arccos hb.1 hb.2
  have hne : Real.sin (Real.arccos (dotOn L v0 v1)) ≠ 0 := by
    intro h
    rw [h] at hc
    norm_num at hc
  have hfun : nuslerpAt L t v0 v1 = fun i =>
      (Real.sin ((1 - t) * Real.arccos (dotOn L v0 v1)) / Real.sin (Real.arccos (dotOn L v0 v1))) * v0 i +
      (Real.sin (t * Real.arccos (dotOn L v0 v1)) / Real.sin (Real.arccos (dotOn L v0 v1))) * v1 i := by
    funext i
    rw [nuslerpAt_eq, ha, if_neg (not_lt.2 hc)]
    ring
  generalize Real.arccos (dotOn L v0 v1) = θ at *
  have hid := slerp_identity θ t
  unfold normOn
  rw [hfun, dotOn_comb, e0, e1, ← hcos]
  have : Real.sin ((1 - t) * θ) / Real.sin θ * (Real.sin ((1 - t) * θ) / Real.sin θ) * 1 +
      (Real.sin ((1 - t) * θ) / Real.sin θ * (Real.sin (t * θ) / Real.sin θ) +
        Real.sin (t * θ) / Real.sin θ * (Real.sin ((1 - t) * θ) / Real.sin θ)) * Real.cos θ +
      Real.sin (t * θ) / Real.sin θ * (Real.sin (t * θ) / Real.sin θ) * 1 = 1 := by
    field_simp
    linarith
  rw [this, Real.sqrt_one]

example : normOn (List.range 2) (fun i => if i = 0 then 1 else 0) = 1 ∧ normOn (List.range 2) (fun i => if i = 1 then 1 else 0) = 1 ∧
    1 / 100000000 ≤ |Real.sin (Real.arccos (dotOn (List.range 2) (fun i => if i = 0 then 1 else 0) (fun i => if i = 1 then 1 else 0)))| := by
  refine ⟨?_, ?_, ?_⟩
  · norm_num [normOn, dotOn, List.range_succ]
  · norm_num [normOn, dotOn, List.range_succ]
  · norm_num [dotOn, List.range_succ, Real.sin_arccos]

end Verif.Sphere
