import Verif.Model.Sphere
import Verif.Props.Stock
import Mathlib.Analysis.Real.Pi.Bounds

/-! # C70, C71: Multi-SLERP and Karcher mean -/

namespace Verif.Sphere

open Verif.Tensor Verif.Merge

theorem dotOn_sum_left {A : Type} (L : List Nat) (l : List A) (f : A → Nat → ℝ) (w : A → ℝ) (y : Nat → ℝ) :
    dotOn L (fun i => (l.map (fun e => f e i * w e)).sum) y = (l.map (fun e => dotOn L (f e) y * w e)).sum := by
  induction l with
  | nil =>
    simp only [List.map_nil, List.sum_nil]
    unfold dotOn
    induction L with
    | nil => simp
    | cons j L ih =>
      simp only [List.map_cons, List.sum_cons, ih]
      ring
  | cons a l ih =>
    simp only [List.map_cons, List.sum_cons]
    rw [← ih]
    unfold dotOn
    clear ih
    induction L with
    | nil => simp
    | cons j L ih =>
      simp only [List.map_cons, List.sum_cons, ih]
      ring

theorem normOn_zero (L : List Nat) : normOn L (fun _ => 0) = 0 := by
  have := dotOn_scale L 0 0 (fun _ => 0) (fun _ => 0)
  simp only [zero_mul] at this
  unfold normOn
  rw [this, Real.sqrt_zero]

theorem normOn_scale (L : List Nat) (a : ℝ) (x : Nat → ℝ) : normOn L (fun i => a * x i) = |a| * normOn L x := by
  unfold normOn
  rw [dotOn_scale, Real.sqrt_mul (mul_self_nonneg a), Real.sqrt_mul_self_eq_abs]

theorem unit_of_div (L : List Nat) (x : Nat → ℝ) (h : 0 < normOn L x) : normOn L (fun i => x i / normOn L x) = 1 := by
  have := normOn_scale L (1 / normOn L x) x
  simp only [one_div, inv_mul_eq_div] at this
  rw [this, abs_of_pos (inv_pos.2 h)]
  field_simp

theorem pi_gt' : 2 < Real.pi := by linarith [Real.pi_gt_three]

/-! ## C70 -/

/-- The weights Multi-SLERP works with (specification). -/
noncomputable def usedWeight (normalize : Bool) (ts : List (ℝ × (Nat → ℝ))) (w : ℝ) : ℝ :=
  if normalize then w / (ts.map Prod.fst).sum else w

/-- The weighted sum of the directions of the inputs (specification). -/
noncomputable def direction (n : Nat) (eps : ℝ) (normalize : Bool) (ts : List (ℝ × (Nat → ℝ))) (i : Nat) : ℝ :=
  (ts.map (fun e => e.2 i / (normOn (List.range n) e.2 + eps) * usedWeight normalize ts e.1)).sum

/-- The weighted mean of the lengths of the inputs (specification). -/
noncomputable def meanLength (n : Nat) (normalize : Bool) (ts : List (ℝ × (Nat → ℝ))) : ℝ :=
  (ts.map (fun e => normOn (List.range n) e.2 * usedWeight normalize ts e.1)).sum

/-- **C70** The result is the normalised weighted sum of the directions, times the weighted mean of the lengths and the cosine of `eps`: the
corrections in the tangent space cancel. -/
theorem C70_result (n : Nat) (eps : ℝ) (normalize : Bool) (heps : 0 < eps) (ts : List (ℝ × (Nat → ℝ))) (h2 : 2 ≤ ts.length)
    (hw : normalize = true → (ts.map Prod.fst).sum ≠ 0) (hd : eps ≤ normOn (List.range n) (direction n eps normalize ts)) :
    ∃ r, multislerp n none normalize eps ts = .ok r ∧
      ∀ i, r i = Real.cos eps * meanLength n normalize ts * (direction n eps normalize ts i / normOn (List.range n) (direction n eps normalize ts)) := by
  match ts, h2 with
  | a :: b :: rest, _ =>
    generalize hts : a :: b :: rest = ts at *
    have hstep : multislerp n none normalize eps ts =
        (if normalize = true ∧ (ts.map Prod.fst).sum = 0 then .error .nonFinite
        else
          let L := List.range n
          let xs : List (ℝ × (Nat → ℝ)) := ts.map (fun e => (if normalize then e.1 / (ts.map Prod.fst).sum else e.1, e.2))
          let unit := fun (x : Nat → ℝ) (i : Nat) => x i / (normOn L x + eps)
          let mean0 := fun i => (xs.map (fun e => unit e.2 i * e.1)).sum
          if normOn L mean0 < eps then
            match xs with
            | [a, b] => .ok (fun i => a.2 i * a.1 + b.2 i * b.1)
            | _ => .error .value
          else
            let mean := fun i => mean0 i / normOn L mean0
            let tangent := fun (x : Nat → ℝ) (i : Nat) => unit x i - dotOn L (unit x) mean * mean i
            let tangentResult := fun i => (xs.map (fun e => tangent e.2 i * e.1)).sum
            let tangentNorm := normOn L tangentResult + eps
            let avgNorm := (xs.map (fun e => normOn L e.2 * e.1)).sum
            .ok (fun i => (mean i * Real.cos tangentNorm + tangentResult i * (Real.sin tangentNorm / tangentNorm)) * avgNorm)) := by
      rw [← hts]
      rfl
    rw [hstep, if_neg (fun h => hw h.1 h.2)]
    have hm0 : (fun i => ((ts.map (fun e => (if normalize then e.1 / (ts.map Prod.fst).sum else e.1, e.2))).map
        (fun e : ℝ × (Nat → ℝ) => e.2 i / (normOn (List.range n) e.2 + eps) * e.1)).sum) = direction n eps normalize ts := by
      funext i
      rw [List.map_map]
      rfl
    simp only [hm0]
    rw [if_neg (not_lt.2 hd)]
    set D := direction n eps normalize ts with hD
    have hDpos : 0 < normOn (List.range n) D := by linarith
    have hnD : dotOn (List.range n) D (fun i => D i / normOn (List.range n) D) = normOn (List.range n) D := by
      have := dotOn_scale (List.range n) 1 (1 / normOn (List.range n) D) D D
      simp only [one_mul, one_div, inv_mul_eq_div] at this
      rw [this, ← normOn_mul_self]
      field_simp
    have htan : (fun i => ((ts.map (fun e => (if normalize then e.1 / (ts.map Prod.fst).sum else e.1, e.2))).map
        (fun e : ℝ × (Nat → ℝ) => (e.2 i / (normOn (List.range n) e.2 + eps) -
          dotOn (List.range n) (fun i => e.2 i / (normOn (List.range n) e.2 + eps)) (fun i => D i / normOn (List.range n) D) *
            (D i / normOn (List.range n) D)) * e.1)).sum) = fun _ => 0 := by
      funext i
      rw [List.map_map]
      have e1 : ∀ l : List (ℝ × (Nat → ℝ)), (l.map ((fun e : ℝ × (Nat → ℝ) => (e.2 i / (normOn (List.range n) e.2 + eps) -
          dotOn (List.range n) (fun i => e.2 i / (normOn (List.range n) e.2 + eps)) (fun i => D i / normOn (List.range n) D) *
            (D i / normOn (List.range n) D)) * e.1) ∘ (fun e => (if normalize then e.1 / (ts.map Prod.fst).sum else e.1, e.2)))).sum =
          (l.map (fun e => e.2 i / (normOn (List.range n) e.2 + eps) * usedWeight normalize ts e.1)).sum -
          (l.map (fun e => dotOn (List.range n) (fun i => e.2 i / (normOn (List.range n) e.2 + eps)) (fun i => D i / normOn (List.range n) D) *
            usedWeight normalize ts e.1)).sum * (D i / normOn (List.range n) D) := by
        intro l
        induction l with
        | nil => simp
        | cons e l ih =>
          simp only [List.map_cons, List.sum_cons, ih, Function.comp]
          unfold usedWeight
          ring
      rw [e1, ← dotOn_sum_left (List.range n) ts (fun e i => e.2 i / (normOn (List.range n) e.2 + eps)) (fun e => usedWeight normalize ts e.1)]
      change D i - dotOn (List.range n) D (fun i => D i / normOn (List.range n) D) * (D i / normOn (List.range n) D) = 0
      rw [hnD]
      field_simp
      ring
    refine ⟨_, rfl, fun i => ?_⟩
    have hp := fun i => congrFun hm0 i
    have hq := fun i => congrFun htan i
    simp only [hp, hq]
    rw [normOn_zero, zero_add, zero_mul, add_zero]
    have hlen : ((ts.map (fun e => (if normalize then e.1 / (ts.map Prod.fst).sum else e.1, e.2))).map
        (fun e : ℝ × (Nat → ℝ) => normOn (List.range n) e.2 * e.1)).sum = meanLength n normalize ts := by
      rw [List.map_map]
      rfl
    rw [hlen]
    ring

/-- **C70** The length of the result is the weighted mean of the lengths, up to the cosine of `eps`. -/
theorem C70_length (n : Nat) (eps : ℝ) (normalize : Bool) (heps : 0 < eps) (ts : List (ℝ × (Nat → ℝ))) (h2 : 2 ≤ ts.length)
    (hw : normalize = true → (ts.map Prod.fst).sum ≠ 0) (hd : eps ≤ normOn (List.range n) (direction n eps normalize ts)) :
    ∃ r, multislerp n none normalize eps ts = .ok r ∧ normOn (List.range n) r = |Real.cos eps * meanLength n normalize ts| := by
  obtain ⟨r, h, hr⟩ := C70_result n eps normalize heps ts h2 hw hd
  refine ⟨r, h, ?_⟩
  rw [funext hr, normOn_scale, unit_of_div _ _ (by linarith), mul_one]

/-- **C70** With a base the result is the base plus the result for the differences to it. -/
theorem C70_base (n : Nat) (eps : ℝ) (normalize : Bool) (base : Nat → ℝ) (ts : List (ℝ × (Nat → ℝ))) (h2 : 2 ≤ ts.length) :
    multislerp n (some base) normalize eps ts =
      (multislerp n none normalize eps (ts.map (fun e => (e.1, fun i => e.2 i - base i)))).map (fun r i => r i + base i) := by
  match ts, h2 with
  | [a, b], _ =>
    simp only [multislerp, List.map_cons, List.map_nil, List.sum_cons, List.sum_nil]
    by_cases h : normalize = true ∧ a.1 + (b.1 + 0) = 0
    · rw [if_pos h, if_pos h]
      rfl
    · rw [if_neg h, if_neg h]
      generalize (if normalize = true then a.1 / (a.1 + (b.1 + 0)) else a.1) = wa
      generalize (if normalize = true then b.1 / (a.1 + (b.1 + 0)) else b.1) = wb
      split
      · rfl
      · rfl
  | a :: b :: c :: rest, _ =>
    cases normalize
    · simp only [multislerp, List.map_cons, List.sum_cons, List.map_map, Function.comp_def, Bool.false_eq_true, false_and, if_false]
      split
      · rfl
      · rfl
    · simp only [multislerp, List.map_cons, List.sum_cons, List.map_map, Function.comp_def, true_and, if_true]
      split
      · rfl
      · split
        · rfl
        · rfl

/-- **C70** One tensor is returned as it is, none is an error, weights with sum 0 cannot be normalised. -/
theorem C70_inputs (n : Nat) (eps : ℝ) (normalize : Bool) (base : Option (Nat → ℝ)) :
    multislerp n base normalize eps [] = .error .count ∧
    (∀ w x, multislerp n base normalize eps [(w, x)] = .ok x) ∧
    (∀ ts : List (ℝ × (Nat → ℝ)), 2 ≤ ts.length → (ts.map Prod.fst).sum = 0 → multislerp n base true eps ts = .error .nonFinite) := by
  refine ⟨rfl, fun _ _ => rfl, fun ts h2 h => ?_⟩
  match ts, h2 with
  | a :: b :: rest, _ =>
    simp only [List.map_cons, List.sum_cons] at h
    simp [multislerp, h]

/-- **C70** Directions that cancel: two tensors are combined linearly, more are refused. -/
theorem C70_cancelling (n : Nat) (eps : ℝ) (normalize : Bool) (ts : List (ℝ × (Nat → ℝ))) (h2 : 2 ≤ ts.length)
    (hw : normalize = true → (ts.map Prod.fst).sum ≠ 0) (hd : normOn (List.range n) (direction n eps normalize ts) < eps) :
    (2 < ts.length → multislerp n none normalize eps ts = .error .value) ∧
    (∀ a b, ts = [a, b] → ∃ r, multislerp n none normalize eps ts = .ok r ∧
      ∀ i, r i = usedWeight normalize ts a.1 * a.2 i + usedWeight normalize ts b.1 * b.2 i) := by
  have hm0 : (fun i => ((ts.map (fun e => (if normalize then e.1 / (ts.map Prod.fst).sum else e.1, e.2))).map
      (fun e : ℝ × (Nat → ℝ) => e.2 i / (normOn (List.range n) e.2 + eps) * e.1)).sum) = direction n eps normalize ts := by
    funext i
    rw [List.map_map]
    rfl
  rw [← hm0] at hd
  constructor
  · intro h3
    obtain ⟨a, b, c, rest, rfl⟩ : ∃ a b c rest, ts = a :: b :: c :: rest := by
      match ts, h3 with
      | a :: b :: c :: rest, _ => exact ⟨a, b, c, rest, rfl⟩
    simp only [List.map_cons, List.sum_cons] at hd hw
    simp only [multislerp, List.map_cons, List.sum_cons]
    rw [if_neg (fun h => hw h.1 h.2), if_pos hd]
  · rintro a b rfl
    simp only [List.map_cons, List.sum_cons, List.map_nil, List.sum_nil] at hd hw
    simp only [multislerp, List.map_cons, List.sum_cons, List.map_nil, List.sum_nil]
    rw [if_neg (fun h => hw h.1 h.2), if_pos hd]
    refine ⟨_, rfl, fun i => ?_⟩
    simp only [usedWeight, List.map_cons, List.sum_cons, List.map_nil, List.sum_nil]
    ring

/-- The coordinate vectors. -/
noncomputable def axis (k i : Nat) : ℝ := if i = k then 1 else 0

theorem axis_norm (k : Nat) (hk : k < 2) : normOn (List.range 2) (axis k) = 1 := by
  have : k = 0 ∨ k = 1 := by omega
  rcases this with rfl | rfl <;> norm_num [normOn, dotOn, axis, List.range_succ]

/-- **C70** (what the code does not do) For two unit vectors at right angles with weights 2/3 and 1/3 the result is at tangent 1/2 from the first one,
while spherical interpolation with `t = 1/3` is at tangent `1/√3`. -/
theorem C70_not_slerp (eps : ℝ) (h0 : 0 < eps) (h1 : eps < 1 / 10) :
    ∃ r, multislerp 2 none true eps [(2 / 3, axis 0), (1 / 3, axis 1)] = .ok r ∧ 0 < r 0 ∧ r 1 / r 0 = 1 / 2 ∧
      slerp 2 (1 / 3) (axis 0) (axis 1) 1 / slerp 2 (1 / 3) (axis 0) (axis 1) 0 = 1 / Real.sqrt 3 := by
  have hdir : ∀ i, direction 2 eps true [(2 / 3, axis 0), (1 / 3, axis 1)] i = (2 * axis 0 i + axis 1 i) / (3 * (1 + eps)) := by
    intro i
    simp only [direction, usedWeight, List.map_cons, List.map_nil, List.sum_cons, List.sum_nil, axis_norm 0 (by norm_num), axis_norm 1 (by norm_num)]
    norm_num
    field_simp
  have hnd : normOn (List.range 2) (direction 2 eps true [(2 / 3, axis 0), (1 / 3, axis 1)]) = Real.sqrt 5 / (3 * (1 + eps)) := by
    rw [funext hdir]
    have := normOn_scale (List.range 2) (1 / (3 * (1 + eps))) (fun i => 2 * axis 0 i + axis 1 i)
    simp only [one_div, inv_mul_eq_div] at this
    rw [this, abs_of_pos (by positivity)]
    have h5 : normOn (List.range 2) (fun i => 2 * axis 0 i + axis 1 i) = Real.sqrt 5 := by
      unfold normOn
      congr 1
      norm_num [dotOn, axis, List.range_succ]
    rw [h5]
    field_simp
  have hs5 : 2 < Real.sqrt 5 := by
    rw [Real.lt_sqrt (by norm_num)]
    norm_num
  obtain ⟨r, hr, hv⟩ := C70_result 2 eps true h0 [(2 / 3, axis 0), (1 / 3, axis 1)] (by simp) (by norm_num) (by
    rw [hnd, le_div_iff₀ (by positivity)]
    nlinarith)
  have hml : meanLength 2 true [(2 / 3, axis 0), (1 / 3, axis 1)] = 1 := by
    simp only [meanLength, usedWeight, List.map_cons, List.map_nil, List.sum_cons, List.sum_nil, axis_norm 0 (by norm_num), axis_norm 1 (by norm_num)]
    norm_num
  have hcos : 0 < Real.cos eps := Real.cos_pos_of_mem_Ioo ⟨by linarith [pi_gt'], by linarith [pi_gt']⟩
  have r0 : r 0 = Real.cos eps * (2 / Real.sqrt 5) := by
    rw [hv, hml, hnd, hdir]
    norm_num [axis]
    left
    field_simp
  have r1 : r 1 = Real.cos eps * (1 / Real.sqrt 5) := by
    rw [hv, hml, hnd, hdir]
    norm_num [axis]
    left
    field_simp
  refine ⟨r, hr, ?_, ?_, ?_⟩
  · rw [r0]
    positivity
  · rw [r0, r1]
    field_simp
  · have hdot : dotOn (List.range 2) (axis 0) (axis 1) = 0 := by norm_num [dotOn, axis, List.range_succ]
    have hc : cosine 2 (axis 0) (axis 1) = 0 := by
      unfold cosine
      rw [hdot, mul_zero]
    obtain ⟨_, hf⟩ := (C34_formula 2 (1 / 3) (axis 0) (axis 1)).2 (by rw [hc]; norm_num)
    rw [hf, hf, hc, Real.arccos_zero, Real.sin_pi_div_two]
    rw [show (1 - 1 / 3) * (Real.pi / 2) = Real.pi / 3 by ring, show 1 / 3 * (Real.pi / 2) = Real.pi / 6 by ring,
      Real.sin_pi_div_three, Real.sin_pi_div_six]
    norm_num [axis]
    field_simp

/-! ## C71 -/

/-- What one input adds to the tangent vector (specification): nothing when it is at the estimate already. -/
noncomputable def pull (L : List Nat) (tol : ℝ) (u : Nat → ℝ) (e : ℝ × (Nat → ℝ)) (i : Nat) : ℝ :=
  let d := clamp (-1) 1 (dotOn L u e.2)
  if Real.arccos d < tol then 0 else e.1 * (Real.arccos d / Real.sin (Real.arccos d)) * (e.2 i - d * u i)

/-- An input whose angle has no sine though it is not at the estimate. -/
def Opposed (L : List Nat) (tol : ℝ) (u : Nat → ℝ) (e : ℝ × (Nat → ℝ)) : Prop :=
  tol ≤ Real.arccos (clamp (-1) 1 (dotOn L u e.2)) ∧ Real.sin (Real.arccos (clamp (-1) 1 (dotOn L u e.2))) = 0

theorem karcherTangent_ok (L : List Nat) (tol : ℝ) (u : Nat → ℝ) (l : List (ℝ × (Nat → ℝ))) :
    ((∀ e ∈ l, ¬Opposed L tol u e) → karcherTangent L tol u l = .ok (fun i => (l.map (fun e => pull L tol u e i)).sum)) ∧
    ((∃ e ∈ l, Opposed L tol u e) → karcherTangent L tol u l = .error .nonFinite) := by
  induction l with
  | nil => exact ⟨fun _ => rfl, fun ⟨e, he, _⟩ => by cases he⟩
  | cons e l ih =>
    constructor
    · intro h
      have h1 := ih.1 (fun e' he' => h e' (List.mem_cons_of_mem _ he'))
      have h2 := h e (List.mem_cons_self ..)
      unfold Opposed at h2
      obtain ⟨a, x⟩ := e
      simp only [karcherTangent, h1]
      by_cases ht : Real.arccos (clamp (-1) 1 (dotOn L u x)) < tol
      · rw [if_pos ht]
        congr 1
        funext i
        simp only [List.map_cons, List.sum_cons, pull]
        rw [if_pos ht, zero_add]
      · rw [if_neg ht, if_neg (fun hs => h2 ⟨not_lt.1 ht, hs⟩)]
        congr 1
        funext i
        simp only [List.map_cons, List.sum_cons, pull]
        rw [if_neg ht]
    · rintro ⟨e', he', h⟩
      obtain ⟨a, x⟩ := e
      by_cases hl : ∃ e ∈ l, Opposed L tol u e
      · simp only [karcherTangent, ih.2 hl]
      · have h1 := ih.1 (fun e'' he'' ho => hl ⟨e'', he'', ho⟩)
        have he : e' = (a, x) := by
          rcases List.mem_cons.1 he' with h' | h'
          · exact h'
          · exact absurd ⟨e', h', h⟩ hl
        subst he
        simp only [karcherTangent, h1]
        rw [if_neg (not_lt.2 h.1), if_pos h.2]

theorem unit_dot_bounds (L : List Nat) (u x : Nat → ℝ) (hu : dotOn L u u = 1) (hx : dotOn L x x = 1) :
    -1 ≤ dotOn L u x ∧ dotOn L u x ≤ 1 := by
  have h1 := dotOn_self_nonneg L (fun i => 1 * u i + (-1) * x i)
  have h2 := dotOn_self_nonneg L (fun i => 1 * u i + 1 * x i)
  rw [dotOn_comb, hu, hx] at h1 h2
  constructor <;> linarith

theorem clamp_id (d : ℝ) (h : -1 ≤ d ∧ d ≤ 1) : clamp (-1) 1 d = d := by
  rw [clamp_eq, min_eq_right h.2, max_eq_right h.1]

theorem pull_orthogonal (L : List Nat) (tol : ℝ) (u : Nat → ℝ) (hu : dotOn L u u = 1) (e : ℝ × (Nat → ℝ)) (he : dotOn L e.2 e.2 = 1) :
    dotOn L (pull L tol u e) u = 0 := by
  have hb := unit_dot_bounds L u e.2 hu he
  by_cases ht : Real.arccos (clamp (-1) 1 (dotOn L u e.2)) < tol
  · have : pull L tol u e = fun i => (0 : ℝ) * u i + 0 * u i := by
      funext i
      simp only [pull]
      rw [if_pos ht]
      ring
    rw [this]
    have h := dotOn_scale L 0 1 u u
    simp only [zero_mul, add_zero, one_mul] at h ⊢
    exact h
  · set d := dotOn L u e.2 with hd
    have hcl := clamp_id d hb
    have : pull L tol u e = fun i => (e.1 * (Real.arccos d / Real.sin (Real.arccos d)) * (-d)) * u i +
        (e.1 * (Real.arccos d / Real.sin (Real.arccos d))) * e.2 i := by
      funext i
      simp only [pull]
      rw [if_neg ht, ← hd, hcl]
      ring
    have hu' : u = fun i => (1 : ℝ) * u i + 0 * e.2 i := by
      funext i
      ring
    rw [this]
    conv_lhs => rw [hu']
    have := dotOn_comb L (e.1 * (Real.arccos d / Real.sin (Real.arccos d)) * (-d)) (e.1 * (Real.arccos d / Real.sin (Real.arccos d))) 1 0 u e.2
    rw [← hu'] at this ⊢
    rw [this, hu, ← hd]
    ring

theorem tangent_orthogonal (L : List Nat) (tol : ℝ) (u : Nat → ℝ) (hu : dotOn L u u = 1) (l : List (ℝ × (Nat → ℝ)))
    (hl : ∀ e ∈ l, dotOn L e.2 e.2 = 1) : dotOn L (fun i => (l.map (fun e => pull L tol u e i)).sum) u = 0 := by
  have h := dotOn_sum_left L l (fun e i => pull L tol u e i) (fun _ => 1) u
  simp only [mul_one] at h
  rw [h]
  have : l.map (fun e => dotOn L (fun i => pull L tol u e i) u) = l.map (fun _ => (0 : ℝ)) :=
    List.map_congr_left (fun e he => pull_orthogonal L tol u hu e (hl e he))
  rw [this]
  simp

/-- The loop keeps the estimate on the unit sphere. -/
theorem karcherLoop_unit (L : List Nat) (tol : ℝ) (h0 : 0 < tol) (h1 : tol < 1) (units : List (ℝ × (Nat → ℝ)))
    (hl : ∀ e ∈ units, dotOn L e.2 e.2 = 1) (k : Nat) (u v : Nat → ℝ) (hu : dotOn L u u = 1)
    (h : karcherLoop L tol units k u = .ok v) : dotOn L v v = 1 := by
  induction k generalizing u with
  | zero =>
    simp only [karcherLoop, Except.ok.injEq] at h
    rw [← h]
    exact hu
  | succ k ih =>
    simp only [karcherLoop] at h
    by_cases ho : ∃ e ∈ units, Opposed L tol u e
    · rw [(karcherTangent_ok L tol u units).2 ho] at h
      cases h
    · have ht := (karcherTangent_ok L tol u units).1 (fun e he hoe => ho ⟨e, he, hoe⟩)
      rw [ht] at h
      simp only at h
      have horth := tangent_orthogonal L tol u hu units hl
      set T : Nat → ℝ := fun i => (units.map (fun e => pull L tol u e i)).sum with hT
      split at h
      · simp only [Except.ok.injEq] at h
        rw [← h]
        exact hu
      · rename_i hge
        have hpos : 0 < normOn L T := by
          have := not_lt.1 hge
          linarith
        have hfun : (fun i => Real.cos (normOn L T) * u i + Real.sin (normOn L T) * (T i / normOn L T)) =
            fun i => Real.cos (normOn L T) * u i + (Real.sin (normOn L T) / normOn L T) * T i := by
          funext i
          ring
        have hnew : dotOn L (fun i => Real.cos (normOn L T) * u i + Real.sin (normOn L T) * (T i / normOn L T))
            (fun i => Real.cos (normOn L T) * u i + Real.sin (normOn L T) * (T i / normOn L T)) = 1 := by
          rw [hfun, dotOn_comb, hu, dotOn_comm L u T, horth, ← normOn_mul_self L T]
          have h3 := Real.sin_sq_add_cos_sq (normOn L T)
          have h4 : Real.sin (normOn L T) / normOn L T * (Real.sin (normOn L T) / normOn L T) * (normOn L T * normOn L T) = Real.sin (normOn L T) ^ 2 := by
            field_simp
          rw [h4]
          linarith
        have hn1 : normOn L (fun i => Real.cos (normOn L T) * u i + Real.sin (normOn L T) * (T i / normOn L T)) = 1 := by
          unfold normOn at hnew ⊢
          rw [hnew, Real.sqrt_one]
        rw [hn1, if_pos h1] at h
        simp only [div_one] at h
        exact ih _ hnew h

/-- The starting point of the iteration is on the unit sphere. -/
theorem normalized_self (L : List Nat) (x : Nat → ℝ) (h : 0 < normOn L x) :
    dotOn L (fun i => x i / normOn L x) (fun i => x i / normOn L x) = 1 := by
  have := unit_of_div L x h
  rw [← normOn_mul_self, this, one_mul]

theorem karcherMerge_two (n maxIter : Nat) (tol : ℝ) (ts : List (ℝ × (Nat → ℝ))) (h2 : 2 ≤ ts.length) :
    karcherMerge n maxIter tol ts = karcherValid (List.range n) maxIter tol
      (ts.map (fun e => e.1 * normOn (List.range n) e.2)).sum (ts.filter (fun e => decide (normOn (List.range n) e.2 > tol))) := by
  match ts, h2 with
  | a :: b :: rest, _ => rfl

/-- **C71** Whenever the iteration succeeds and some input is not negligible, the result has the weighted mean of the inputs' lengths as length. -/
theorem C71_length (n maxIter : Nat) (tol : ℝ) (h0 : 0 < tol) (h1 : tol < 1) (ts : List (ℝ × (Nat → ℝ))) (h2 : 2 ≤ ts.length)
    (hv : ∃ e ∈ ts, tol < normOn (List.range n) e.2) (r : Nat → ℝ) (h : karcherMerge n maxIter tol ts = .ok r) :
    normOn (List.range n) r = |(ts.map (fun e => e.1 * normOn (List.range n) e.2)).sum| := by
  rw [karcherMerge_two n maxIter tol ts h2] at h
  cases hf : ts.filter (fun e => decide (normOn (List.range n) e.2 > tol)) with
  | nil =>
    obtain ⟨e, he, hlt⟩ := hv
    have : e ∈ ts.filter (fun e => decide (normOn (List.range n) e.2 > tol)) := List.mem_filter.2 ⟨he, decide_eq_true hlt⟩
    rw [hf] at this
    cases this
  | cons v0 vs =>
    rw [hf] at h
    simp only [karcherValid] at h
    have hvalid : ∀ e ∈ v0 :: vs, tol < normOn (List.range n) e.2 := by
      intro e he
      rw [← hf] at he
      exact of_decide_eq_true (List.mem_filter.1 he).2
    split at h
    · cases h
    · generalize hu : karcherLoop _ _ _ _ _ = lr at h
      cases lr with
      | error e => cases h
      | ok u =>
        simp only [Except.map, Except.ok.injEq] at h
        have hunit := karcherLoop_unit (List.range n) tol h0 h1 _ (by
          intro e he
          obtain ⟨e', he', rfl⟩ := List.mem_map.1 he
          exact normalized_self _ _ (by have := hvalid e' he'; linarith)) maxIter _ u (by
          split
          · exact normalized_self _ _ (by have := hvalid v0 (List.mem_cons_self ..); linarith)
          · rename_i hge
            exact normalized_self _ _ (by have := not_lt.1 hge; linarith)) hu
        rw [← h, normOn_scale]
        have : normOn (List.range n) u = 1 := by
          unfold normOn
          rw [hunit, Real.sqrt_one]
        rw [this, mul_one]

/-- **C71** Negligible inputs only give zeros; a single input is returned as it is. -/
theorem C71_negligible (n maxIter : Nat) (tol : ℝ) :
    (∀ w x, karcherMerge n maxIter tol [(w, x)] = .ok x) ∧
    (∀ ts : List (ℝ × (Nat → ℝ)), 2 ≤ ts.length → (∀ e ∈ ts, normOn (List.range n) e.2 ≤ tol) → karcherMerge n maxIter tol ts = .ok (fun _ => 0)) := by
  refine ⟨fun _ _ => rfl, fun ts h2 h => ?_⟩
  have hf : ts.filter (fun e => decide (normOn (List.range n) e.2 > tol)) = [] := by
    rw [List.filter_eq_nil_iff]
    intro e he hd
    exact absurd (of_decide_eq_true hd) (not_lt.2 (h e he))
  rw [karcherMerge_two n maxIter tol ts h2, hf]
  rfl

/-- **C71** Identical inputs, with weights that sum to one, give the input. -/
theorem C71_identical (n maxIter : Nat) (tol : ℝ) (h0 : 0 < tol) (x : Nat → ℝ) (hx : tol < normOn (List.range n) x) (ws : List ℝ)
    (h2 : 2 ≤ ws.length) (hw : ws.sum = 1) (ht : tol ≤ 1) :
    ∃ r, karcherMerge n maxIter tol (ws.map (fun w => (w, x))) = .ok r ∧ ∀ i, r i = x i := by
  have hf : (ws.map (fun w => (w, x))).filter (fun e => decide (normOn (List.range n) e.2 > tol)) = ws.map (fun w => (w, x)) := by
    rw [List.filter_eq_self]
    intro e he
    obtain ⟨w, _, rfl⟩ := List.mem_map.1 he
    exact decide_eq_true hx
  have hN : 0 < normOn (List.range n) x := by linarith
  set N := normOn (List.range n) x with hNd
  have hself := normalized_self (List.range n) x hN
  have hunit := unit_of_div (List.range n) x hN
  rw [← hNd] at hself hunit
  have key : ∀ us : List (ℝ × (Nat → ℝ)), (∀ e ∈ us, e.2 = fun i => x i / N) →
      ∀ k, karcherLoop (List.range n) tol us k (fun i => x i / N) = .ok (fun i => x i / N) := by
    intro us hus k
    cases k with
    | zero => rfl
    | succ k =>
      have hopp : ∀ e ∈ us, ¬Opposed (List.range n) tol (fun i => x i / N) e := by
        intro e he ho
        have := ho.1
        rw [hus e he, hself, clamp_id 1 (by norm_num), Real.arccos_one] at this
        linarith
      have hT : (fun i => (us.map (fun e => pull (List.range n) tol (fun i => x i / N) e i)).sum) = fun _ => 0 := by
        funext i
        have : us.map (fun e => pull (List.range n) tol (fun i => x i / N) e i) = us.map (fun _ => (0 : ℝ)) := by
          apply List.map_congr_left
          intro e he
          simp only [pull]
          rw [hus e he, hself, clamp_id 1 (by norm_num), Real.arccos_one, if_pos h0]
        rw [this]
        simp
      simp only [karcherLoop, (karcherTangent_ok (List.range n) tol (fun i => x i / N) us).1 hopp]
      rw [hT, normOn_zero, if_pos h0]
  have hsum1 : ((ws.map (fun w => (w, x))).map Prod.fst).sum = 1 := by
    rw [List.map_map]
    simpa [Function.comp_def] using hw
  have hmean : (fun i => (((ws.map (fun w => (w, x))).map (fun e : ℝ × (Nat → ℝ) =>
      (e.1 / ((ws.map (fun w => (w, x))).map Prod.fst).sum, fun i => e.2 i / normOn (List.range n) e.2))).map (fun e => e.1 * e.2 i)).sum) =
      fun i => x i / N := by
    funext i
    rw [hsum1]
    simp only [List.map_map, Function.comp_def, div_one]
    have : ∀ l : List ℝ, (l.map (fun w => w * (x i / N))).sum = l.sum * (x i / N) := by
      intro l
      induction l with
      | nil => simp
      | cons a l ih =>
        simp only [List.map_cons, List.sum_cons, ih]
        ring
    rw [← hNd, this, hw, one_mul]
  have hs : ((ws.map (fun w => (w, x))).map (fun e : ℝ × (Nat → ℝ) => e.1 * normOn (List.range n) e.2)).sum = N := by
    simp only [List.map_map, Function.comp_def]
    have : ∀ l : List ℝ, (l.map (fun w => w * normOn (List.range n) x)).sum = l.sum * normOn (List.range n) x := by
      intro l
      induction l with
      | nil => simp
      | cons a l ih =>
        simp only [List.map_cons, List.sum_cons, ih]
        ring
    rw [this, hw, one_mul]
  refine ⟨fun i => N * (x i / N), ?_, fun i => by field_simp⟩
  rw [karcherMerge_two n maxIter tol _ (by rw [List.length_map]; exact h2), hf, hs]
  cases hl : ws.map (fun w => (w, x)) with
  | nil =>
    rw [List.map_eq_nil_iff] at hl
    rw [hl] at h2
    simp at h2
  | cons v0 vs =>
    have hmem : ∀ e ∈ v0 :: vs, e.2 = x := by
      intro e he
      rw [← hl] at he
      obtain ⟨w, _, rfl⟩ := List.mem_map.1 he
      rfl
    rw [hl] at hsum1 hmean
    simp only [karcherValid]
    rw [if_neg (by rw [hsum1]; norm_num), hmean, hunit, if_neg (not_lt.2 ht)]
    have hp := fun i => congrFun hmean i
    simp only [hp, div_one]
    rw [key ((v0 :: vs).map (fun e => (e.1 / ((v0 :: vs).map Prod.fst).sum, fun i => e.2 i / normOn (List.range n) e.2))) (by
      intro e he
      obtain ⟨e', he', rfl⟩ := List.mem_map.1 he
      simp only [hmem e' he', ← hNd]) maxIter]
    rfl

/-- **C71** (what the code does not do) Two opposite inputs divide by zero. -/
theorem C71_opposite (n maxIter : Nat) (tol : ℝ) (h0 : 0 < tol) (h1 : tol < 1) (x : Nat → ℝ) (hx : tol < normOn (List.range n) x) :
    karcherMerge n (maxIter + 1) tol [(1 / 2, x), (1 / 2, fun i => -1 * x i)] = .error .nonFinite := by
  have hN : 0 < normOn (List.range n) x := by linarith
  have hneg : normOn (List.range n) (fun i => -1 * x i) = normOn (List.range n) x := by
    rw [normOn_scale, abs_neg, abs_one, one_mul]
  set N := normOn (List.range n) x with hNd
  have hself := normalized_self (List.range n) x hN
  rw [← hNd] at hself
  have hneg' : dotOn (List.range n) (fun i => x i / N) (fun i => -1 * x i / N) = -1 := by
    have := dotOn_scale (List.range n) 1 (-1) (fun i => x i / N) (fun i => x i / N)
    simp only [one_mul] at this
    rw [hself, mul_one] at this
    refine Eq.trans ?_ this
    apply dotOn_congr
    · intro j _
      rfl
    · intro j _
      exact mul_div_assoc _ _ _
  unfold karcherMerge
  simp only [karcherValid, List.filter_cons, List.filter_nil, hneg, ← hNd, gt_iff_lt, hx, decide_true, if_true, List.map_cons, List.map_nil, List.sum_cons, List.sum_nil]
  rw [if_neg (by norm_num)]
  have hmean : (fun i => 1 / 2 / (1 / 2 + (1 / 2 + 0)) * (x i / N) + (1 / 2 / (1 / 2 + (1 / 2 + 0)) * (-1 * x i / N) + 0)) = fun _ => (0 : ℝ) := by
    funext i
    ring
  rw [hmean, normOn_zero, if_pos h0]
  have hop : karcherTangent (List.range n) tol (fun i => x i / N)
      [(1 / 2 / (1 / 2 + (1 / 2 + 0)), fun i => x i / N), (1 / 2 / (1 / 2 + (1 / 2 + 0)), fun i => -1 * x i / N)] = .error .nonFinite := by
    apply (karcherTangent_ok _ _ _ _).2
    refine ⟨(1 / 2 / (1 / 2 + (1 / 2 + 0)), fun i => -1 * x i / N), by simp, ?_, ?_⟩
    · simp only
      rw [hneg', clamp_id (-1) (by norm_num), Real.arccos_neg_one]
      linarith [pi_gt']
    · simp only
      rw [hneg', clamp_id (-1) (by norm_num), Real.arccos_neg_one, Real.sin_pi]
  simp only [karcherLoop, hop]
  rfl

theorem karcherTangent_perm (L : List Nat) (tol : ℝ) (u : Nat → ℝ) (l l' : List (ℝ × (Nat → ℝ))) (h : l.Perm l') :
    karcherTangent L tol u l = karcherTangent L tol u l' := by
  by_cases ho : ∃ e ∈ l, Opposed L tol u e
  · rw [(karcherTangent_ok L tol u l).2 ho, (karcherTangent_ok L tol u l').2]
    obtain ⟨e, he, h'⟩ := ho
    exact ⟨e, h.mem_iff.1 he, h'⟩
  · rw [(karcherTangent_ok L tol u l).1 (fun e he h' => ho ⟨e, he, h'⟩),
      (karcherTangent_ok L tol u l').1 (fun e he h' => ho ⟨e, h.mem_iff.2 he, h'⟩)]
    congr 1
    funext i
    exact (h.map _).sum_eq

theorem karcherLoop_perm (L : List Nat) (tol : ℝ) (l l' : List (ℝ × (Nat → ℝ))) (h : l.Perm l') (k : Nat) (u : Nat → ℝ) :
    karcherLoop L tol l k u = karcherLoop L tol l' k u := by
  induction k generalizing u with
  | zero => rfl
  | succ k ih =>
    simp only [karcherLoop]
    rw [karcherTangent_perm L tol u l l' h]
    simp only [ih]

/-- The weighted mean of the directions of the inputs that are not negligible (specification). -/
noncomputable def meanDirection (n : Nat) (tol : ℝ) (ts : List (ℝ × (Nat → ℝ))) (i : Nat) : ℝ :=
  let valid := ts.filter (fun e => decide (tol < normOn (List.range n) e.2))
  (valid.map (fun e => e.1 / (valid.map Prod.fst).sum * (e.2 i / normOn (List.range n) e.2))).sum

/-- **C71** The order of the inputs does not matter, unless their directions cancel. -/
theorem C71_order (n maxIter : Nat) (tol : ℝ) (ts ts' : List (ℝ × (Nat → ℝ))) (h : ts.Perm ts') (h2 : 2 ≤ ts.length)
    (hd : tol ≤ normOn (List.range n) (meanDirection n tol ts)) :
    karcherMerge n maxIter tol ts = karcherMerge n maxIter tol ts' := by
  rw [karcherMerge_two n maxIter tol ts h2, karcherMerge_two n maxIter tol ts' (by rw [← h.length_eq]; exact h2)]
  have hf := h.filter (fun e => decide (normOn (List.range n) e.2 > tol))
  have hs := (h.map (fun e : ℝ × (Nat → ℝ) => e.1 * normOn (List.range n) e.2)).sum_eq
  rw [hs]
  have hmd : meanDirection n tol ts = fun i => ((ts.filter (fun e => decide (normOn (List.range n) e.2 > tol))).map
      (fun e => e.1 / ((ts.filter (fun e => decide (normOn (List.range n) e.2 > tol))).map Prod.fst).sum *
        (e.2 i / normOn (List.range n) e.2))).sum := rfl
  rw [hmd] at hd
  generalize ts.filter (fun e => decide (normOn (List.range n) e.2 > tol)) = v at hf hd ⊢
  generalize ts'.filter (fun e => decide (normOn (List.range n) e.2 > tol)) = v' at hf ⊢
  cases v with
  | nil =>
    have := hf.length_eq
    cases v' with
    | nil => rfl
    | cons => simp at this
  | cons a v =>
    cases v' with
    | nil =>
      have := hf.length_eq
      simp at this
    | cons a' v' =>
      have hw := (hf.map Prod.fst).sum_eq
      have hmean : ∀ i, (((a' :: v').map (fun e => (e.1 / ((a' :: v').map Prod.fst).sum, fun i => e.2 i / normOn (List.range n) e.2))).map
          (fun e : ℝ × (Nat → ℝ) => e.1 * e.2 i)).sum = ((a :: v).map
          (fun e => e.1 / ((a :: v).map Prod.fst).sum * (e.2 i / normOn (List.range n) e.2))).sum := by
        intro i
        rw [← hw, List.map_map]
        exact ((hf.map _).sum_eq).symm
      have hmean' : ∀ i, (((a :: v).map (fun e => (e.1 / ((a :: v).map Prod.fst).sum, fun i => e.2 i / normOn (List.range n) e.2))).map
          (fun e : ℝ × (Nat → ℝ) => e.1 * e.2 i)).sum = ((a :: v).map
          (fun e => e.1 / ((a :: v).map Prod.fst).sum * (e.2 i / normOn (List.range n) e.2))).sum := by
        intro i
        rw [List.map_map]
        rfl
      simp only [karcherValid, hmean, hmean']
      rw [if_neg (not_lt.2 hd), if_neg (not_lt.2 hd), ← hw]
      by_cases h0 : ((a :: v).map Prod.fst).sum = 0
      · rw [if_pos h0, if_pos h0]
      · rw [if_neg h0, if_neg h0]
        rw [karcherLoop_perm (List.range n) tol _ _ (hf.map (fun e : ℝ × (Nat → ℝ) => (e.1 / ((a :: v).map Prod.fst).sum,
          fun i => e.2 i / normOn (List.range n) e.2))) maxIter]

section
variable {M : Type}

/-- **C71** As a merge method: for tensors of one shape the length of the result is the mean of the tensors' lengths. -/
theorem C71_merge (isEmbed : Bool) (maxIter : Nat) (tol : ℝ) (h0 : 0 < tol) (h1 : tol < 1) (tensors : List (M × Tensor ℝ)) (h2 : 2 ≤ tensors.length)
    (shape : List Nat) (hs : ∀ e ∈ tensors, e.2.shape = shape) (hv : ∃ e ∈ tensors, tol < normOn (List.range shape.prod) e.2.get) (r : Tensor ℝ)
    (h : karcherTask isEmbed maxIter tol tensors = .ok r) :
    r.shape = shape ∧ normOn (List.range shape.prod) r.get =
      (tensors.map (fun e => normOn (List.range shape.prod) e.2.get)).sum / (tensors.length : ℝ) := by
  have hrect : ∀ ts : List (Tensor ℝ), karcherRectify isEmbed ts = ts := by
    intro ts
    cases ts with
    | nil => rfl
    | cons t ts =>
      unfold karcherRectify
      simp only
      have : ∀ (l : List (Tensor ℝ)) (acc : List (Tensor ℝ)), l.foldl (fun (state : List (Tensor ℝ)) t' => state) acc = acc := by
        intro l
        induction l with
        | nil => intro acc; rfl
        | cons a l ih => intro acc; exact ih acc
      exact this ts _
  obtain ⟨a, b, rest, rfl⟩ : ∃ a b rest, tensors = a :: b :: rest := by
    match tensors, h2 with
    | a :: b :: rest, _ => exact ⟨a, b, rest, rfl⟩
  simp only [karcherTask, hrect, List.map_cons] at h
  have hall : ((b.2 :: rest.map Prod.snd).all (fun x => decide (x.shape = a.2.shape))) = true := by
    rw [List.all_eq_true]
    intro x hx
    have hsa := hs a (by simp)
    apply decide_eq_true
    rw [hsa]
    rcases List.mem_cons.1 hx with rfl | hx
    · exact hs b (by simp)
    · obtain ⟨e, he, rfl⟩ := List.mem_map.1 hx
      exact hs e (by simp [he])
  rw [hall] at h
  simp only [if_true] at h
  have hn : a.2.numel = shape.prod := by
    unfold Tensor.numel
    rw [hs a (by simp)]
  rw [hn] at h
  split at h
  · cases h
  · rename_i g hg
    simp only [Except.ok.injEq] at h
    subst h
    refine ⟨hs a (by simp), ?_⟩
    set w : ℝ := 1 / ((a.2 :: b.2 :: rest.map Prod.snd).length : ℝ) with hwd
    have hl := C71_length shape.prod maxIter tol h0 h1 _ (by simp) (by
      obtain ⟨e, he, hlt⟩ := hv
      refine ⟨(w, e.2.get), ?_, hlt⟩
      rcases List.mem_cons.1 he with rfl | he
      · exact List.mem_cons_self ..
      · rcases List.mem_cons.1 he with rfl | he
        · exact List.mem_cons_of_mem _ (List.mem_cons_self ..)
        · apply List.mem_cons_of_mem
          apply List.mem_cons_of_mem
          rw [List.map_map]
          exact List.mem_map.2 ⟨e, he, rfl⟩) g hg
    rw [hl]
    have hsum : ∀ l : List (M × Tensor ℝ), ((l.map (fun e => (w, e.2.get))).map (fun e : ℝ × (Nat → ℝ) => e.1 * normOn (List.range shape.prod) e.2)).sum =
        w * (l.map (fun e => normOn (List.range shape.prod) e.2.get)).sum := by
      intro l
      induction l with
      | nil => simp
      | cons e l ih =>
        simp only [List.map_cons, List.sum_cons, ih]
        ring
    have hs2 := hsum (a :: b :: rest)
    rw [show ((w, a.2.get) :: (w, b.2.get) :: (rest.map Prod.snd).map (fun x => (w, x.get))) = (a :: b :: rest).map (fun e => (w, e.2.get)) by
      simp [List.map_map, Function.comp_def]]
    rw [hs2, abs_of_nonneg]
    · rw [hwd]
      simp only [List.length_cons, List.length_map]
      ring
    · apply mul_nonneg (by positivity)
      apply List.sum_nonneg
      intro y hy
      obtain ⟨e, _, rfl⟩ := List.mem_map.1 hy
      exact normOn_nonneg _ _

end

/-- Vectors (3, 4) meet the conditions, with lengths 5. -/
example : (1 / 100000 : ℝ) < normOn (List.range 2) (fun i => if i = 0 then 3 else 4) := by
  have : normOn (List.range 2) (fun i => if i = 0 then 3 else 4) = 5 := by
    unfold normOn dotOn
    norm_num [List.range_succ]
    rw [show (25 : ℝ) = 5 ^ 2 by norm_num, Real.sqrt_sq (by norm_num)]
  rw [this]
  norm_num

end Verif.Sphere
