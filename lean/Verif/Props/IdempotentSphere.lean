import Verif.Props.Idempotent
import Verif.Props.OrderSphere

/-! # C106, C107: copies of one model, models of weight zero (methods with norms and angles) -/

namespace Verif.Sphere

open Verif.Tensor Verif.Merge

/-! ## Lemmas -/

theorem dotOn_div (L : List Nat) (v : Nat → ℝ) (c : ℝ) : dotOn L (fun i => v i / c) (fun i => v i / c) = normOn L v * normOn L v / (c * c) := by
  have := dotOn_scale L (1 / c) (1 / c) v v
  simp only [one_div, inv_mul_eq_div] at this
  rw [this, normOn_mul_self]
  rcases eq_or_ne c 0 with rfl | hc
  · simp
  · field_simp

/-- The factor by which two equal vectors taken for orthogonal ones are lengthened. -/
theorem half_angle (c : ℝ) (h0 : 0 ≤ c) (h1 : c ≤ 1 / 100) : 7 / 5 < 2 * Real.sin (Real.arccos c / 2) / Real.sin (Real.arccos c) := by
  have hcos : Real.cos (Real.arccos c) = c := Real.cos_arccos (by linarith) (by linarith)
  set θ := Real.arccos c with hθ
  have hθ0 : 0 < θ := Real.arccos_pos.2 (by linarith)
  have hθ1 : θ ≤ Real.pi / 2 := Real.arccos_le_pi_div_two.2 h0
  have hpi := Real.pi_pos
  have hs : 0 < Real.sin (θ / 2) := Real.sin_pos_of_pos_of_lt_pi (by linarith) (by linarith)
  have hc : 0 < Real.cos (θ / 2) := Real.cos_pos_of_mem_Ioo ⟨by linarith, by linarith⟩
  have e1 : Real.sin θ = 2 * Real.sin (θ / 2) * Real.cos (θ / 2) := by rw [← Real.sin_two_mul]; ring_nf
  have e2 : c = 2 * Real.cos (θ / 2) ^ 2 - 1 := by rw [← Real.cos_two_mul, ← hcos]; ring_nf
  rw [e1, mul_comm (2 * Real.sin (θ / 2)), ← div_div, div_right_comm, div_self (by positivity), lt_div_iff₀ hc]
  by_contra hh
  push Not at hh
  nlinarith

/-! ## C106, slerp -/

section
variable {M : Type} [DecidableEq M]

theorem slerpTask_same (isEmbed : Bool) (b m : M) (hm : m ≠ b) (t : ℝ) (x : Tensor ℝ) (tensors : List (M × Tensor ℝ))
    (ht : tensors = [(b, x), (m, x)] ∨ tensors = [(m, x), (b, x)]) :
    slerpTask isEmbed b t tensors = .ok ⟨x.shape, slerp x.numel t x.get x.get⟩ := by
  have hr : rectify isEmbed [x, x] = [x, x] := rectify_oneShape isEmbed [x, x] x.shape (by simp)
  rcases ht with rfl | rfl <;> simp [slerpTask, hm, hr]

/-- **C106** Slerp between copies of one model, unless its tensor is tiny without being zero. -/
theorem C106_slerp_partial (isEmbed : Bool) (b m : M) (hm : m ≠ b) (t : ℝ) (x : Tensor ℝ) (tensors : List (M × Tensor ℝ))
    (ht : tensors = [(b, x), (m, x)] ∨ tensors = [(m, x), (b, x)])
    (hx : 1 / 100000000 < normOn (List.range x.numel) x.get ∨ ∀ i < x.numel, x.get i = 0) :
    ∃ r, slerpTask isEmbed b t tensors = .ok r ∧ r.shape = x.shape ∧ ∀ i < x.numel, r.get i = x.get i := by
  refine ⟨_, slerpTask_same isEmbed b m hm t x tensors ht, rfl, fun i hi => ?_⟩
  unfold slerp
  simp only
  rcases hx with hx | hx
  · have hd : dotOn (List.range x.numel) (normalizeEps (List.range x.numel) x.get (1 / 100000000))
        (normalizeEps (List.range x.numel) x.get (1 / 100000000)) = 1 := by
      unfold normalizeEps
      rw [if_pos hx, dotOn_div]
      have : normOn (List.range x.numel) x.get ≠ 0 := by
        intro h0
        rw [h0] at hx
        norm_num at hx
      field_simp
    rw [hd, if_pos (by norm_num)]
    ring
  · split
    · ring
    · simp only [hx i hi, mul_zero, add_zero]

/-- **C106** refuted for slerp: halfway between two copies of a tiny tensor the entries are more than 1.4 times as large. -/
theorem C106_slerp_tiny (isEmbed : Bool) (b m : M) (hm : m ≠ b) (x : Tensor ℝ) (hx : normOn (List.range x.numel) x.get ≤ 1 / 100000000) :
    ∃ r c, slerpTask isEmbed b (1 / 2) [(b, x), (m, x)] = .ok r ∧ 7 / 5 < c ∧ ∀ i, r.get i = c * x.get i := by
  have hn0 := normOn_nonneg (List.range x.numel) x.get
  have hd : dotOn (List.range x.numel) (normalizeEps (List.range x.numel) x.get (1 / 100000000))
      (normalizeEps (List.range x.numel) x.get (1 / 100000000)) = normOn (List.range x.numel) x.get * normOn (List.range x.numel) x.get := by
    unfold normalizeEps
    rw [if_neg (not_lt.2 hx), normOn_mul_self]
  set c := normOn (List.range x.numel) x.get * normOn (List.range x.numel) x.get with hc
  have hc0 : 0 ≤ c := mul_nonneg hn0 hn0
  have hc1 : c ≤ 1 / 100 := by nlinarith
  refine ⟨_, _, slerpTask_same isEmbed b m hm (1 / 2) x _ (Or.inl rfl), half_angle c hc0 hc1, fun i => ?_⟩
  unfold slerp
  simp only
  rw [hd, if_neg (by rw [abs_of_nonneg hc0]; linarith)]
  rw [show Real.arccos c - Real.arccos c * (1 / 2) = Real.arccos c / 2 by ring, show Real.arccos c * (1 / 2) = Real.arccos c / 2 by ring]
  ring

/-! ## C106, nuslerp -/

theorem mem_line (flatten rowWise : Bool) (shape : List Nat) (i : Nat) (hi : i < shape.prod) : i ∈ nuslerpLine flatten rowWise shape i := by
  cases flatten
  · cases rowWise
    · refine ((C69_lines shape false i i).2.2.1 ?_).2 rfl
      by_contra h0
      have h0' : shape.getLastD 1 = 0 := by omega
      rw [List.getLastD_eq_getLast?] at h0'
      cases hl : shape.getLast? with
      | none => rw [hl] at h0'; cases h0'
      | some a =>
        rw [hl] at h0'
        have ha : a = 0 := h0'
        subst ha
        have := List.prod_eq_zero (List.mem_of_getLast? hl)
        omega
    · cases shape with
      | nil =>
        simp only [List.prod_nil] at hi
        have : i = 0 := by omega
        subst this
        simp [nuslerpLine]
      | cons r rest => exact ((C69_lines (r :: rest) true i i).2.2.2 r rest rfl (by omega)).2 ⟨hi, rfl⟩
  · rw [(C69_lines shape rowWise i i).1]
    exact List.mem_range.2 hi

theorem nuslerpAt_same (L : List Nat) (t : ℝ) (v : Nat → ℝ) (i : Nat) (hi : i ∈ L) (h : 1 / 10000000 ≤ normOn L v ∨ ∀ j ∈ L, v j = 0) :
    nuslerpAt L t v v i = v i := by
  unfold nuslerpAt
  simp only
  rcases h with h | h
  · have hn : normOn L v ≠ 0 := by
      intro h0
      rw [h0] at h
      norm_num at h
    have hd : dotOn L (fun j => v j / max (normOn L v) (1 / 10000000)) (fun j => v j / max (normOn L v) (1 / 10000000)) = 1 := by
      rw [dotOn_div, max_eq_left h]
      field_simp
    rw [hd, clamp_eq, min_self, max_eq_right (by norm_num), Real.arccos_one, Real.sin_zero, abs_zero, if_pos (by norm_num)]
    ring
  · rw [h i hi]
    split <;> simp

/-- **C106** NuSlerp of two copies of one model, if every line of its tensor is zero or not tiny. -/
theorem C106_nuslerp_partial (isEmbed flatten rowWise : Bool) (weight : M → ℝ) (m0 m1 : M) (x : Tensor ℝ)
    (hx : ∀ i < x.numel, 1 / 10000000 ≤ normOn (nuslerpLine flatten rowWise x.shape i) x.get ∨ ∀ j ∈ nuslerpLine flatten rowWise x.shape i, x.get j = 0) :
    ∃ r, nuslerpTask isEmbed flatten rowWise none weight [(m0, x), (m1, x)] = .ok r ∧ r.shape = x.shape ∧ ∀ i < x.numel, r.get i = x.get i := by
  have hr : rectify isEmbed [x, x] = [x, x] := rectify_oneShape isEmbed [x, x] x.shape (by simp)
  simp only [nuslerpTask, hr, if_true]
  exact ⟨_, rfl, rfl, fun i hi => nuslerpAt_same _ _ _ i (mem_line flatten rowWise x.shape i hi) (hx i hi)⟩

/-- **C106** NuSlerp of two copies of one model on a base, if every line of the difference is zero or not tiny. -/
theorem C106_nuslerp_base_partial (isEmbed flatten rowWise : Bool) (weight : M → ℝ) (b m0 m1 : M) (h0 : m0 ≠ b) (h1 : m1 ≠ b) (z x : Tensor ℝ)
    (hs : x.shape = z.shape)
    (hx : ∀ i < z.numel, 1 / 10000000 ≤ normOn (nuslerpLine flatten rowWise z.shape i) (fun j => x.get j - z.get j) ∨
      ∀ j ∈ nuslerpLine flatten rowWise z.shape i, x.get j = z.get j) :
    ∃ r, nuslerpTask isEmbed flatten rowWise (some b) weight [(b, z), (m0, x), (m1, x)] = .ok r ∧ r.shape = z.shape ∧
      ∀ i < z.numel, r.get i = x.get i := by
  obtain ⟨r, hr, h2, h3⟩ := C69_with_base isEmbed flatten rowWise weight b m0 m1 h0 h1 z x x hs hs _ (Or.inl rfl)
  refine ⟨r, hr, h2, fun i hi => ?_⟩
  rw [h3]
  have := nuslerpAt_same (nuslerpLine flatten rowWise z.shape i) (share (weight m0) (weight m1)) (fun j => x.get j - z.get j) i
    (mem_line flatten rowWise z.shape i hi) (by
      rcases hx i hi with h | h
      · exact Or.inl h
      · exact Or.inr (fun j hj => by rw [h j hj, sub_self]))
  rw [nuslerpAt_eq] at this
  unfold interpolated
  simp only
  rw [this]
  ring

/-- **C106** refuted for nuslerp: two copies of a tensor of equal weight whose length is at most 1e-8 give entries more than 1.4 times as large. -/
theorem C106_nuslerp_tiny (isEmbed rowWise : Bool) (m0 m1 : M) (x : Tensor ℝ) (hx : normOn (List.range x.numel) x.get ≤ 1 / 100000000) :
    ∃ r c, nuslerpTask isEmbed true rowWise none (fun _ => 1) [(m0, x), (m1, x)] = .ok r ∧ 7 / 5 < c ∧ ∀ i, r.get i = c * x.get i := by
  have hr : rectify isEmbed [x, x] = [x, x] := rectify_oneShape isEmbed [x, x] x.shape (by simp)
  have hn0 := normOn_nonneg (List.range x.numel) x.get
  obtain ⟨c, hc⟩ : ∃ c, c = dotOn (List.range x.numel) (fun j => x.get j / max (normOn (List.range x.numel) x.get) (1 / 10000000))
      (fun j => x.get j / max (normOn (List.range x.numel) x.get) (1 / 10000000)) := ⟨_, rfl⟩
  have hc' : c = normOn (List.range x.numel) x.get * normOn (List.range x.numel) x.get * 100000000000000 := by
    rw [hc, dotOn_div, max_eq_right (by linarith)]
    norm_num
    ring
  have hc0 : 0 ≤ c := by rw [hc']; positivity
  have hc1 : c ≤ 1 / 100 := by rw [hc']; nlinarith
  refine ⟨⟨x.shape, fun i => nuslerpAt (nuslerpLine true rowWise x.shape i) (1 / 2) x.get x.get i⟩, _, ?_, half_angle c hc0 hc1, fun i => ?_⟩
  · simp only [nuslerpTask, hr, if_true]
    rw [if_neg (by norm_num)]
    norm_num
  · have hl : nuslerpLine true rowWise x.shape i = List.range x.numel := (C69_lines x.shape rowWise i i).1
    simp only [hl]
    unfold nuslerpAt
    simp only
    rw [← hc, clamp_eq, min_eq_right (by linarith), max_eq_right (by linarith)]
    have hsin : 1 / 100000000 ≤ |Real.sin (Real.arccos c)| := by
      rw [Real.sin_arccos, abs_of_nonneg (Real.sqrt_nonneg _)]
      apply Real.le_sqrt_of_sq_le
      nlinarith
    rw [if_neg (not_lt.2 hsin)]
    rw [show (1 - 1 / 2) * Real.arccos c = Real.arccos c / 2 by ring, show 1 / 2 * Real.arccos c = Real.arccos c / 2 by ring]
    ring

/-! ## C106, model stock -/

theorem meanCos_same (L : List Nat) (d : Nat → ℝ) (xs : List (Nat → ℝ)) (hx : ∀ x ∈ xs, x = d) (h2 : 2 ≤ xs.length) : meanCos L xs = offsetCos L d d := by
  unfold meanCos
  have e1 : xs.map (fun x => (xs.map (fun y => offsetCos L x y)).sum) = xs.map (fun _ => (xs.length : ℝ) * offsetCos L d d) := by
    refine List.map_congr_left (fun x h => ?_)
    have : xs.map (fun y => offsetCos L x y) = xs.map (fun _ => offsetCos L d d) := List.map_congr_left (fun y hy => by rw [hx x h, hx y hy])
    rw [this]
    simp
  have e2 : xs.map (fun x => offsetCos L x x) = xs.map (fun _ => offsetCos L d d) := List.map_congr_left (fun x h => by rw [hx x h])
  rw [e1, e2]
  simp only [List.map_const', List.sum_replicate, nsmul_eq_mul]
  have hl : (2 : ℝ) ≤ xs.length := by exact_mod_cast h2
  have h1 : (xs.length : ℝ) - 1 ≠ 0 := by linarith
  have h0 : (xs.length : ℝ) ≠ 0 := by linarith
  field_simp

/-- **C106** Model stock of copies of one model: on every line that is unchanged or changed by more than a thousandth, the model; on lines changed by
less, only a fraction of the change. -/
theorem C106_model_stock (isEmbed optional filterWise : Bool) (b : M) (w0 : Tensor ℝ) (tensors : List (M × Tensor ℝ)) (x : Nat → ℝ)
    (hn : (tensors.map Prod.fst).Nodup) (hb : (b, w0) ∈ tensors) (hlen : 3 ≤ tensors.length) (hs : ∀ e ∈ tensors, e.2.shape = w0.shape)
    (hx : ∀ e ∈ tensors, e.1 ≠ b → e.2.get = x) :
    ∃ r, modelStock isEmbed optional filterWise b tensors = .ok (some r) ∧ r.shape = w0.shape ∧ ∀ i < w0.numel,
      (1 / 1000 ≤ normOn (stockLine filterWise w0.shape i) (fun j => x j - w0.get j) → r.get i = x i) ∧
      (x i = w0.get i → r.get i = x i) ∧
      (normOn (stockLine filterWise w0.shape i) (fun j => x j - w0.get j) < 1 / 1000 →
        ∃ f, 0 ≤ f ∧ f < 1 ∧ r.get i = w0.get i + f * (x i - w0.get i)) := by
  have hx' : ∀ w ∈ others b tensors, w.get = x := by
    intro w hw
    unfold others at hw
    obtain ⟨e, he, rfl⟩ := List.mem_map.1 hw
    obtain ⟨he1, he2⟩ := List.mem_filter.1 he
    exact hx e he1 (of_decide_eq_true he2)
  have h2 : 2 ≤ (others b tensors).length := by
    have hlen' : tensors.length ≤ (others b tensors).length + 1 := by
      unfold others
      rw [List.length_map]
      clear hlen hs hb hx hx'
      induction tensors with
      | nil => simp
      | cons e rest ih =>
        simp only [List.map_cons, List.nodup_cons] at hn
        by_cases h : e.1 = b
        · have : rest.filter (fun e => decide (e.1 ≠ b)) = rest := by
            rw [List.filter_eq_self]
            intro e' he'
            apply decide_eq_true
            rintro rfl
            exact hn.1 (by rw [h]; exact List.mem_map_of_mem he')
          rw [List.filter_cons_of_neg (by simp [h]), this, List.length_cons]
        · rw [List.filter_cons_of_pos (by simp [h]), List.length_cons, List.length_cons]
          have := ih hn.2
          omega
    omega
  have hN : (2 : ℝ) ≤ ((others b tensors).length : ℝ) := by exact_mod_cast h2
  have hmc : ∀ i, meanCos (stockLine filterWise w0.shape i) ((others b tensors).map (fun w => fun j => w.get j - w0.get j)) =
      offsetCos (stockLine filterWise w0.shape i) (fun j => x j - w0.get j) (fun j => x j - w0.get j) := by
    intro i
    refine meanCos_same _ _ _ ?_ (by simpa using h2)
    intro y hy
    obtain ⟨w, hw, rfl⟩ := List.mem_map.1 hy
    rw [hx' w hw]
  have hcos : ∀ i, offsetCos (stockLine filterWise w0.shape i) (fun j => x j - w0.get j) (fun j => x j - w0.get j) =
      min 1 (normOn (stockLine filterWise w0.shape i) (fun j => x j - w0.get j) ^ 2 /
        max (normOn (stockLine filterWise w0.shape i) (fun j => x j - w0.get j) ^ 2) (1 / 1000000)) := by
    intro i
    unfold offsetCos
    rw [← normOn_mul_self, ← sq, max_eq_right]
    refine le_trans (by norm_num : (-1 : ℝ) ≤ 0) (le_min (by norm_num) ?_)
    exact div_nonneg (sq_nonneg _) (le_trans (by norm_num) (le_max_right _ _))
  have hc0 : ∀ i, 0 ≤ offsetCos (stockLine filterWise w0.shape i) (fun j => x j - w0.get j) (fun j => x j - w0.get j) := by
    intro i
    rw [hcos]
    exact le_min (by norm_num) (div_nonneg (sq_nonneg _) (le_trans (by norm_num) (le_max_right _ _)))
  obtain ⟨r, h3, h4, h5⟩ := (C42_formula isEmbed optional filterWise b w0 tensors hn hb hlen hs).1 (by
    intro i _
    simp only [hmc]
    have := mul_nonneg (by linarith : (0 : ℝ) ≤ ((others b tensors).length : ℝ) - 1) (hc0 i)
    linarith)
  have hmean : ∀ i, ((others b tensors).map (fun w => w.get i)).sum / ((others b tensors).length : ℝ) = x i := by
    intro i
    have : (others b tensors).map (fun w => w.get i) = (others b tensors).map (fun _ => x i) := List.map_congr_left (fun w hw => by rw [hx' w hw])
    rw [this]
    simp only [List.map_const', List.sum_replicate, nsmul_eq_mul]
    field_simp
  refine ⟨r, h3, h4, fun i _ => ⟨?_, ?_, ?_⟩⟩
  · intro h
    have hc1 : offsetCos (stockLine filterWise w0.shape i) (fun j => x j - w0.get j) (fun j => x j - w0.get j) = 1 := by
      rw [hcos, max_eq_left (by nlinarith), div_self (by nlinarith), min_self]
    rw [h5 i]
    simp only [hmc, hmean, hc1]
    rw [(C42_ratio _ (by linarith)).2.1]
    ring
  · intro h
    rw [h5 i]
    simp only [hmean, h]
    ring
  · intro h
    have hnn := normOn_nonneg (stockLine filterWise w0.shape i) (fun j => x j - w0.get j)
    have hc1 : offsetCos (stockLine filterWise w0.shape i) (fun j => x j - w0.get j) (fun j => x j - w0.get j) < 1 := by
      rw [hcos, max_eq_right (by nlinarith)]
      refine min_lt_of_right_lt ?_
      rw [div_lt_one (by norm_num)]
      nlinarith
    have hr := C42_ratio ((others b tensors).length : ℝ) (by linarith)
    refine ⟨_, (hr.2.2.1 _ (hc0 i) hc1.le).2.1, ?_, ?_⟩
    · have := hr.2.2.2 _ 1 (hc0 i) hc1
      rw [hr.2.1] at this
      exact this
    · rw [h5 i]
      simp only [hmc, hmean]

end

/-! ## C106, multislerp -/

theorem direction_same (n : Nat) (eps : ℝ) (ts : List (ℝ × (Nat → ℝ))) (x : Nat → ℝ) (hx : ∀ e ∈ ts, e.2 = x) (hw : (ts.map Prod.fst).sum ≠ 0) (i : Nat) :
    direction n eps true ts i = x i / (normOn (List.range n) x + eps) := by
  unfold direction usedWeight
  have : ts.map (fun e => e.2 i / (normOn (List.range n) e.2 + eps) * (if true = true then e.1 / (ts.map Prod.fst).sum else e.1)) =
      ts.map (fun e => e.1 * (x i / (normOn (List.range n) x + eps) / (ts.map Prod.fst).sum)) := by
    refine List.map_congr_left (fun e he => ?_)
    rw [hx e he, if_pos rfl]
    ring
  rw [this, List.sum_map_mul_right]
  change (ts.map Prod.fst).sum * _ = _
  field_simp

theorem meanLength_same (n : Nat) (ts : List (ℝ × (Nat → ℝ))) (x : Nat → ℝ) (hx : ∀ e ∈ ts, e.2 = x) (hw : (ts.map Prod.fst).sum ≠ 0) :
    meanLength n true ts = normOn (List.range n) x := by
  unfold meanLength usedWeight
  have : ts.map (fun e => normOn (List.range n) e.2 * (if true = true then e.1 / (ts.map Prod.fst).sum else e.1)) =
      ts.map (fun e => e.1 * (normOn (List.range n) x / (ts.map Prod.fst).sum)) := by
    refine List.map_congr_left (fun e he => ?_)
    rw [hx e he, if_pos rfl]
    ring
  rw [this, List.sum_map_mul_right]
  change (ts.map Prod.fst).sum * _ = _
  field_simp

/-- **C106** Multislerp with normalised weights of copies of one model: the model times the cosine of `eps`, which is near one. -/
theorem C106_multislerp_partial (n : Nat) (eps : ℝ) (h0 : 0 < eps) (ts : List (ℝ × (Nat → ℝ))) (h2 : 2 ≤ ts.length) (x : Nat → ℝ) (hx : ∀ e ∈ ts, e.2 = x)
    (hw : (ts.map Prod.fst).sum ≠ 0) (hl : eps * (normOn (List.range n) x + eps) ≤ normOn (List.range n) x) :
    ∃ r, multislerp n none true eps ts = .ok r ∧ (∀ i, r i = Real.cos eps * x i) ∧ ∀ i, |r i - x i| ≤ eps ^ 2 / 2 * |x i| := by
  have hn := normOn_nonneg (List.range n) x
  have hpos : 0 < normOn (List.range n) x := by
    rcases hn.lt_or_eq with h | h
    · exact h
    · rw [← h] at hl
      nlinarith
  have hdir : direction n eps true ts = fun i => 1 / (normOn (List.range n) x + eps) * x i := by
    funext i
    rw [direction_same n eps ts x hx hw i]
    ring
  have hnd : normOn (List.range n) (direction n eps true ts) = normOn (List.range n) x / (normOn (List.range n) x + eps) := by
    rw [hdir, normOn_scale, abs_of_pos (by positivity)]
    ring
  obtain ⟨r, h3, h4⟩ := C70_result n eps true h0 ts h2 (fun _ => hw) (by rw [hnd, le_div_iff₀ (by linarith)]; exact hl)
  have hr : ∀ i, r i = Real.cos eps * x i := by
    intro i
    rw [h4 i, hnd, meanLength_same n ts x hx hw, direction_same n eps ts x hx hw]
    field_simp
  refine ⟨r, h3, hr, fun i => ?_⟩
  rw [hr, show Real.cos eps * x i - x i = -((1 - Real.cos eps) * x i) by ring, abs_neg, abs_mul]
  have h1 := Real.cos_le_one eps
  have h5 := Real.one_sub_sq_div_two_le_cos (x := eps)
  rw [abs_of_nonneg (by linarith)]
  exact mul_le_mul_of_nonneg_right (by linarith) (abs_nonneg _)

/-- **C106** With a base likewise, for the change. -/
theorem C106_multislerp_base_partial (n : Nat) (eps : ℝ) (h0 : 0 < eps) (base : Nat → ℝ) (ts : List (ℝ × (Nat → ℝ))) (h2 : 2 ≤ ts.length) (x : Nat → ℝ)
    (hx : ∀ e ∈ ts, e.2 = x) (hw : (ts.map Prod.fst).sum ≠ 0)
    (hl : eps * (normOn (List.range n) (fun i => x i - base i) + eps) ≤ normOn (List.range n) (fun i => x i - base i)) :
    ∃ r, multislerp n (some base) true eps ts = .ok r ∧ ∀ i, |r i - x i| ≤ eps ^ 2 / 2 * |x i - base i| := by
  rw [C70_base n eps true base ts h2]
  obtain ⟨r, h3, _, h4⟩ := C106_multislerp_partial n eps h0 (ts.map (fun e => (e.1, fun i => e.2 i - base i))) (by simpa using h2)
    (fun i => x i - base i) (by
      intro e he
      obtain ⟨e', he', rfl⟩ := List.mem_map.1 he
      simp only [hx e' he']) (by simpa [List.map_map, Function.comp_def] using hw) hl
  rw [h3]
  refine ⟨_, rfl, fun i => ?_⟩
  have := h4 i
  rw [show r i + base i - x i = r i - (x i - base i) by ring]
  exact this

/-- **C106** refuted for multislerp: a tensor that three or more models all share with the base makes the merge fail. -/
theorem C106_multislerp_unchanged (n : Nat) (eps : ℝ) (h0 : 0 < eps) (base : Nat → ℝ) (ts : List (ℝ × (Nat → ℝ))) (h2 : 3 ≤ ts.length)
    (hx : ∀ e ∈ ts, e.2 = base) (hw : (ts.map Prod.fst).sum ≠ 0) : multislerp n (some base) true eps ts = .error .value := by
  rw [C70_base n eps true base ts (by omega)]
  have hw' : ((ts.map (fun e => (e.1, fun i => e.2 i - base i))).map Prod.fst).sum ≠ 0 := by
    simpa [List.map_map, Function.comp_def] using hw
  have hx' : ∀ e ∈ ts.map (fun e => (e.1, fun i => e.2 i - base i)), e.2 = fun _ => (0 : ℝ) := by
    intro e he
    obtain ⟨e', he', rfl⟩ := List.mem_map.1 he
    simp only [hx e' he', sub_self]
  have hd : direction n eps true (ts.map (fun e => (e.1, fun i => e.2 i - base i))) = fun _ => 0 := by
    funext i
    rw [direction_same n eps _ _ hx' hw', zero_div]
  rw [(C70_cancelling n eps true (ts.map (fun e => (e.1, fun i => e.2 i - base i))) (by simp; omega) (fun _ => hw') (by
    rw [hd, normOn_zero]; exact h0)).1 (by simp; omega)]
  rfl

/-! ## C107, multislerp -/

/-- **C107** Multislerp: a model of weight zero has no influence, if two or more others are left whose directions do not cancel. -/
theorem C107_multislerp_partial (n : Nat) (eps : ℝ) (normalize : Bool) (h0 : 0 < eps) (x : Nat → ℝ) (pre post : List (ℝ × (Nat → ℝ)))
    (h2 : 2 ≤ (pre ++ post).length) (hw : normalize = true → ((pre ++ post).map Prod.fst).sum ≠ 0)
    (hd : eps ≤ normOn (List.range n) (direction n eps normalize (pre ++ post))) :
    ∃ r r', multislerp n none normalize eps (pre ++ (0, x) :: post) = .ok r ∧ multislerp n none normalize eps (pre ++ post) = .ok r' ∧
      ∀ i, r i = r' i := by
  rw [C105_multislerp n none normalize eps _ _ (List.perm_middle (l₁ := pre) (l₂ := post) (a := ((0 : ℝ), x)))]
  have hsum : (((0, x) :: (pre ++ post)).map Prod.fst).sum = ((pre ++ post).map Prod.fst).sum := by
    rw [List.map_cons, List.sum_cons, zero_add]
  have hu : ∀ w, usedWeight normalize ((0, x) :: (pre ++ post)) w = usedWeight normalize (pre ++ post) w := by
    intro w
    unfold usedWeight
    rw [hsum]
  have hz : usedWeight normalize (pre ++ post) 0 = 0 := by
    unfold usedWeight
    split <;> simp
  have hdir : direction n eps normalize ((0, x) :: (pre ++ post)) = direction n eps normalize (pre ++ post) := by
    funext i
    unfold direction
    simp only [List.map_cons, List.sum_cons, hu, hz, mul_zero, zero_add]
  have hlen : meanLength n normalize ((0, x) :: (pre ++ post)) = meanLength n normalize (pre ++ post) := by
    unfold meanLength
    simp only [List.map_cons, List.sum_cons, hu, hz, mul_zero, zero_add]
  obtain ⟨r, h3, h4⟩ := C70_result n eps normalize h0 ((0, x) :: (pre ++ post)) (by simp at h2 ⊢; omega) (by rw [hsum]; exact hw) (by rw [hdir]; exact hd)
  obtain ⟨r', h3', h4'⟩ := C70_result n eps normalize h0 (pre ++ post) h2 hw hd
  refine ⟨r, r', h3, h3', fun i => ?_⟩
  rw [h4, h4', hdir, hlen]

/-- **C107** refuted for multislerp: opposite directions of two models are combined linearly; with a third model of weight zero the merge fails. -/
theorem C107_multislerp_fails (n : Nat) (eps : ℝ) (h0 : 0 < eps) (x y : Nat → ℝ) :
    (∃ r, multislerp n none true eps [(1, x), (1, fun i => -x i)] = .ok r) ∧
    multislerp n none true eps [(1, x), (1, fun i => -x i), (0, y)] = .error .value := by
  have hneg : normOn (List.range n) (fun i => -x i) = normOn (List.range n) x := by
    have := normOn_scale (List.range n) (-1) x
    simpa using this
  have hw : (([(1, x), (1, fun i => -x i)] : List (ℝ × (Nat → ℝ))).map Prod.fst).sum ≠ 0 := by norm_num
  have hd : direction n eps true [(1, x), (1, fun i => -x i)] = fun _ => 0 := by
    funext i
    simp only [direction, usedWeight, List.map_cons, List.map_nil, List.sum_cons, List.sum_nil, hneg]
    ring
  have hw' : (([(1, x), (1, fun i => -x i), (0, y)] : List (ℝ × (Nat → ℝ))).map Prod.fst).sum ≠ 0 := by norm_num
  have hd' : direction n eps true [(1, x), (1, fun i => -x i), (0, y)] = fun _ => 0 := by
    funext i
    simp only [direction, usedWeight, List.map_cons, List.map_nil, List.sum_cons, List.sum_nil, hneg]
    simp
    ring
  constructor
  · obtain ⟨r, h, _⟩ := (C70_cancelling n eps true _ (by simp) (fun _ => hw) (by rw [hd, normOn_zero]; exact h0)).2 _ _ rfl
    exact ⟨r, h⟩
  · exact (C70_cancelling n eps true _ (by simp) (fun _ => hw') (by rw [hd', normOn_zero]; exact h0)).1 (by simp)

/-! ## Cases meeting the hypotheses -/

theorem norm_one (x : Nat → ℝ) : normOn (List.range 1) x = |x 0| := by
  unfold normOn dotOn
  simp [List.range_succ, Real.sqrt_mul_self_eq_abs]

example : (1 / 100000000 : ℝ) < normOn (List.range (⟨[1], fun _ => 3⟩ : Tensor ℝ).numel) (fun _ => 3) := by
  change _ < normOn (List.range 1) _
  rw [norm_one]
  norm_num

example : normOn (List.range (⟨[1], fun _ => 1 / 1000000000⟩ : Tensor ℝ).numel) (fun _ => 1 / 1000000000) ≤ 1 / 100000000 ∧ (1 / 1000000000 : ℝ) ≠ 0 := by
  change normOn (List.range 1) _ ≤ _ ∧ _
  rw [norm_one]
  norm_num

example : ∃ ts : List (ℝ × (Nat → ℝ)), 3 ≤ ts.length ∧ (∀ e ∈ ts, e.2 = fun _ => 2) ∧ (ts.map Prod.fst).sum ≠ 0 ∧
    (1 / 100000000 : ℝ) * (normOn (List.range 1) (fun _ => 2) + 1 / 100000000) ≤ normOn (List.range 1) (fun _ => 2) := by
  refine ⟨[(1, fun _ => 2), (1, fun _ => 2), (1, fun _ => 2)], by simp, by simp, by norm_num, ?_⟩
  rw [norm_one]
  norm_num

example : ∃ tensors : List (Nat × Tensor ℝ), (tensors.map Prod.fst).Nodup ∧ (0, ⟨[1], fun _ => 1⟩) ∈ tensors ∧ 3 ≤ tensors.length ∧
    (∀ e ∈ tensors, e.2.shape = [1]) ∧ (∀ e ∈ tensors, e.1 ≠ 0 → e.2.get = fun _ => 2) ∧
    1 / 1000 ≤ normOn (stockLine false [1] 0) (fun _ => (2 : ℝ) - 1) := by
  refine ⟨[(0, ⟨[1], fun _ => 1⟩), (1, ⟨[1], fun _ => 2⟩), (2, ⟨[1], fun _ => 2⟩)], by decide, by simp, by simp, by simp, by simp, ?_⟩
  change _ ≤ normOn (List.range 1) _
  rw [norm_one]
  norm_num

example : 2 ≤ ([(1, fun _ => 2), (1, fun _ => 3)] : List (ℝ × (Nat → ℝ))).length ∧
    1 / 100 ≤ normOn (List.range 1) (direction 1 (1 / 100) true [(1, fun _ => 2), (1, fun _ => 3)]) := by
  refine ⟨by simp, ?_⟩
  rw [norm_one]
  simp only [direction, usedWeight, List.map_cons, List.map_nil, List.sum_cons, List.sum_nil, norm_one]
  norm_num [abs_of_pos]

/-- C105, Karcher: two tensors in the same direction do not cancel. -/
example : (1 / 100 : ℝ) ≤ normOn (List.range [1].prod) (meanDirection [1].prod (1 / 100)
    (([(0, ⟨[1], fun _ => 2⟩), (1, ⟨[1], fun _ => 3⟩)] : List (Nat × Tensor ℝ)).map (fun e => (1 / (2 : ℝ), e.2.get)))) := by
  change _ ≤ normOn (List.range 1) _
  rw [norm_one]
  have hn : ∀ c : ℝ, 0 < c → normOn [0] (fun _ => c) = c := by
    intro c hc
    have := norm_one (fun _ => c)
    rw [abs_of_pos hc] at this
    simpa [List.range_succ] using this
  simp [meanDirection, List.filter_cons, hn]
  norm_num [hn]

end Verif.Sphere
