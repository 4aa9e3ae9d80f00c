import Verif.Model.Sphere
import Verif.Props.Slerp

/-! # C42, C47: Model Stock and Arcee Fusion -/

namespace Verif.Sphere

open Verif.Tensor Verif.Merge

/-! ## C42 -/

/-- The cosine between two offsets on a line, with very short ones counted as longer (specification). -/
noncomputable def offsetCos (L : List Nat) (x y : Nat → ℝ) : ℝ :=
  max (-1) (min 1 (dotOn L x y / max (normOn L x * normOn L y) (1 / 1000000)))

/-- The mean of the cosines over all ordered pairs of different models: the sum over all pairs without the diagonal (specification). -/
noncomputable def meanCos (L : List Nat) (xs : List (Nat → ℝ)) : ℝ :=
  ((xs.map (fun x => (xs.map (fun y => offsetCos L x y)).sum)).sum - (xs.map (fun x => offsetCos L x x)).sum) /
    ((xs.length : ℝ) * ((xs.length : ℝ) - 1))

/-- The interpolation ratio for `N` models (specification). -/
noncomputable def ratio (N c : ℝ) : ℝ := N * c / (1 + (N - 1) * c)

theorem clamp_eq (d : ℝ) : clamp (-1) 1 d = max (-1) (min 1 d) := by
  unfold clamp
  rcases le_total d 1 with h1 | h1 <;> rcases le_total d (-1) with h2 | h2
  · rw [max_eq_right h2, min_eq_right h1, max_eq_left h2, min_eq_left (by norm_num)]
  · rw [max_eq_left h2, min_eq_right h1, max_eq_right h2, min_eq_left h1]
  · linarith
  · rw [max_eq_left h2, min_eq_left h1, min_eq_right h1, max_eq_right (by norm_num)]

theorem stockCos_eq (L : List Nat) (x y : Nat → ℝ) : stockCos L (x, y) = offsetCos L x y := by
  unfold stockCos offsetCos
  rw [clamp_eq]

theorem offsetCos_comm (L : List Nat) (x y : Nat → ℝ) : offsetCos L x y = offsetCos L y x := by
  unfold offsetCos
  rw [dotOn_comm, mul_comm (normOn L x)]

theorem offsetCos_bounds (L : List Nat) (x y : Nat → ℝ) : -1 ≤ offsetCos L x y ∧ offsetCos L x y ≤ 1 :=
  ⟨le_max_left _ _, max_le (by norm_num) (min_le_left _ _)⟩

theorem sum_add {A : Type} (l : List A) (f g : A → ℝ) : (l.map (fun x => f x + g x)).sum = (l.map f).sum + (l.map g).sum := by
  induction l with
  | nil => simp
  | cons a l ih =>
    simp only [List.map_cons, List.sum_cons, ih]
    ring

theorem pairs_sum {A : Type} (f : A → A → ℝ) (hf : ∀ x y, f x y = f y x) (xs : List A) :
    (xs.map (fun x => (xs.map (fun y => f x y)).sum)).sum =
      (xs.map (fun x => f x x)).sum + 2 * ((pairs xs).map (fun p => f p.1 p.2)).sum := by
  induction xs with
  | nil => simp [pairs]
  | cons a xs ih =>
    simp only [List.map_cons, List.sum_cons, pairs, List.map_append, List.sum_append, List.map_map]
    rw [sum_add, ih]
    have h1 : (xs.map (fun x => f x a)).sum = (xs.map (fun y => f a y)).sum := by
      congr 1
      exact List.map_congr_left (fun x _ => hf x a)
    have h2 : (xs.map ((fun p : A × A => f p.1 p.2) ∘ fun b => (a, b))).sum = (xs.map (fun y => f a y)).sum := rfl
    rw [h1, h2]
    ring

theorem pairs_length {A : Type} (xs : List A) : 2 * ((pairs xs).length : ℝ) = (xs.length : ℝ) * ((xs.length : ℝ) - 1) := by
  induction xs with
  | nil => simp [pairs]
  | cons a xs ih =>
    simp only [pairs, List.length_append, List.length_map, List.length_cons]
    push_cast
    linear_combination ih

theorem stockMeanCos_eq (L : List Nat) (xs : List (Nat → ℝ)) : stockMeanCos L xs = meanCos L xs := by
  unfold stockMeanCos meanCos
  have hm : (pairs xs).map (stockCos L) = (pairs xs).map (fun p => offsetCos L p.1 p.2) :=
    List.map_congr_left (fun p _ => stockCos_eq L p.1 p.2)
  rw [hm, pairs_sum (offsetCos L) (offsetCos_comm L), ← pairs_length]
  rw [add_sub_cancel_left, mul_div_mul_left _ _ (by norm_num)]

/-- The mean cosine is between -1 and 1. -/
theorem C42_mean_bounds (L : List Nat) (xs : List (Nat → ℝ)) : -1 ≤ meanCos L xs ∧ meanCos L xs ≤ 1 := by
  rw [← stockMeanCos_eq]
  unfold stockMeanCos
  have key : ∀ l : List ((Nat → ℝ) × (Nat → ℝ)), -(l.length : ℝ) ≤ (l.map (stockCos L)).sum ∧ (l.map (stockCos L)).sum ≤ l.length := by
    intro l
    induction l with
    | nil => simp
    | cons p l ih =>
      simp only [List.map_cons, List.sum_cons, List.length_cons]
      push_cast
      have := offsetCos_bounds L p.1 p.2
      rw [← stockCos_eq] at this
      constructor <;> linarith [ih.1, ih.2, this.1, this.2]
  obtain ⟨h1, h2⟩ := key (pairs xs)
  rcases Nat.eq_zero_or_pos (pairs xs).length with h0 | h0
  · rw [h0]
    norm_num
  · have hp : (0 : ℝ) < (pairs xs).length := by exact_mod_cast h0
    constructor
    · rw [le_div_iff₀ hp]
      linarith
    · rw [div_le_iff₀ hp]
      linarith

section
variable {M : Type} [DecidableEq M]

/-- The tensors of the other models (specification). -/
def others (b : M) (tensors : List (M × Tensor ℝ)) : List (Tensor ℝ) := (tensors.filter (fun e => decide (e.1 ≠ b))).map Prod.snd

theorem lookup_of_mem (tensors : List (M × Tensor ℝ)) (b : M) (w : Tensor ℝ) (hn : (tensors.map Prod.fst).Nodup) (hm : (b, w) ∈ tensors) :
    lookup tensors b = some w := by
  induction tensors with
  | nil => cases hm
  | cons e es ih =>
    rw [List.map_cons, List.nodup_cons] at hn
    unfold lookup
    rw [List.find?_cons]
    rcases List.mem_cons.1 hm with h | h
    · subst h
      simp
    · have hne : e.1 ≠ b := by
        intro h'
        exact hn.1 (List.mem_map.2 ⟨(b, w), h, h'.symm⟩)
      simp only [hne, decide_false]
      exact ih hn.2 h

/-- **C42** The result is on the line through base and mean, at the ratio given by the mean cosine of the offsets; where the ratio has a zero denominator
the result is not finite. -/
theorem C42_formula (isEmbed optional filterWise : Bool) (b : M) (w0 : Tensor ℝ) (tensors : List (M × Tensor ℝ))
    (hn : (tensors.map Prod.fst).Nodup) (hb : (b, w0) ∈ tensors) (hlen : 3 ≤ tensors.length)
    (hs : ∀ e ∈ tensors, e.2.shape = w0.shape) :
    let N : ℝ := (others b tensors).length
    let c := fun i => meanCos (stockLine filterWise w0.shape i) ((others b tensors).map (fun w => fun j => w.get j - w0.get j))
    ((∀ i < w0.numel, 1 + (N - 1) * c i ≠ 0) → ∃ r, modelStock isEmbed optional filterWise b tensors = .ok (some r) ∧ r.shape = w0.shape ∧
      ∀ i, r.get i = w0.get i + ratio N (c i) * (((others b tensors).map (fun w => w.get i)).sum / N - w0.get i)) ∧
    ((∃ i < w0.numel, 1 + (N - 1) * c i = 0) → modelStock isEmbed optional filterWise b tensors = .error .nonFinite) := by
  have hl := lookup_of_mem tensors b w0 hn hb
  have hso : ∀ w ∈ others b tensors, w.shape = w0.shape := by
    intro w hw
    obtain ⟨e, he, rfl⟩ := List.mem_map.1 hw
    exact hs e (List.mem_filter.1 he).1
  have hr : rectify isEmbed (w0 :: others b tensors) = w0 :: others b tensors :=
    rectify_oneShape isEmbed _ w0.shape (by
      intro w hw
      rcases List.mem_cons.1 hw with rfl | hw
      · rfl
      · exact hso w hw)
  have hall : (others b tensors).all (fun w => decide (w.shape = w0.shape)) = true := by
    rw [List.all_eq_true]
    intro w hw
    exact decide_eq_true (hso w hw)
  have hstep : modelStock isEmbed optional filterWise b tensors =
      if (List.range w0.numel).any (fun i => decide (1 + (((others b tensors).length : ℝ) - 1) *
          meanCos (stockLine filterWise w0.shape i) ((others b tensors).map (fun w => fun j => w.get j - w0.get j)) = 0)) then .error .nonFinite
      else .ok (some ⟨w0.shape, fun i =>
        ratio ((others b tensors).length : ℝ) (meanCos (stockLine filterWise w0.shape i) ((others b tensors).map (fun w => fun j => w.get j - w0.get j))) *
            (((others b tensors).map (fun w => w.get i)).sum / ((others b tensors).length : ℝ)) +
          (1 - ratio ((others b tensors).length : ℝ) (meanCos (stockLine filterWise w0.shape i)
            ((others b tensors).map (fun w => fun j => w.get j - w0.get j)))) * w0.get i⟩) := by
    unfold modelStock
    rw [if_neg (by omega), if_neg (by omega), hl]
    simp only
    rw [show (tensors.filter (fun e => decide (e.1 ≠ b))).map Prod.snd = others b tensors from rfl, hr]
    simp only [hall, if_true, stockMeanCos_eq]
    rfl
  intro N c
  constructor
  · intro hne
    rw [hstep, if_neg]
    · refine ⟨_, rfl, rfl, fun i => ?_⟩
      simp only
      ring
    · rw [List.any_eq_true]
      rintro ⟨i, hi, h⟩
      exact hne i (List.mem_range.1 hi) (of_decide_eq_true h)
  · rintro ⟨i, hi, h⟩
    rw [hstep, if_pos]
    rw [List.any_eq_true]
    exact ⟨i, List.mem_range.2 hi, decide_eq_true h⟩

omit [DecidableEq M] in
/-- **C42** The cosines are taken over the row of the position (filter-wise) or over the whole tensor. -/
theorem C42_lines (shape : List Nat) (i j : Nat) :
    (0 < shape.getLastD 1 → (j ∈ stockLine true shape i ↔ j / shape.getLastD 1 = i / shape.getLastD 1)) ∧
    (stockLine true shape i).Nodup ∧ stockLine false shape i = List.range shape.prod := by
  refine ⟨fun hc => ?_, ?_, rfl⟩
  · unfold stockLine
    simp only [if_true, List.mem_map, List.mem_range]
    generalize shape.getLastD 1 = c at hc
    constructor
    · rintro ⟨k, hk, rfl⟩
      rw [mul_comm, Nat.mul_add_div hc, Nat.div_eq_of_lt hk, add_zero]
    · intro h
      exact ⟨j % c, Nat.mod_lt _ hc, by rw [← h]; exact Nat.div_add_mod' j c⟩
  · unfold stockLine
    simp only [if_true]
    exact List.Nodup.map (fun a b h => by simpa using h) List.nodup_range

/-- **C42** For cosines from 0 to 1 and at least one model the ratio is from 0 to 1, equals the cosine's ends and grows with the cosine. -/
theorem C42_ratio (N : ℝ) (hN : 1 ≤ N) :
    ratio N 0 = 0 ∧ ratio N 1 = 1 ∧
    (∀ c, 0 ≤ c → c ≤ 1 → 0 < 1 + (N - 1) * c ∧ 0 ≤ ratio N c ∧ ratio N c ≤ 1) ∧
    (∀ c c', 0 ≤ c → c < c' → ratio N c < ratio N c') := by
  have hpos : ∀ c : ℝ, 0 ≤ c → 0 < 1 + (N - 1) * c := by
    intro c hc
    have : 0 ≤ (N - 1) * c := mul_nonneg (by linarith) hc
    linarith
  refine ⟨?_, ?_, ?_, ?_⟩
  · unfold ratio
    simp
  · unfold ratio
    rw [mul_one, mul_one, add_sub_cancel, div_self (by linarith)]
  · intro c h0 h1
    refine ⟨hpos c h0, div_nonneg (mul_nonneg (by linarith) h0) (hpos c h0).le, ?_⟩
    unfold ratio
    rw [div_le_one (hpos c h0)]
    nlinarith
  · intro c c' h0 h
    unfold ratio
    rw [div_lt_div_iff₀ (hpos c h0) (hpos c' (by linarith))]
    nlinarith

/-- **C42** If the mean cosines are not negative, every entry of the result is between the base's entry and the mean of the models. -/
theorem C42_between (isEmbed optional filterWise : Bool) (b : M) (w0 : Tensor ℝ) (tensors : List (M × Tensor ℝ))
    (hn : (tensors.map Prod.fst).Nodup) (hb : (b, w0) ∈ tensors) (hlen : 3 ≤ tensors.length)
    (hs : ∀ e ∈ tensors, e.2.shape = w0.shape)
    (hc : ∀ i < w0.numel, 0 ≤ meanCos (stockLine filterWise w0.shape i) ((others b tensors).map (fun w => fun j => w.get j - w0.get j))) :
    ∃ r, modelStock isEmbed optional filterWise b tensors = .ok (some r) ∧ r.shape = w0.shape ∧ ∀ i < w0.numel,
      min (w0.get i) (((others b tensors).map (fun w => w.get i)).sum / ((others b tensors).length : ℝ)) ≤ r.get i ∧
      r.get i ≤ max (w0.get i) (((others b tensors).map (fun w => w.get i)).sum / ((others b tensors).length : ℝ)) := by
  have hlen' : tensors.length ≤ (others b tensors).length + 1 := by
    unfold others
    rw [List.length_map]
    clear hlen hs hc hb
    induction tensors with
    | nil => simp
    | cons e es ih =>
      rw [List.map_cons, List.nodup_cons] at hn
      rw [List.filter_cons]
      split
      · simp only [List.length_cons]
        have := ih hn.2
        omega
      · rename_i h
        have h' : e.1 = b := by
          by_contra h'
          exact h (decide_eq_true h')
        have : es.filter (fun e => decide (e.1 ≠ b)) = es := by
          rw [List.filter_eq_self]
          intro a ha
          apply decide_eq_true
          intro hab
          exact hn.1 (List.mem_map.2 ⟨a, ha, hab.trans h'.symm⟩)
        rw [this]
        simp
  have hN : (1 : ℝ) ≤ ((others b tensors).length : ℝ) := by
    exact_mod_cast (by omega : 1 ≤ (others b tensors).length)
  obtain ⟨hf, _⟩ := C42_formula isEmbed optional filterWise b w0 tensors hn hb hlen hs
  obtain ⟨_, _, hr, _⟩ := C42_ratio _ hN
  obtain ⟨r, h1, h2, h3⟩ := hf (fun i hi => ne_of_gt (hr _ (hc i hi) (C42_mean_bounds _ _).2).1)
  refine ⟨r, h1, h2, fun i hi => ?_⟩
  obtain ⟨_, ht0, ht1⟩ := hr _ (hc i hi) (C42_mean_bounds _ _).2
  rw [h3 i]
  generalize ratio _ _ = t at ht0 ht1 ⊢
  generalize ((others b tensors).map (fun w => w.get i)).sum / ((others b tensors).length : ℝ) = m
  rcases le_total (w0.get i) m with hle | hle
  · rw [min_eq_left hle, max_eq_right hle]
    constructor <;> nlinarith
  · rw [min_eq_right hle, max_eq_left hle]
    constructor <;> nlinarith

/-- **C42** Too few tensors: the base alone is returned, otherwise an optional weight is dropped and any other refused. -/
theorem C42_too_few (isEmbed optional filterWise : Bool) (b : M) (tensors : List (M × Tensor ℝ)) :
    (∀ x, tensors = [(b, x)] → modelStock isEmbed optional filterWise b tensors = .ok (some x)) ∧
    (tensors.length < 3 → (tensors.length = 1 → ∀ e ∈ tensors, e.1 ≠ b) →
      modelStock isEmbed optional filterWise b tensors = if optional then .ok none else .error .count) ∧
    (3 ≤ tensors.length → (∀ e ∈ tensors, e.1 ≠ b) → modelStock isEmbed optional filterWise b tensors = .error .noBase) := by
  refine ⟨?_, ?_, ?_⟩
  · rintro x rfl
    simp [modelStock, lookup]
  · intro h h1
    have hno : ¬(tensors.length = 1 ∧ (lookup tensors b).isSome = true) := by
      rintro ⟨h1', hl⟩
      unfold lookup at hl
      rw [Option.isSome_map, List.find?_isSome] at hl
      obtain ⟨e, he, h'⟩ := hl
      exact h1 h1' e he (of_decide_eq_true h')
    unfold modelStock
    rw [if_neg hno, if_pos h]
  · intro h hne
    have hl : lookup tensors b = none := by
      unfold lookup
      rw [Option.map_eq_none_iff, List.find?_eq_none]
      intro e he h'
      exact hne e he (of_decide_eq_true h')
    unfold modelStock
    rw [if_neg (by omega), if_neg (by omega), hl]

/-- **C42** (what the code does not do) Two models that differ from the base in opposite directions divide by zero. -/
theorem C42_opposite (isEmbed optional : Bool) (b m0 m1 : M) (h0 : m0 ≠ b) (h1 : m1 ≠ b) (h01 : m0 ≠ m1) (w0 x y : Tensor ℝ)
    (hx : x.shape = w0.shape) (hy : y.shape = w0.shape) (hpos : 0 < w0.numel) (hxy : ∀ i, y.get i - w0.get i = -(x.get i - w0.get i))
    (hbig : 1 / 1000 ≤ normOn (List.range w0.numel) (fun i => x.get i - w0.get i)) :
    modelStock isEmbed optional false b [(b, w0), (m0, x), (m1, y)] = .error .nonFinite := by
  have ho : others b [(b, w0), (m0, x), (m1, y)] = [x, y] := by
    simp [others, h0, h1]
  refine (C42_formula isEmbed optional false b w0 [(b, w0), (m0, x), (m1, y)] (by simp [Ne.symm h0, Ne.symm h1, h01]) (by simp) (by simp)
    (by simp [hx, hy])).2 ⟨0, hpos, ?_⟩
  simp only [ho]
  have hyx : (fun j => y.get j - w0.get j) = fun j => (-1 : ℝ) * (x.get j - w0.get j) := by
    funext j
    rw [hxy j]
    ring
  set d : Nat → ℝ := fun j => x.get j - w0.get j with hd
  have hcos : offsetCos (List.range w0.shape.prod) d (fun j => y.get j - w0.get j) = -1 := by
    rw [hyx]
    unfold offsetCos
    have e1 : dotOn (List.range w0.shape.prod) d (fun j => (-1 : ℝ) * (x.get j - w0.get j)) = -(dotOn (List.range w0.shape.prod) d d) := by
      have := dotOn_scale (List.range w0.shape.prod) 1 (-1) d d
      simp only [one_mul] at this
      rw [hd] at this ⊢
      simp only at this ⊢
      rw [this, neg_one_mul]
    have e2 : normOn (List.range w0.shape.prod) (fun j => (-1 : ℝ) * (x.get j - w0.get j)) = normOn (List.range w0.shape.prod) d := by
      unfold normOn
      have := dotOn_scale (List.range w0.shape.prod) (-1) (-1) d d
      rw [show (-1 : ℝ) * -1 = 1 by norm_num, one_mul] at this
      rw [← this]
    rw [e1, e2, normOn_mul_self]
    have hge : (1 : ℝ) / 1000000 ≤ dotOn (List.range w0.shape.prod) d d := by
      rw [← normOn_mul_self]
      have : (1 : ℝ) / 1000 ≤ normOn (List.range w0.shape.prod) d := hbig
      nlinarith
    rw [max_eq_left hge, neg_div, div_self (by linarith)]
    norm_num
  unfold stockLine meanCos
  simp only [Bool.false_eq_true, if_false, List.map_cons, List.map_nil, List.sum_cons, List.sum_nil, List.length_cons, List.length_nil]
  rw [offsetCos_comm _ (fun j => y.get j - w0.get j) d, hcos]
  push_cast
  ring

end

/-- A base and two models one unit away from it in directions at right angles: mean cosine 0, and the conditions of `C42_between`. -/
example : 0 ≤ meanCos (List.range 2) [fun i => if i = 0 then 1 else 0, fun i => if i = 1 then 1 else 0] := by
  norm_num [meanCos, offsetCos, dotOn, normOn, List.range_succ]

/-- Models 1 and -1 around a base 0 meet the conditions of `C42_opposite`. -/
example : (1 / 1000 : ℝ) ≤ normOn (List.range 1) (fun _ => (1 : ℝ) - 0) := by
  norm_num [normOn, dotOn]

/-! ## C47 -/

/-- The distribution of a row: the softmax, with a small number added (specification). -/
noncomputable def rowDist (c : Nat) (x : Nat → ℝ) (row j : Nat) : ℝ :=
  Real.exp (x (row * c + j)) / ((List.range c).map (fun k => Real.exp (x (row * c + k)))).sum + 1 / 100000000

/-- The importance of position `i`: the change times the divergence of the two distributions of its row (specification). -/
noncomputable def score (c : Nat) (base other : Nat → ℝ) (i : Nat) : ℝ :=
  |other i - base i| * ((List.range c).map (fun j =>
    rowDist c other (i / c) j * Real.log (rowDist c other (i / c) j / rowDist c base (i / c) j))).sum

theorem row_of (c i j : Nat) (hj : j < c) : (i / c * c + j) / c = i / c := by
  rw [mul_comm, Nat.mul_add_div (by omega), Nat.div_eq_of_lt hj, add_zero]

theorem softmaxEps_row (c : Nat) (x : Nat → ℝ) (i j : Nat) (hj : j < c) : softmaxEps c x (i / c * c + j) = rowDist c x (i / c) j := by
  unfold softmaxEps rowDist
  rw [row_of c i j hj]

theorem importance_eq (c : Nat) (base other : Nat → ℝ) (i : Nat) : importance c other base i = score c base other i := by
  unfold importance score
  congr 2
  apply List.map_congr_left
  intro j hj
  have hj := List.mem_range.1 hj
  rw [softmaxEps_row c other i j hj, softmaxEps_row c base i j hj]

theorem rowDist_pos (c : Nat) (x : Nat → ℝ) (row j : Nat) : 0 < rowDist c x row j := by
  unfold rowDist
  have : 0 ≤ ((List.range c).map (fun k => Real.exp (x (row * c + k)))).sum := by
    apply List.sum_nonneg
    intro y hy
    obtain ⟨k, _, rfl⟩ := List.mem_map.1 hy
    exact (Real.exp_pos _).le
  have := div_nonneg (Real.exp_pos (x (row * c + j))).le this
  linarith

theorem rowDist_sum (c : Nat) (x : Nat → ℝ) (row : Nat) (hc : 0 < c) :
    ((List.range c).map (rowDist c x row)).sum = 1 + c / 100000000 := by
  have hS : 0 < ((List.range c).map (fun k => Real.exp (x (row * c + k)))).sum := by
    apply List.sum_pos
    · intro y hy
      obtain ⟨k, _, rfl⟩ := List.mem_map.1 hy
      exact Real.exp_pos _
    · intro h
      simp at h
      omega
  unfold rowDist
  generalize hSd : ((List.range c).map (fun k => Real.exp (x (row * c + k)))).sum = S at hS
  have key : ∀ l : List Nat, (l.map (fun j => Real.exp (x (row * c + j)) / S + 1 / 100000000)).sum =
      (l.map (fun k => Real.exp (x (row * c + k)))).sum / S + l.length / 100000000 := by
    intro l
    induction l with
    | nil => simp
    | cons a l ih =>
      simp only [List.map_cons, List.sum_cons, ih, List.length_cons]
      push_cast
      ring
  rw [key, hSd, div_self hS.ne', List.length_range]

/-- **C47** Scores are never negative, and 0 where the models agree. -/
theorem C47_score (c : Nat) (base other : Nat → ℝ) (i : Nat) :
    0 ≤ score c base other i ∧ (other i = base i → score c base other i = 0) := by
  constructor
  · unfold score
    apply mul_nonneg (abs_nonneg _)
    rcases Nat.eq_zero_or_pos c with rfl | hc
    · simp
    · have key : ∀ l : List Nat, (l.map (rowDist c other (i / c))).sum - (l.map (rowDist c base (i / c))).sum ≤
          (l.map (fun j => rowDist c other (i / c) j * Real.log (rowDist c other (i / c) j / rowDist c base (i / c) j))).sum := by
        intro l
        induction l with
        | nil => simp
        | cons j l ih =>
          simp only [List.map_cons, List.sum_cons]
          have hp := rowDist_pos c other (i / c) j
          have hq := rowDist_pos c base (i / c) j
          have := Real.one_sub_inv_le_log_of_pos (div_pos hp hq)
          have h2 := mul_le_mul_of_nonneg_left this hp.le
          have h3 : rowDist c other (i / c) j * (1 - (rowDist c other (i / c) j / rowDist c base (i / c) j)⁻¹) =
              rowDist c other (i / c) j - rowDist c base (i / c) j := by
            field_simp
          rw [h3] at h2
          linarith
      have := key (List.range c)
      rw [rowDist_sum c other _ hc, rowDist_sum c base _ hc, sub_self] at this
      exact this
  · intro h
    unfold score
    rw [h, sub_self, abs_zero, zero_mul]

/-- `v` is the entry with number `k` in the ascending order of a list (specification). -/
def IsEntry (l : List ℝ) (k : Nat) (v : ℝ) : Prop := ∃ s : List ℝ, s.Perm l ∧ s.Pairwise (· ≤ ·) ∧ s[k]? = some v

theorem sortReal_perm (l : List ℝ) : (sortReal l).Perm l := List.mergeSort_perm _ _

theorem sortReal_sorted (l : List ℝ) : (sortReal l).Pairwise (· ≤ ·) := by
  have := List.pairwise_mergeSort (le := fun a b : ℝ => decide (a ≤ b))
    (by intro a b c; simp only [decide_eq_true_eq]; exact le_trans)
    (by intro a b; simp only [Bool.or_eq_true, decide_eq_true_eq]; exact le_total a b) l
  exact this.imp (by intro a b h; exact of_decide_eq_true h)

theorem quantile_isEntry (sample : List ℝ → List ℝ) (num : Nat) (hnum : num ≤ 4) (l : List ℝ) (hl : l ≠ [])
    (hsmall : l.length ≤ 1000000) : IsEntry l (num * (l.length - 1) / 4) (quantile sample num l) := by
  refine ⟨sortReal l, sortReal_perm l, sortReal_sorted l, ?_⟩
  unfold quantile
  simp only
  rw [if_neg (by omega)]
  have hlen : (sortReal l).length = l.length := (sortReal_perm l).length_eq
  have hpos : 0 < l.length := List.length_pos_of_ne_nil hl
  have hlt : num * (l.length - 1) / 4 < (sortReal l).length := by
    rw [hlen]
    have : num * (l.length - 1) / 4 ≤ l.length - 1 := by
      apply Nat.div_le_of_le_mul
      exact Nat.mul_le_mul_right _ hnum
    omega
  rw [List.getD_eq_getElem?_getD, List.getElem?_eq_getElem hlt]
  rfl

section
variable {M : Type} [DecidableEq M]

/-- **C47** Each entry is the base's or the other model's, the latter exactly where the score reaches the threshold.  For tensors of at most a million entries
the threshold is the median plus one and a half times the distance of the quartiles of the scores. -/
theorem C47_picks (sample1 sample2 : List ℝ → List ℝ) (isEmbed : Bool) (b m : M) (hm : m ≠ b) (x y : Tensor ℝ) (hs : x.shape = y.shape)
    (tensors : List (M × Tensor ℝ)) (ht : tensors = [(b, x), (m, y)] ∨ tensors = [(m, y), (b, x)]) :
    ∃ r th, arceeFusion sample1 sample2 isEmbed b tensors = .ok r ∧ r.shape = x.shape ∧
      (∀ i, r.get i = if th ≤ score (x.shape.getLastD 1) x.get y.get i then y.get i else x.get i) ∧
      (0 < x.numel → x.numel ≤ 1000000 →
        ∃ q1 q2 q3, IsEntry ((List.range x.numel).map (score (x.shape.getLastD 1) x.get y.get)) ((x.numel - 1) / 4) q1 ∧
          IsEntry ((List.range x.numel).map (score (x.shape.getLastD 1) x.get y.get)) ((x.numel - 1) / 2) q2 ∧
          IsEntry ((List.range x.numel).map (score (x.shape.getLastD 1) x.get y.get)) (3 * (x.numel - 1) / 4) q3 ∧
          th = q2 + 3 / 2 * (q3 - q1)) := by
  have hr : rectify isEmbed [x, y] = [x, y] := rectify_oneShape isEmbed [x, y] x.shape (by simp [hs])
  have himp : importance (x.shape.getLastD 1) y.get x.get = score (x.shape.getLastD 1) x.get y.get := by
    funext i
    exact importance_eq _ _ _ i
  have hres : ∃ r, arceeFusion sample1 sample2 isEmbed b tensors = .ok r ∧ r.shape = x.shape ∧ ∀ i, r.get i =
      x.get i + (y.get i - x.get i) * (if score (x.shape.getLastD 1) x.get y.get i ≥
        threshold sample1 sample2 ((List.range x.numel).map (score (x.shape.getLastD 1) x.get y.get)) then 1 else 0) := by
    rcases ht with rfl | rfl
    · simp only [arceeFusion, ne_eq, not_true_eq_false, false_and, if_false, hr, himp]
      rw [if_pos hs]
      exact ⟨_, rfl, rfl, fun i => rfl⟩
    · simp only [arceeFusion, ne_eq, not_true_eq_false, and_false, if_false, hm, not_false_eq_true, if_true, hr, himp]
      rw [if_pos hs]
      exact ⟨_, rfl, rfl, fun i => rfl⟩
  obtain ⟨r, h1, h2, h3⟩ := hres
  refine ⟨r, threshold sample1 sample2 ((List.range x.numel).map (score (x.shape.getLastD 1) x.get y.get)), h1, h2, fun i => ?_, ?_⟩
  · rw [h3 i]
    by_cases h : threshold sample1 sample2 ((List.range x.numel).map (score (x.shape.getLastD 1) x.get y.get)) ≤
        score (x.shape.getLastD 1) x.get y.get i
    · rw [if_pos h, if_pos h]
      ring
    · rw [if_neg h, if_neg h]
      ring
  · intro hpos hsmall
    have hl : ((List.range x.numel).map (score (x.shape.getLastD 1) x.get y.get)).length = x.numel := by simp
    have hne : ((List.range x.numel).map (score (x.shape.getLastD 1) x.get y.get)) ≠ [] := by
      intro h
      rw [h] at hl
      simp at hl
      omega
    have e1 := quantile_isEntry sample2 1 (by norm_num) _ hne (by rw [hl]; exact hsmall)
    have e2 := quantile_isEntry sample1 2 (by norm_num) _ hne (by rw [hl]; exact hsmall)
    have e3 := quantile_isEntry sample2 3 (by norm_num) _ hne (by rw [hl]; exact hsmall)
    rw [hl] at e1 e2 e3
    rw [one_mul] at e1
    rw [show 2 * (x.numel - 1) / 4 = (x.numel - 1) / 2 by omega] at e2
    exact ⟨_, _, _, e1, e2, e3, rfl⟩

/-- **C47** Identical inputs give the input. -/
theorem C47_identical (sample1 sample2 : List ℝ → List ℝ) (isEmbed : Bool) (b m : M) (hm : m ≠ b) (x y : Tensor ℝ) (hs : x.shape = y.shape)
    (hxy : ∀ i, x.get i = y.get i) (tensors : List (M × Tensor ℝ)) (ht : tensors = [(b, x), (m, y)] ∨ tensors = [(m, y), (b, x)]) :
    ∃ r, arceeFusion sample1 sample2 isEmbed b tensors = .ok r ∧ r.shape = x.shape ∧ ∀ i, r.get i = x.get i := by
  obtain ⟨r, th, h1, h2, h3, _⟩ := C47_picks sample1 sample2 isEmbed b m hm x y hs tensors ht
  refine ⟨r, h1, h2, fun i => ?_⟩
  rw [h3, hxy i, ite_self]

/-- **C47** One tensor is returned as it is; other numbers than two, and a missing base, are errors. -/
theorem C47_inputs (sample1 sample2 : List ℝ → List ℝ) (isEmbed : Bool) (b : M) (tensors : List (M × Tensor ℝ)) :
    (∀ m x, tensors = [(m, x)] → arceeFusion sample1 sample2 isEmbed b tensors = .ok x) ∧
    (tensors.length ≠ 1 → tensors.length ≠ 2 → arceeFusion sample1 sample2 isEmbed b tensors = .error .count) ∧
    (tensors.length = 2 → (∀ e ∈ tensors, e.1 ≠ b) → arceeFusion sample1 sample2 isEmbed b tensors = .error .noBase) := by
  refine ⟨?_, ?_, ?_⟩
  · rintro m x rfl
    rfl
  · intro h1 h2
    match tensors, h1, h2 with
    | [], _, _ => rfl
    | [_], h, _ => simp at h
    | [_, _], _, h => simp at h
    | _ :: _ :: _ :: _, _, _ => rfl
  · intro h hb
    match tensors, h with
    | [x, y], _ => simp [arceeFusion, hb x (by simp), hb y (by simp)]

end

/-- Two different tensors of one shape. -/
example : ∃ x y : Tensor ℝ, x.shape = y.shape ∧ x.get 0 ≠ y.get 0 ∧ 0 < x.numel ∧ x.numel ≤ 1000000 :=
  ⟨⟨[2, 2], fun _ => 0⟩, ⟨[2, 2], fun i => i + 1⟩, rfl, by norm_num, by norm_num [Tensor.numel], by norm_num [Tensor.numel]⟩

end Verif.Sphere
