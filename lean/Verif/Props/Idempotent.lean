import Verif.Props.Order

/-! # C106, C107: copies of one model, and models of weight zero (methods with field operations) -/

set_option linter.unusedSectionVars false

namespace Verif.Merge

open Verif.Tensor

section
variable {K : Type} [Field K] [LinearOrder K] [IsStrictOrderedRing K] {M : Type} [DecidableEq M]

/-! ## C106, task arithmetic and its relatives -/

theorem sgn_pos {x : K} (h : 0 < x) : sgn x = 1 := by simp [sgn, h]
theorem sgn_neg {x : K} (h : x < 0) : sgn x = -1 := by simp [sgn, h, not_lt.2 h.le]
theorem sgn_zero : sgn (0 : K) = 0 := by simp [sgn]

theorem sum_pos' (l : List K) (hne : l ≠ []) (h : ∀ x ∈ l, 0 < x) : 0 < l.sum := by
  induction l with
  | nil => exact absurd rfl hne
  | cons a l ih =>
    rw [List.sum_cons]
    by_cases hl : l = []
    · subst hl
      simpa using h a (by simp)
    · exact add_pos (h a (by simp)) (ih hl (fun x hx => h x (by simp [hx])))

/-- The numerator and denominator with sign consensus, as sums over the models. -/
theorem mix_masked (method : Consensus) (es : List (K × K)) :
    mix (some method) true 1 es =
      (es.map (fun e => e.2 * e.1 * ofBool (decide (sgn (e.2 * e.1) = majority method (es.map (fun e => e.2 * e.1)))))).sum /
      (if (es.map (fun e => e.1 * ofBool (decide (sgn (e.2 * e.1) = majority method (es.map (fun e => e.2 * e.1)))))).sum = 0 then 1
        else (es.map (fun e => e.1 * ofBool (decide (sgn (e.2 * e.1) = majority method (es.map (fun e => e.2 * e.1)))))).sum) := by
  have h1 : ∀ c : K, ((es.zip ((es.map (fun e => e.2 * e.1)).map (fun d => decide (sgn d = c)))).map (fun e => e.1.1 * ofBool e.2)) =
      es.map (fun e => e.1 * ofBool (decide (sgn (e.2 * e.1) = c))) := by
    intro c
    rw [List.map_map]
    induction es with
    | nil => rfl
    | cons x xs ih => simp only [List.map_cons, List.zip_cons_cons, ih, Function.comp]
  have h2 : ∀ c : K, (((es.map (fun e => e.2 * e.1)).zip ((es.map (fun e => e.2 * e.1)).map (fun d => decide (sgn d = c)))).map
      (fun e => e.1 * (ofBool e.2 : K))) = es.map (fun e => e.2 * e.1 * ofBool (decide (sgn (e.2 * e.1) = c))) := by
    intro c
    clear h1
    rw [List.map_map]
    induction es with
    | nil => rfl
    | cons x xs ih => simp only [List.map_cons, List.zip_cons_cons, ih, Function.comp]
  unfold mix mask
  simp only [h1, h2, ne_eq, not_true_eq_false, if_false, if_true]

/-- Equal changes with positive weights: the mix is that change. -/
theorem mix_const (consensus : Option Consensus) (d : K) (es : List (K × K)) (hne : es ≠ []) (hd : ∀ e ∈ es, e.2 = d) (hw : ∀ e ∈ es, 0 < e.1)
    (hsum : consensus = none → 1 / 100000000 ≤ (es.map Prod.fst).sum) : mix consensus true 1 es = d := by
  have hpos : 0 < (es.map Prod.fst).sum := sum_pos' _ (by simpa using hne) (by
    intro x hx
    obtain ⟨e, he, rfl⟩ := List.mem_map.1 hx
    exact hw e he)
  have hnum : (es.map (fun e => e.2 * e.1)).sum = d * (es.map Prod.fst).sum := by
    rw [← List.sum_map_mul_left]
    congr 1
    exact List.map_congr_left (fun e he => by rw [hd e he])
  cases consensus with
  | none =>
    unfold mix
    simp only [ne_eq, not_true_eq_false, if_false, if_true, hnum]
    have := hsum rfl
    rw [if_neg (by rw [abs_of_pos hpos]; exact not_lt.2 this)]
    field_simp
  | some method =>
    rw [mix_masked]
    have hne' : es.map (fun e => e.2 * e.1) ≠ [] := by simpa using hne
    rcases lt_trichotomy d 0 with hlt | heq | hgt
    · have hall : ∀ e ∈ es, sgn (e.2 * e.1) = -1 := fun e he => sgn_neg (by rw [hd e he]; exact mul_neg_of_neg_of_pos hlt (hw e he))
      have hmaj : majority method (es.map (fun e => e.2 * e.1)) = -1 := by
        cases method with
        | sum =>
          simp only [majority, hnum]
          rw [if_neg (not_le.2 (mul_neg_of_neg_of_pos hlt hpos))]
        | count =>
          simp only [majority]
          rw [if_neg]
          rw [not_le, List.map_map]
          have : (es.map (sgn ∘ fun e => e.2 * e.1)) = es.map (fun _ => (-1 : K)) := List.map_congr_left (fun e he => hall e he)
          rw [this]
          have h2 := sum_pos' (es.map (fun _ => (1 : K))) (by simpa using hne) (by simp)
          have h3 : (es.map (fun _ => (-1 : K))).sum = -(es.map (fun _ => (1 : K))).sum := by simp
          rw [h3]
          exact neg_lt_zero.2 h2
      have e1 : (es.map (fun e => e.2 * e.1 * ofBool (decide (sgn (e.2 * e.1) = majority method (es.map (fun e => e.2 * e.1)))))) = es.map (fun e => e.2 * e.1) :=
        List.map_congr_left (fun e he => by rw [hmaj, hall e he]; simp [ofBool])
      have e2 : (es.map (fun e => e.1 * ofBool (decide (sgn (e.2 * e.1) = majority method (es.map (fun e => e.2 * e.1)))))) = es.map Prod.fst :=
        List.map_congr_left (fun e he => by rw [hmaj, hall e he]; simp [ofBool])
      rw [e1, e2, hnum, if_neg hpos.ne']
      field_simp
    · have e1 : (es.map (fun e => e.2 * e.1 * ofBool (decide (sgn (e.2 * e.1) = majority method (es.map (fun e => e.2 * e.1)))))) = es.map (fun _ => 0) :=
        List.map_congr_left (fun e he => by rw [hd e he, heq]; simp)
      rw [e1, heq]
      simp
    · have hall : ∀ e ∈ es, sgn (e.2 * e.1) = 1 := fun e he => sgn_pos (by rw [hd e he]; exact mul_pos hgt (hw e he))
      have hmaj : majority method (es.map (fun e => e.2 * e.1)) = 1 := by
        cases method with
        | sum =>
          simp only [majority, hnum]
          rw [if_pos (mul_pos hgt hpos).le]
        | count =>
          simp only [majority]
          rw [if_pos]
          rw [List.map_map]
          have : (es.map (sgn ∘ fun e => e.2 * e.1)) = es.map (fun _ => (1 : K)) := List.map_congr_left (fun e he => hall e he)
          rw [this]
          exact (sum_pos' (es.map (fun _ => (1 : K))) (by simpa using hne) (by simp)).le
      have e1 : (es.map (fun e => e.2 * e.1 * ofBool (decide (sgn (e.2 * e.1) = majority method (es.map (fun e => e.2 * e.1)))))) = es.map (fun e => e.2 * e.1) :=
        List.map_congr_left (fun e he => by rw [hmaj, hall e he]; simp [ofBool])
      have e2 : (es.map (fun e => e.1 * ofBool (decide (sgn (e.2 * e.1) = majority method (es.map (fun e => e.2 * e.1)))))) = es.map Prod.fst :=
        List.map_congr_left (fun e he => by rw [hmaj, hall e he]; simp [ofBool])
      rw [e1, e2, hnum, if_neg hpos.ne']
      field_simp

/-- The tensors a task-arithmetic method works on, when all have the shape of the base: those of the other models. -/
theorem aligned_same (isEmbed : Bool) (b : M) (base : Tensor K) (tensors xs : List (M × Tensor K))
    (hs : ∀ e ∈ tensors, e.1 ≠ b → e.2.shape = base.shape)
    (h : List.Forall₂ (fun e x => x.1 = e.1 ∧ Aligned isEmbed base e.2 x.2) (participants isEmbed b base tensors) xs) :
    xs = tensors.filter (fun e => decide (e.1 ≠ b)) := by
  have hp : participants isEmbed b base tensors = tensors.filter (fun e => decide (e.1 ≠ b)) := by
    unfold participants
    apply List.filter_congr
    intro e he
    by_cases hm : e.1 = b
    · simp [hm]
    · simp [hm, hs e he hm]
  rw [hp] at h
  have hsub : ∀ e ∈ tensors.filter (fun e => decide (e.1 ≠ b)), e.2.shape = base.shape := by
    intro e he
    rw [List.mem_filter] at he
    exact hs e he.1 (of_decide_eq_true he.2)
  generalize tensors.filter (fun e => decide (e.1 ≠ b)) = l at h hsub
  clear hp
  induction h with
  | nil => rfl
  | cons hx _ ih =>
    rename_i e x l xs _
    have h1 := ih (fun e he => hsub e (by simp [he]))
    rw [h1]
    obtain ⟨h2, h3⟩ := hx
    have hsh := hsub e (by simp)
    obtain ⟨m, x⟩ := x
    simp only at h2 h3
    cases h3 with
    | same h =>
      rw [h2]
    | cut r c r' c' y _ _ _ hne => exact absurd hsh hne

/-- **C106** Task arithmetic and TIES-like methods (nothing dropped): if the other models are copies of one model, with positive weights that
are normalized, the result is that model. -/
theorem C106_task_arithmetic (consensus : Option Consensus) (isEmbed : Bool) (weight : M → K) (b : M) (base : Tensor K) (x : Nat → K)
    (tensors : List (M × Tensor K)) (hb : lookup tensors b = some base)
    (hx : ∀ e ∈ tensors, e.1 ≠ b → e.2.shape = base.shape ∧ e.2.get = x) (hne : ∃ e ∈ tensors, e.1 ≠ b)
    (hw : ∀ e ∈ tensors, e.1 ≠ b → 0 < weight e.1)
    (hsum : consensus = none → 1 / 100000000 ≤ ((tensors.filter (fun e => decide (e.1 ≠ b))).map (fun e => weight e.1)).sum) :
    ∃ r, gta consensus isEmbed true 1 weight (fun _ d => .ok d) b tensors = .ok r ∧ r.shape = base.shape ∧ ∀ i, r.get i = x i := by
  obtain ⟨xs, r, h1, h2, h3, h4⟩ := gta_eq consensus isEmbed true 1 weight (fun _ d => d) b base tensors
    ⟨hb, fun _ e he hm => Or.inl (hx e he hm).1⟩
  have hxs := aligned_same isEmbed b base tensors xs (fun e he hm => (hx e he hm).1) h1
  refine ⟨r, h2, h3, fun i => ?_⟩
  rw [h4 i]
  have hmem : ∀ e ∈ xs, e ∈ tensors ∧ e.1 ≠ b := by
    intro e he
    rw [hxs, List.mem_filter] at he
    exact ⟨he.1, of_decide_eq_true he.2⟩
  rw [mix_const consensus (x i - base.get i)]
  · ring
  · obtain ⟨e, he, hm⟩ := hne
    have : e ∈ xs := by rw [hxs, List.mem_filter]; exact ⟨he, decide_eq_true hm⟩
    intro hnil
    rw [List.map_eq_nil_iff] at hnil
    rw [hnil] at this
    cases this
  · intro e he
    obtain ⟨y, hy, rfl⟩ := List.mem_map.1 he
    obtain ⟨h5, h6⟩ := hmem y hy
    simp only [diff, (hx y h5 h6).2]
  · intro e he
    obtain ⟨y, hy, rfl⟩ := List.mem_map.1 he
    obtain ⟨h5, h6⟩ := hmem y hy
    exact hw y h5 h6
  · intro hn
    rw [List.map_map, hxs]
    exact hsum hn

theorem mix_zeros (consensus : Option Consensus) (normalize : Bool) (lam : K) (es : List (K × K)) (hd : ∀ e ∈ es, e.2 = 0) :
    mix consensus normalize lam es = 0 := by
  have hnum : es.map (fun e => e.2 * e.1) = es.map (fun _ => (0 : K)) := List.map_congr_left (fun e he => by rw [hd e he, zero_mul])
  unfold mix
  cases consensus with
  | none => simp [hnum]
  | some method =>
    have h2 : ∀ mk : List Bool, ((es.map (fun _ => (0 : K))).zip mk).map (fun e => e.1 * (ofBool e.2 : K)) =
        ((es.map (fun _ => (0 : K))).zip mk).map (fun _ => (0 : K)) := by
      intro mk
      apply List.map_congr_left
      intro e he
      have := (List.of_mem_zip he).1
      obtain ⟨_, _, h⟩ := List.mem_map.1 this
      rw [← h, zero_mul]
    simp only [hnum, h2]
    simp

/-- **C106** If all models have the tensor of the base, so has the result - for every method, weights, lambda, and sparsification that leaves a
change of zero as it is. -/
theorem C106_unchanged (consensus : Option Consensus) (isEmbed normalize : Bool) (lam : K) (weight : M → K) (f : M → Tensor K → Tensor K)
    (hf : ∀ m d, (∀ i, d.get i = 0) → ∀ i, (f m d).get i = 0) (b : M) (base : Tensor K)
    (tensors : List (M × Tensor K)) (hb : lookup tensors b = some base)
    (hx : ∀ e ∈ tensors, e.2.shape = base.shape ∧ e.2.get = base.get) :
    ∃ r, gta consensus isEmbed normalize lam weight (fun m d => .ok (f m d)) b tensors = .ok r ∧ r.shape = base.shape ∧
      ∀ i, r.get i = base.get i := by
  obtain ⟨xs, r, h1, h2, h3, h4⟩ := gta_eq consensus isEmbed normalize lam weight f b base tensors
    ⟨hb, fun _ e he hm => Or.inl (hx e he).1⟩
  have hxs := aligned_same isEmbed b base tensors xs (fun e he hm => (hx e he).1) h1
  refine ⟨r, h2, h3, fun i => ?_⟩
  rw [h4 i, mix_zeros, add_zero]
  intro e he
  obtain ⟨y, hy, rfl⟩ := List.mem_map.1 he
  rw [hxs, List.mem_filter] at hy
  apply hf
  intro j
  simp only [diff, (hx y hy.1).2, sub_self]

/-! ## C106, RAM, SCE and nearswap -/

theorem changedAt_const (epsilon : K) (base : Tensor K) (x : Nat → K) (ts : List (Tensor K)) (hx : ∀ t ∈ ts, t.get = x) (i : Nat) :
    (epsilon < |x i - base.get i| → changedAt epsilon base ts i = ts) ∧ (¬ epsilon < |x i - base.get i| → changedAt epsilon base ts i = []) := by
  constructor
  · intro h
    unfold changedAt
    rw [List.filter_eq_self]
    intro t ht
    rw [hx t ht]
    exact decide_eq_true h
  · intro h
    unfold changedAt
    rw [List.filter_eq_nil_iff]
    intro t ht hd
    rw [hx t ht] at hd
    exact h (of_decide_eq_true hd)

/-- **C106** RAM: copies of one model give that model, but for changes of at most `epsilon`, which are undone. -/
theorem C106_ram (ts : List (Tensor K)) (base : Tensor K) (epsilon : K) (x : Nat → K) (hne : ts ≠ [])
    (hx : ∀ t ∈ ts, t.shape = base.shape ∧ t.get = x) :
    ∃ r, ram ts base epsilon = .ok r ∧ r.shape = base.shape ∧ ∀ i,
      r.get i = if epsilon < |x i - base.get i| then x i else base.get i := by
  obtain ⟨r, h1, h2, h3⟩ := C46_ram ts base epsilon (fun t ht => (hx t ht).1)
  refine ⟨r, h1, h2, fun i => ?_⟩
  obtain ⟨ha, hb⟩ := changedAt_const epsilon base x ts (fun t ht => (hx t ht).2) i
  obtain ⟨h4, h5, h6⟩ := h3 i
  by_cases h : epsilon < |x i - base.get i|
  · rw [if_pos h]
    rw [ha h] at h5 h6
    match ts, hne, hx, h5, h6 with
    | [t], _, hx, h5, _ => rw [h5 t rfl, (hx t (by simp)).2]
    | t :: t' :: rest, _, hx, _, h6 =>
      rw [h6 (by simp)]
      have : (t :: t' :: rest).map (fun t => t.get i) = (t :: t' :: rest).map (fun _ => x i) :=
        List.map_congr_left (fun t ht => by rw [(hx t ht).2])
      rw [this]
      simp only [List.map_const', List.sum_replicate, nsmul_eq_mul]
      have hl : (((t :: t' :: rest).length : Nat) : K) ≠ 0 := Nat.cast_ne_zero.2 (by simp)
      field_simp
  · rw [if_neg h, h4 (hb h)]

/-- **C106** RAM+: likewise, whatever the rescaling of unique changes. -/
theorem C106_ramplus (ts : List (Tensor K)) (base : Tensor K) (r alpha epsilon : K) (he : 0 < epsilon) (he1 : epsilon ≤ 1) (ha : 0 ≤ alpha)
    (x : Nat → K) (hne : ts ≠ []) (hx : ∀ t ∈ ts, t.shape = base.shape ∧ t.get = x) :
    ∃ y, ramPlus ts base r alpha epsilon = .ok y ∧ y.shape = base.shape ∧ ∀ i < base.numel,
      y.get i = if epsilon < |x i - base.get i| then x i else base.get i := by
  obtain ⟨y, h1, h2, h3⟩ := C46_ramplus ts base r alpha epsilon (fun t ht => (hx t ht).1) he he1 ha
  obtain ⟨z, g1, _, g3⟩ := C106_ram ts base epsilon x hne hx
  refine ⟨y, h1, h2, fun i hi => ?_⟩
  obtain ⟨hc, hb⟩ := changedAt_const epsilon base x ts (fun t ht => (hx t ht).2) i
  obtain ⟨h4, h5, h6⟩ := h3 i hi
  by_cases h : epsilon < |x i - base.get i|
  · rw [if_pos h]
    by_cases h2' : 2 ≤ ts.length
    · obtain ⟨z', hz', hyz⟩ := h6 (by rw [hc h]; exact h2')
      rw [g1] at hz'
      cases hz'
      rw [hyz, g3 i, if_pos h]
    · match ts, hne, h2' with
      | [t], _, _ =>
        have hs0 : sharedCount epsilon base [t] t = 0 := by
          unfold sharedCount
          rw [List.length_eq_zero_iff, List.filter_eq_nil_iff]
          intro j _ hd
          have := (of_decide_eq_true hd).2
          have hle : (changedAt epsilon base [t] j).length ≤ 1 := by
            unfold changedAt
            exact (List.length_filter_le _ _)
          omega
        rw [h5 t (hc h), hs0, (hx t (by simp)).2]
        simp only [Nat.cast_zero, zero_div]
        rw [min_eq_left ha]
        ring
      | _ :: _ :: _, _, h2' => simp at h2'
  · rw [if_neg h, h4 (hb h)]

/-- **C106** Nearswap of a model with itself. -/
theorem C106_nearswap (x : Tensor K) (t : K) : ∃ r, nearswap [x] x t = .ok r ∧ r.shape = x.shape ∧ ∀ i, r.get i = x.get i := by
  unfold nearswap map2
  simp only [if_true]
  exact ⟨_, rfl, rfl, fun i => by ring⟩

section
variable [FloorRing K]

/-- **C106** SCE with all positions selected: copies of one model give that model. -/
theorem C106_sce_partial (topk : (Nat → K) → Nat → List Nat) (ts : List (Tensor K)) (base : Tensor K) (sel : K) (hsel : 1 ≤ sel) (x : Nat → K)
    (hne : ts ≠ []) (hx : ∀ t ∈ ts, t.shape = base.shape ∧ t.get = x) :
    ∃ r, sce topk ts base sel = .ok r ∧ r.shape = base.shape ∧ ∀ i, r.get i = x i := by
  obtain ⟨r, S, h1, h2, h3, h4⟩ := C45_value_partial topk ts base sel hne (fun t ht => (hx t ht).1) (Or.inl hsel)
  refine ⟨r, h1, h2, fun i => ?_⟩
  rw [h4 i]
  have hS : ∀ j, S j = true := fun j => (h3 j).2 (Or.inl hsel)
  have hch : ∀ t ∈ ts, ∀ j, selectedChange base S t j = x j - base.get j := by
    intro t ht j
    unfold selectedChange
    rw [if_pos (hS j), (hx t ht).2]
  have hN : (ts.length : K) ≠ 0 := Nat.cast_ne_zero.2 (by simpa using hne)
  obtain ⟨q, hq⟩ : ∃ q : K, ∀ t ∈ ts, meanSquare base S t = q := by
    refine ⟨((List.range base.numel).map (fun i => (x i - base.get i) ^ 2)).sum / (base.numel : K), fun t ht => ?_⟩
    unfold meanSquare
    simp only [hch t ht]
  have hshare : ∀ t ∈ ts, sceShare base S ts t = 1 / (ts.length : K) := by
    intro t ht
    unfold sceShare
    have hsum : (ts.map (meanSquare base S)).sum = ts.length * q := by
      have : ts.map (meanSquare base S) = ts.map (fun _ => q) := List.map_congr_left hq
      rw [this]
      simp
    rw [hsum]
    split
    · rfl
    · rename_i hc
      have hq0 : q ≠ 0 := by
        rintro rfl
        apply hc
        rw [mul_zero, abs_zero]
        positivity
      rw [hq t ht]
      field_simp
  have hsumx : (ts.map (fun t => selectedChange base S t i)).sum = ts.length * (x i - base.get i) := by
    have : ts.map (fun t => selectedChange base S t i) = ts.map (fun _ => x i - base.get i) := List.map_congr_left (fun t ht => hch t ht i)
    rw [this]
    simp
  have hNp : (0 : K) < ts.length := lt_of_le_of_ne (Nat.cast_nonneg _) (Ne.symm hN)
  by_cases hd : x i - base.get i = 0
  · have hag : sceAgree base S ts i = [] := by
      unfold sceAgree
      rw [List.filter_eq_nil_iff]
      intro t ht hh
      rw [hsumx, hch t ht i, hd] at hh
      simp at hh
    rw [hag]
    simp only [List.map_nil, List.sum_nil, zero_div, add_zero]
    linarith
  · have hag : sceAgree base S ts i = ts := by
      unfold sceAgree
      rw [List.filter_eq_self]
      intro t ht
      rw [hsumx, hch t ht i]
      apply decide_eq_true
      split
      · rename_i h
        have := nonneg_of_mul_nonneg_right h hNp
        exact lt_of_le_of_ne this (Ne.symm hd)
      · rename_i h
        by_contra hh
        exact h (mul_nonneg hNp.le (not_lt.1 hh))
    rw [hag]
    have e1 : ts.map (sceShare base S ts) = ts.map (fun _ => 1 / (ts.length : K)) := List.map_congr_left hshare
    have e2 : ts.map (fun t => sceShare base S ts t * selectedChange base S t i) = ts.map (fun _ => 1 / (ts.length : K) * (x i - base.get i)) :=
      List.map_congr_left (fun t ht => by rw [hshare t ht, hch t ht i])
    rw [e1, e2]
    simp only [List.map_const', List.sum_replicate, nsmul_eq_mul]
    rw [mul_one_div_cancel hN, max_eq_left (by rw [div_le_one (by positivity)]; norm_num)]
    field_simp
    ring

/-- **C106** refuted for SCE with a selection: copies of one model give a tensor with one more dimension. -/
theorem C106_sce_copies (topk : (Nat → K) → Nat → List Nat) (ts : List (Tensor K)) (base : Tensor K) (sel : K) (h1 : sel < 1) (x : Nat → K)
    (hne : ts ≠ []) (hx : ∀ t ∈ ts, t.shape = base.shape ∧ t.get = x) :
    ∃ r, sce topk ts base sel = .ok r ∧ r.shape = ts.length :: base.shape := by
  have hN : (ts.length : K) ≠ 0 := Nat.cast_ne_zero.2 (by simpa using hne)
  unfold sce
  cases ts with
  | nil => exact absurd rfl hne
  | cons t ts =>
    simp only [subtractAll_ok base (t :: ts) (fun t ht => (hx t ht).1)]
    rw [if_pos h1]
    have hm : sceMask topk ((t :: ts).map (minus base)) base.numel sel = .stackZeros := by
      unfold sceMask
      by_cases h0 : sel ≤ 0
      · rw [if_pos h0]
      · rw [if_neg h0, if_neg (not_le.2 h1)]
        have hv : ∀ i, variance (((t :: ts).map (minus base)).map (fun d => d.get i)) = 0 := by
          intro i
          have : ((t :: ts).map (minus base)).map (fun d => d.get i) = (t :: ts).map (fun _ => x i - base.get i) := by
            rw [List.map_map]
            exact List.map_congr_left (fun t ht => by simp [minus, (hx t ht).2])
          rw [this]
          unfold variance
          simp only [List.length_map, List.map_const', List.sum_replicate, List.length_replicate, nsmul_eq_mul]
          rw [mul_div_cancel_left₀ _ hN]
          simp
        simp only [hv]
        simp
    rw [hm]
    exact ⟨_, rfl, by simp⟩

end

/-! ## C107 -/

theorem mix_nil' (consensus : Option Consensus) (normalize : Bool) (lam : K) : mix consensus normalize lam ([] : List (K × K)) = 0 := by
  have := mix_zeros consensus normalize lam ([] : List (K × K)) (by simp)
  exact this

theorem mix_cons_zero (consensus : Option Consensus) (normalize : Bool) (lam d : K) (es : List (K × K)) :
    mix consensus normalize lam ((0, d) :: es) = mix consensus normalize lam es := by
  unfold mix
  cases consensus with
  | none => simp only [List.map_cons, List.sum_cons, mul_zero, zero_add]
  | some method =>
    have hm : majority method (((0, d) :: es).map (fun e => e.2 * e.1)) = majority method (es.map (fun e => e.2 * e.1)) := by
      unfold majority
      cases method with
      | sum => simp only [List.map_cons, List.sum_cons, mul_zero, zero_add]
      | count => simp only [List.map_cons, List.sum_cons, mul_zero, sgn_zero, zero_add]
    unfold mask
    simp only [hm]
    simp only [List.map_cons, List.zip_cons_cons, List.sum_cons, mul_zero, zero_mul, zero_add]

/-- **C107** Task arithmetic and its relatives: a model of weight zero has no influence, if its tensor has the base's shape and its change can be
sparsified. -/
theorem C107_task_arithmetic_partial (consensus : Option Consensus) (isEmbed normalize : Bool) (lam : K) (weight : M → K)
    (sp : M → Tensor K → Except Err (Tensor K)) (b m : M) (x base : Tensor K) (pre post : List (M × Tensor K))
    (hn : ((pre ++ (m, x) :: post).map Prod.fst).Nodup) (hb : lookup (pre ++ (m, x) :: post) b = some base) (hm : m ≠ b)
    (hw : weight m = 0) (hs : x.shape = base.shape) (hsp : ∃ d', sp m ⟨base.shape, fun i => x.get i - base.get i⟩ = .ok d') :
    SameOutcome (gta consensus isEmbed normalize lam weight sp b (pre ++ (m, x) :: post))
      (gta consensus isEmbed normalize lam weight sp b (pre ++ post)) := by
  have hperm : (pre ++ (m, x) :: post).Perm ((m, x) :: (pre ++ post)) := List.perm_middle
  have h1 := C105_task_arithmetic consensus isEmbed normalize lam weight sp b _ _ hperm hn
  have hb' := hb
  rw [lookup_perm hperm hn b] at hb'
  have hb2 : lookup (pre ++ post) b = some base := by
    unfold lookup at hb' ⊢
    rw [List.find?_cons_of_neg (by simpa using hm)] at hb'
    exact hb'
  refine h1.trans ?_
  obtain ⟨d', hd'⟩ := hsp
  unfold gta
  rw [hb', hb2]
  simp only
  have htv : taskVectors isEmbed b base ((m, x) :: (pre ++ post)) =
      (match taskVectors isEmbed b base (pre ++ post) with
        | .error e => .error e
        | .ok ds => .ok ((m, ⟨base.shape, fun i => x.get i - base.get i⟩) :: ds)) := by
    rw [taskVectors, if_neg hm, if_neg (by simp [hs])]
    simp only [hs, if_true, map2]
    rfl
  rw [htv]
  cases taskVectors isEmbed b base (pre ++ post) with
  | error e => exact .fails _ _
  | ok ds =>
    have hcons : sparsifyAll sp ((m, ⟨base.shape, fun i => x.get i - base.get i⟩) :: ds) =
        (match sparsifyAll sp ds with
          | .error e => .error e
          | .ok ds => .ok ((m, d') :: ds)) := by
      rw [sparsifyAll, hd']
      rfl
    simp only [hcons]
    cases ds with
    | nil =>
      simp only [sparsifyAll]
      refine .gives _ _ rfl (fun i => ?_)
      simp only [List.map_cons, List.map_nil, hw, mix_cons_zero, mix_nil', add_zero]
    | cons d ds =>
      simp only
      generalize sparsifyAll sp (d :: ds) = es
      cases es with
      | error e => exact .fails _ _
      | ok ds' =>
        refine .gives _ _ rfl (fun i => ?_)
        simp only [List.map_cons, hw, mix_cons_zero]

/-- **C107** Linear: a model of weight zero has no influence among tensors of one shape. -/
theorem C107_linear_partial (isEmbed normalize : Bool) (weight : M → K) (m : M) (x : Tensor K) (pre post : List (M × Tensor K)) (s : List Nat)
    (hs : OneShape (pre ++ (m, x) :: post) s) (hne : pre ++ post ≠ []) (hw : weight m = 0) :
    SameOutcome (linear isEmbed normalize weight (pre ++ (m, x) :: post)) (linear isEmbed normalize weight (pre ++ post)) := by
  refine (C105_linear isEmbed normalize weight _ _ (List.perm_middle (l₁ := pre) (l₂ := post) (a := (m, x)))).trans ?_
  have h1 : OneShape ((m, x) :: (pre ++ post)) s := fun e he => hs e (List.perm_middle.mem_iff.2 he)
  rw [linear_eq isEmbed normalize weight _ s h1 (by simp), linear_eq isEmbed normalize weight _ s (fun e he => h1 e (by simp [he])) hne]
  have ht : totalWeight weight ((m, x) :: (pre ++ post)) = totalWeight weight (pre ++ post) := by
    unfold totalWeight
    rw [List.map_cons, List.sum_cons, hw, zero_add]
  have hg : ∀ i, weightedSum weight ((m, x) :: (pre ++ post)) i = weightedSum weight (pre ++ post) i := by
    intro i
    unfold weightedSum
    rw [List.map_cons, List.sum_cons, hw, zero_mul, zero_add]
  simp only [ht, hg]
  split
  · split
    · exact .fails _ _
    · exact .gives _ _ rfl (fun _ => rfl)
  · exact .gives _ _ rfl (fun _ => rfl)

end

/-- **C107** refuted for embeddings of several sizes: a model of weight zero with fewer rows takes away rows of the result. -/
theorem C107_linear_rows : ∃ (weight : Nat → ℚ) (big small : Tensor ℚ), weight 1 = 0 ∧
    (∃ r, linear true true weight [(0, big), (1, small)] = .ok r ∧ r.shape = [2, 1]) ∧
    ∃ r, linear true true weight [(0, big)] = .ok r ∧ r.shape = [3, 1] := by
  refine ⟨fun i => if i = 0 then 1 else 0, ⟨[3, 1], fun i => i⟩, ⟨[2, 1], fun i => i⟩, rfl, ?_, ?_⟩
  · unfold linear
    simp [rectify, takeCommonSubmatrix, minSizes, submatrix]
  · rw [linear_eq true true _ _ [3, 1] (by simp [OneShape]) (by simp), if_pos rfl, if_neg (by simp [totalWeight])]
    exact ⟨_, rfl, rfl⟩

/-! ## Cases meeting the hypotheses -/

example : ∃ (ts : List (Tensor ℚ)) (base : Tensor ℚ) (x : Nat → ℚ), ts.length = 2 ∧ ts ≠ [] ∧ (∀ t ∈ ts, t.shape = base.shape ∧ t.get = x) ∧
    (1 / 100 < |x 0 - base.get 0|) ∧ ¬ 1 / 100 < |x 1 - base.get 1| :=
  ⟨[⟨[2], fun i => if i = 0 then 1 else 1 / 1000⟩, ⟨[2], fun i => if i = 0 then 1 else 1 / 1000⟩], ⟨[2], fun _ => 0⟩,
    fun i => if i = 0 then 1 else 1 / 1000, rfl, by simp, by simp, by norm_num, by norm_num⟩

example : ∃ (weight : Nat → ℚ) (x y z : Tensor ℚ), OneShape [(0, x), (1, y), (2, z)] [2] ∧ weight 1 = 0 ∧ weight 0 ≠ 0 ∧ y.get 0 ≠ x.get 0 ∧
    lookup [(0, x), (1, y), (2, z)] 0 = some x ∧ ([(0, x), (1, y), (2, z)].map Prod.fst).Nodup :=
  ⟨fun i => if i = 1 then 0 else 1, ⟨[2], fun _ => 1⟩, ⟨[2], fun _ => 2⟩, ⟨[2], fun _ => 3⟩, by simp [OneShape], by simp, by simp, by norm_num,
    rfl, by decide⟩

end Verif.Merge
