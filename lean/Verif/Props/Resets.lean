import Verif.Model.Resets
import Verif.Props.Omp
import Mathlib.Analysis.Complex.Basic
import Mathlib.Analysis.InnerProductSpace.Basic

/-! # C127: matching pursuit with resets -/

namespace Verif.Resets

open Finset
open Verif.Omp (IsArgmax combine combine_range)

variable {E : Type} [NormedAddCommGroup E] [InnerProductSpace ℝ E]

/-! ## The order of the places -/

/-- What `torch.randperm(k)` gives. -/
def Shuffles (k : Nat) (perms : Nat → List Nat) : Prop := ∀ j, (perms j).Perm (List.range k)

/-- The places: in order first, then `m` permutations. -/
def places (perms : Nat → List Nat) (k m : Nat) : List Nat := List.range k ++ (List.range m).flatMap perms

theorem places_succ (perms : Nat → List Nat) (k m : Nat) : places perms k (m + 1) = places perms k m ++ perms m := by
  unfold places
  rw [List.range_succ (n := m), List.flatMap_append]
  simp

theorem places_length {perms : Nat → List Nat} {k : Nat} (h : Shuffles k perms) (m : Nat) : (places perms k m).length = k + m * k := by
  induction m with
  | zero => simp [places]
  | succ m ih =>
    rw [places_succ, List.length_append, ih, (h m).length_eq, List.length_range, Nat.succ_mul]
    omega

theorem places_prefix (perms : Nat → List Nat) (k : Nat) {m m' : Nat} (h : m ≤ m') : places perms k m <+: places perms k m' := by
  induction m', h using Nat.le_induction with
  | base => exact List.prefix_rfl
  | succ m' _ ih =>
    rw [places_succ]
    exact ih.trans (List.prefix_append _ _)

theorem fillUp_ok {perms : Nat → List Nat} {k : Nat} (h : Shuffles k perms) (hk : 0 < k) (total fuel j : Nat) (h0 : 0 < fuel)
    (hf : total < (places perms k j).length + fuel) :
    ∃ m, fillUp perms total fuel j (places perms k j) = some (places perms k m) ∧ total ≤ (places perms k m).length := by
  induction fuel generalizing j with
  | zero => omega
  | succ fuel ih =>
    unfold fillUp
    by_cases hl : (places perms k j).length < total
    · rw [if_pos hl, ← places_succ]
      apply ih
      · omega
      · rw [places_length h] at hf ⊢
        rw [Nat.succ_mul]
        omega
    · rw [if_neg hl]
      exact ⟨j, rfl, by omega⟩

theorem order_ok {perms : Nat → List Nat} {k : Nat} (h : Shuffles k perms) (hk : 0 < k) (total : Nat) :
    ∃ m, order perms k total = some ((places perms k m).take total) ∧ total ≤ (places perms k m).length := by
  have e : places perms k 0 = List.range k := by simp [places]
  obtain ⟨m, h1, h2⟩ := fillUp_ok h hk total (total + 1) 0 (by omega) (by rw [e]; simp; omega)
  rw [e] at h1
  exact ⟨m, by unfold order; rw [h1], h2⟩

theorem places_take {perms : Nat → List Nat} {k : Nat} {m m' total : Nat} (h1 : total ≤ (places perms k m).length)
    (h2 : total ≤ (places perms k m').length) : (places perms k m).take total = (places perms k m').take total := by
  have key : ∀ {m m'}, m ≤ m' → total ≤ (places perms k m).length → (places perms k m).take total = (places perms k m').take total := by
    intro m m' hm hl
    obtain ⟨x, hx⟩ := places_prefix perms k hm
    rw [← hx, List.take_append_of_le_length hl]
  rcases Nat.le_total m m' with h | h
  · exact key h h1
  · exact (key h h2).symm

/-- The order for one more iteration is that for fewer with a place appended. -/
theorem order_succ {perms : Nat → List Nat} {k : Nat} (h : Shuffles k perms) (hk : 0 < k) (total : Nat) :
    ∃ l t, order perms k total = some l ∧ l.length = total ∧ order perms k (total + 1) = some (l ++ [t]) ∧ t < k := by
  obtain ⟨m, h1, h2⟩ := order_ok h hk total
  obtain ⟨m', h3, h4⟩ := order_ok h hk (total + 1)
  have hlt : total < (places perms k m').length := by omega
  refine ⟨_, (places perms k m')[total], h1, by rw [List.length_take]; omega, ?_, ?_⟩
  · rw [h3, places_take h2 (by omega : total ≤ (places perms k m').length), List.take_append_getElem hlt]
  · have hm := List.getElem_mem hlt
    unfold places at hm
    rw [List.mem_append, List.mem_range, List.mem_flatMap] at hm
    rcases hm with hm | ⟨j, _, hj⟩
    · exact hm
    · exact List.mem_range.1 ((h j).mem_iff.1 hj)

/-- The first `k` iterations fill the places in order. -/
theorem order_first {perms : Nat → List Nat} {k : Nat} (h : Shuffles k perms) (hk : 0 < k) (total : Nat) (ht : k ≤ total) :
    ∃ r, order perms k total = some (List.range k ++ r) ∧ ∀ t ∈ r, t < k := by
  obtain ⟨m, h1, h2⟩ := order_ok h hk total
  refine ⟨((List.range m).flatMap perms).take (total - k), ?_, ?_⟩
  · rw [h1]
    unfold places
    rw [List.take_append, List.length_range, List.take_of_length_le (by simpa using ht)]
  · intro t hm
    obtain ⟨j, _, hj⟩ := List.mem_flatMap.1 (List.mem_of_mem_take hm)
    exact List.mem_range.1 ((h j).mem_iff.1 hj)

/-! ## The choice of candidates -/

/-- The places `F` are filled with different candidates, the mask knows them, and the residual is what their combination leaves. -/
structure Filled (count : Nat) (points : Nat → E) (target : E) (F : Finset Nat) (s : State E) : Prop where
  lt : ∀ i ∈ F, s.selected i < count
  mask : ∀ m, s.mask m = true ↔ ∃ i ∈ F, s.selected i = m
  inj : ∀ i ∈ F, ∀ j ∈ F, s.selected i = s.selected j → i = j
  residual : s.residual = target - ∑ i ∈ F, s.coeff i • points (s.selected i)

variable {argmax : (Nat → WithBot ℝ) → Nat} {count : Nat} {points : Nat → E} {target : E} {eps : ℝ}

theorem start_filled : Filled count points target ∅ (start target) where
  lt := by simp
  mask := by simp [start]
  inj := by simp
  residual := by simp [start]

/-- The candidate chosen is a new one, and no other new one has a larger product. -/
theorem chosen (ha : IsArgmax count argmax) {F : Finset Nat} {s : State E} (h : Filled count points target F s) (hc : F.card < count) :
    argmax (score points s) < count ∧ s.mask (argmax (score points s)) = false ∧
      ∀ i < count, s.mask i = false → (inner ℝ s.residual (points i) : ℝ) ≤ inner ℝ s.residual (points (argmax (score points s))) := by
  obtain ⟨h1, h2⟩ := ha (by omega) (score points s)
  have hnew : s.mask (argmax (score points s)) = false := by
    by_contra hm
    rw [Bool.not_eq_false] at hm
    have hall : ∀ m < count, s.mask m = true := by
      intro m hm'
      by_contra hm2
      have := h2 m hm'
      have e1 : score points s m = ((inner ℝ s.residual (points m) : ℝ) : WithBot ℝ) := if_neg hm2
      have e2 : score points s (argmax (score points s)) = ⊥ := if_pos hm
      rw [e1, e2] at this
      exact absurd this (by simp)
    have hsub : Finset.range count ⊆ F.image s.selected := by
      intro m hm'
      obtain ⟨i, hi, he⟩ := (h.mask m).1 (hall m (Finset.mem_range.1 hm'))
      exact Finset.mem_image.2 ⟨i, hi, he⟩
    have := (Finset.card_le_card hsub).trans Finset.card_image_le
    rw [Finset.card_range] at this
    omega
  refine ⟨h1, hnew, ?_⟩
  intro i hi hm
  have := h2 i hi
  have e1 : score points s i = ((inner ℝ s.residual (points i) : ℝ) : WithBot ℝ) := if_neg (by simp [hm])
  have e2 : score points s (argmax (score points s)) = ((inner ℝ s.residual (points (argmax (score points s))) : ℝ) : WithBot ℝ) := if_neg (by simp [hnew])
  rw [e1, e2] at this
  exact_mod_cast this

theorem put_filled (ha : IsArgmax count argmax) {F : Finset Nat} {s : State E} (h : Filled count points target F s) (hc : F.card < count) {t : Nat}
    (ht : t ∉ F) : Filled count points target (insert t F) (put argmax eps points t s) := by
  obtain ⟨h1, h2, _⟩ := chosen ha h hc
  have hne : ∀ i ∈ F, i ≠ t := fun i hi he => ht (he ▸ hi)
  have hsel : ∀ i ∈ F, (put argmax eps points t s).selected i = s.selected i := fun i hi => if_neg (hne i hi)
  have hselt : (put argmax eps points t s).selected t = argmax (score points s) := if_pos rfl
  have hfresh : ∀ i ∈ F, s.selected i ≠ argmax (score points s) := by
    intro i hi he
    rw [(h.mask _).2 ⟨i, hi, he⟩] at h2
    cases h2
  refine ⟨?_, ?_, ?_, ?_⟩
  · intro i hi
    rcases Finset.mem_insert.1 hi with rfl | hi
    · rw [hselt]
      exact h1
    · rw [hsel i hi]
      exact h.lt i hi
  · intro m
    have hm : (put argmax eps points t s).mask m = if m = argmax (score points s) then true else s.mask m := rfl
    rw [hm]
    constructor
    · intro hh
      split at hh
      · rename_i he
        exact ⟨t, by simp, by rw [hselt, he]⟩
      · obtain ⟨i, hi, he⟩ := (h.mask m).1 hh
        exact ⟨i, by simp [hi], by rw [hsel i hi, he]⟩
    · rintro ⟨i, hi, he⟩
      rcases Finset.mem_insert.1 hi with rfl | hi
      · rw [hselt] at he
        rw [if_pos he.symm]
      · rw [hsel i hi] at he
        split
        · rfl
        · exact (h.mask m).2 ⟨i, hi, he⟩
  · intro i hi j hj he
    rcases Finset.mem_insert.1 hi with e1 | hi' <;> rcases Finset.mem_insert.1 hj with e2 | hj'
    · rw [e1, e2]
    · rw [e1, hselt, hsel j hj'] at he
      exact absurd he.symm (hfresh j hj')
    · rw [e2, hselt, hsel i hi'] at he
      exact absurd he (hfresh i hi')
    · rw [hsel i hi', hsel j hj'] at he
      exact h.inj i hi' j hj' he
  · rw [Finset.sum_insert ht]
    have hsum : ∑ i ∈ F, (put argmax eps points t s).coeff i • points ((put argmax eps points t s).selected i) = ∑ i ∈ F, s.coeff i • points (s.selected i) := by
      refine Finset.sum_congr rfl ?_
      intro i hi
      rw [hsel i hi]
      congr 1
      exact if_neg (hne i hi)
    rw [hsum, hselt]
    have hr : (put argmax eps points t s).residual = s.residual - (put argmax eps points t s).coeff t • points (argmax (score points s)) := by
      simp [put]
    rw [hr, h.residual]
    abel

theorem remove_filled {F : Finset Nat} {s : State E} (h : Filled count points target F s) {t : Nat} (ht : t ∈ F) :
    Filled count points target (F.erase t) (remove points t s) := by
  refine ⟨?_, ?_, ?_, ?_⟩
  · intro i hi
    exact h.lt i (Finset.mem_of_mem_erase hi)
  · intro m
    have hm : (remove points t s).mask m = if m = s.selected t then false else s.mask m := rfl
    rw [hm]
    constructor
    · intro hh
      split at hh
      · cases hh
      · rename_i hne
        obtain ⟨i, hi, he⟩ := (h.mask m).1 hh
        exact ⟨i, Finset.mem_erase.2 ⟨by rintro rfl; exact hne he.symm, hi⟩, he⟩
    · rintro ⟨i, hi, he⟩
      obtain ⟨hne, hi⟩ := Finset.mem_erase.1 hi
      change s.selected i = m at he
      rw [if_neg, (h.mask m).2 ⟨i, hi, he⟩]
      intro hm
      exact hne (h.inj i hi t ht (he.trans hm))
  · intro i hi j hj he
    exact h.inj i (Finset.mem_of_mem_erase hi) j (Finset.mem_of_mem_erase hj) he
  · have hr : (remove points t s).residual = s.residual + s.coeff t • points (s.selected t) := rfl
    have hs : ∑ i ∈ F.erase t, (remove points t s).coeff i • points ((remove points t s).selected i) = ∑ i ∈ F.erase t, s.coeff i • points (s.selected i) := rfl
    rw [hr, hs, h.residual, ← Finset.add_sum_erase F (fun i => s.coeff i • points (s.selected i)) ht]
    abel

theorem loop_one (k n t : Nat) (s : State E) :
    loop argmax eps points k n [t] s = if n < k then put argmax eps points t s else put argmax eps points t (remove points t s) := rfl

theorem loop_append (k n : Nat) (a b : List Nat) (s : State E) :
    loop argmax eps points k n (a ++ b) s = loop argmax eps points k (n + a.length) b (loop argmax eps points k n a s) := by
  induction a generalizing n s with
  | nil => rfl
  | cons t a ih =>
    simp only [List.cons_append, loop, ih, List.length_cons]
    congr 1
    omega

theorem loop_first (ha : IsArgmax count argmax) {k : Nat} (hk : k ≤ count) (n : Nat) (hn : n ≤ k) :
    Filled count points target (range n) (loop argmax eps points k 0 (List.range n) (start target)) := by
  induction n with
  | zero => exact start_filled
  | succ n ih =>
    rw [List.range_succ, loop_append, List.length_range, Nat.zero_add]
    unfold loop loop
    rw [if_pos (by omega)]
    have h := put_filled (eps := eps) ha (ih (by omega)) (by rw [card_range]; omega) (t := n) (by simp)
    rwa [← Finset.range_add_one] at h

theorem step_filled (ha : IsArgmax count argmax) {k : Nat} (hk : k ≤ count) {s : State E} (h : Filled count points target (range k) s) {t : Nat} (ht : t < k) :
    Filled count points target (range k) (put argmax eps points t (remove points t s)) := by
  have h1 := remove_filled h (t := t) (by simpa using ht)
  have h2 := put_filled (eps := eps) ha h1 (by rw [card_erase_of_mem (by simpa using ht), card_range]; omega) (t := t) (by simp)
  rwa [Finset.insert_erase (by simpa using ht)] at h2

theorem loop_later (ha : IsArgmax count argmax) {k : Nat} (hk : k ≤ count) (r : List Nat) (hr : ∀ t ∈ r, t < k) (n : Nat) (hn : k ≤ n) {s : State E}
    (h : Filled count points target (range k) s) : Filled count points target (range k) (loop argmax eps points k n r s) := by
  induction r generalizing n s with
  | nil => exact h
  | cons t r ih =>
    unfold loop
    rw [if_neg (by omega)]
    exact ih (fun x hx => hr x (by simp [hx])) (n + 1) (by omega) (step_filled ha hk h (hr t (by simp)))

theorem loop_filled (ha : IsArgmax count argmax) {perms : Nat → List Nat} {k : Nat} (h : Shuffles k perms) (hk0 : 0 < k) (hk : k ≤ count) {total : Nat}
    (ht : k ≤ total) {l : List Nat} (hl : order perms k total = some l) :
    Filled count points target (range k) (loop argmax eps points k 0 l (start target)) := by
  obtain ⟨r, h1, h2⟩ := order_first h hk0 total ht
  rw [h1] at hl
  cases hl
  rw [loop_append]
  exact loop_later ha hk r h2 _ (by simp) (loop_first ha hk k (le_refl _))

/-! ## C127 -/

/-- C127: fewer iterations than places and more places than candidates are refused; otherwise there is a result, unless iterations without places are asked
for: then there is no end. -/
theorem C127_refused (argmax : (Nat → WithBot ℝ) → Nat) {perms : Nat → List Nat} (eps : ℝ) (points : Nat → E) (count : Nat) (target : E) (k : Nat)
    (h : Shuffles k perms) (iterations : Option Nat) :
    (iterations.getD (k * 3) < k ∨ count < k → run argmax perms eps points count target k iterations = .error .value) ∧
    (k ≤ iterations.getD (k * 3) → k ≤ count → 0 < k ∨ iterations.getD (k * 3) = 0 →
      ∃ sel co, run argmax perms eps points count target k iterations = .ok (sel, co)) ∧
    (k = 0 → 0 < iterations.getD (k * 3) → run argmax perms eps points count target k iterations = .error .endless) := by
  refine ⟨?_, ?_, ?_⟩
  · intro hh
    unfold run
    simp only
    split
    · rfl
    · rw [if_pos (by omega)]
  · intro h1 h2 h3
    unfold run
    simp only
    rw [if_neg (by omega), if_neg (by omega)]
    rcases h3 with h3 | h3
    · obtain ⟨m, hm, _⟩ := order_ok h h3 (iterations.getD (k * 3))
      rw [hm]
      exact ⟨_, _, rfl⟩
    · rw [h3]
      have : order perms k 0 = some [] := by
        unfold order fillUp
        simp
      rw [this]
      exact ⟨_, _, rfl⟩
  · rintro rfl h2
    unfold run
    simp only
    rw [if_neg (by omega), if_neg (by omega)]
    have hp : ∀ j, perms j = [] := fun j => (h j).eq_nil
    have : ∀ total, 0 < total → ∀ fuel j, fillUp perms total fuel j [] = none := by
      intro total ht fuel
      induction fuel with
      | zero => intro j; rfl
      | succ fuel ih =>
        intro j
        unfold fillUp
        rw [if_pos (by simpa using ht), hp j]
        exact ih (j + 1)
    have ho : order perms 0 (iterations.getD (0 * 3)) = none := by
      unfold order
      rw [List.range_zero, this _ h2]
    rw [ho]

theorem run_state {perms : Nat → List Nat} {k : Nat} {iterations : Option Nat} {sel : List Nat} {co : List ℝ}
    (hr : run argmax perms eps points count target k iterations = .ok (sel, co)) :
    k ≤ iterations.getD (k * 3) ∧ k ≤ count ∧ ∃ l, order perms k (iterations.getD (k * 3)) = some l ∧
      sel = (List.range k).map (loop argmax eps points k 0 l (start target)).selected ∧
      co = (List.range k).map (loop argmax eps points k 0 l (start target)).coeff := by
  unfold run at hr
  simp only at hr
  split at hr
  · cases hr
  · split at hr
    · cases hr
    · split at hr
      · cases hr
      · rename_i l hl
        cases hr
        exact ⟨by omega, by omega, l, hl, rfl, rfl⟩

theorem run_filled (ha : IsArgmax count argmax) {perms : Nat → List Nat} {k : Nat} (h : Shuffles k perms) {iterations : Option Nat} {sel : List Nat}
    {co : List ℝ} (hr : run argmax perms eps points count target k iterations = .ok (sel, co)) :
    ∃ l, order perms k (iterations.getD (k * 3)) = some l ∧ Filled count points target (range k) (loop argmax eps points k 0 l (start target)) := by
  obtain ⟨h1, h2, l, hl, _, _⟩ := run_state hr
  refine ⟨l, hl, ?_⟩
  rcases Nat.eq_zero_or_pos k with rfl | h0
  · have : l = [] := by
      by_contra hne
      rcases Nat.eq_zero_or_pos (iterations.getD (0 * 3)) with hz | hz
      · rw [hz] at hl
        unfold order fillUp at hl
        simp at hl
        exact hne hl
      · have := (C127_refused argmax eps points count target 0 h iterations).2.2 rfl hz
        rw [hr] at this
        cases this
    rw [this]
    exact start_filled
  · exact loop_filled ha h h0 h2 h1 hl

/-- C127: the candidates selected are different, and as many as asked for, however often they were replaced. -/
theorem C127_distinct (ha : IsArgmax count argmax) {perms : Nat → List Nat} {k : Nat} (h : Shuffles k perms) {iterations : Option Nat} {sel : List Nat}
    {co : List ℝ} (hr : run argmax perms eps points count target k iterations = .ok (sel, co)) :
    sel.length = k ∧ co.length = k ∧ sel.Nodup ∧ ∀ i ∈ sel, i < count := by
  obtain ⟨l, hl, hf⟩ := run_filled ha h hr
  obtain ⟨_, _, l', hl', rfl, rfl⟩ := run_state hr
  rw [hl] at hl'
  cases hl'
  refine ⟨by simp, by simp, ?_, ?_⟩
  · refine List.Nodup.map_on ?_ List.nodup_range
    intro i hi j hj
    exact hf.inj i (by simpa using hi) j (by simpa using hj)
  · intro i hi
    obtain ⟨j, hj, rfl⟩ := List.mem_map.1 hi
    exact hf.lt j (by simpa using hj)

theorem error_residual {k : Nat} {s : State E} (h : Filled count points target (range k) s) :
    target - combine points ((List.range k).map s.selected) ((List.range k).map s.coeff) = s.residual := by
  rw [combine_range, h.residual]

/-- Subtracting a multiple of a vector, found with a positive `eps`, makes a vector no longer. -/
theorem shorter (he : 0 < eps) (r p : E) : ‖r - ((inner ℝ r p : ℝ) / ((inner ℝ p p : ℝ) + eps)) • p‖ ≤ ‖r‖ := by
  have hp : (0 : ℝ) ≤ inner ℝ p p := real_inner_self_nonneg
  have hD : 0 < (inner ℝ p p : ℝ) + eps := by linarith
  rw [← sq_le_sq₀ (norm_nonneg _) (norm_nonneg _), norm_sub_sq_real, inner_smul_right, norm_smul, mul_pow, ← real_inner_self_eq_norm_sq p]
  set a : ℝ := inner ℝ r p
  set b : ℝ := inner ℝ p p
  have e : ‖a / (b + eps)‖ ^ 2 = a ^ 2 / (b + eps) ^ 2 := by rw [Real.norm_eq_abs, sq_abs, div_pow]
  rw [e]
  have h2 : a ^ 2 / (b + eps) ^ 2 * b ≤ 2 * (a / (b + eps) * a) := by
    rw [div_mul_eq_mul_div, div_mul_eq_mul_div, ← mul_div_assoc, div_le_div_iff₀ (by positivity) hD]
    have : 0 ≤ a ^ 2 * (b + eps) * (b + 2 * eps) := by positivity
    nlinarith
  linarith

/-- C127: without replacements, what is selected is no worse than nothing, and selecting more is no worse than selecting fewer. -/
theorem C127_initial (ha : IsArgmax count argmax) {perms perms' : Nat → List Nat} (he : 0 < eps) {k : Nat} (h : Shuffles k perms) {sel : List Nat} {co : List ℝ}
    (hr : run argmax perms eps points count target k (some k) = .ok (sel, co)) :
    ‖target - combine points sel co‖ ≤ ‖target‖ ∧
    (Shuffles (k + 1) perms' → ∀ sel' co', run argmax perms' eps points count target (k + 1) (some (k + 1)) = .ok (sel', co') →
      ‖target - combine points sel' co'‖ ≤ ‖target - combine points sel co‖) := by
  have hres : ∀ (k : Nat) (perms : Nat → List Nat), Shuffles k perms → ∀ sel co, run argmax perms eps points count target k (some k) = .ok (sel, co) →
      target - combine points sel co = (loop argmax eps points k 0 (List.range k) (start target)).residual := by
    intro k perms h sel co hr
    obtain ⟨l, hl, hf⟩ := run_filled ha h hr
    obtain ⟨_, hk, l', hl', rfl, rfl⟩ := run_state hr
    rw [hl] at hl'
    cases hl'
    have : l = List.range k := by
      rcases Nat.eq_zero_or_pos k with rfl | h0
      · unfold order fillUp at hl
        simp at hl
        simp [hl]
      · obtain ⟨r, h1, _⟩ := order_first h h0 k (le_refl _)
        obtain ⟨m, h2, h3⟩ := order_ok h h0 k
        rw [Option.getD_some, h1] at hl
        cases hl
        rw [h1] at h2
        have := congrArg List.length (Option.some.inj h2)
        rw [List.length_append, List.length_take, List.length_range] at this
        have : r.length = 0 := by omega
        rw [List.length_eq_zero_iff.1 this, List.append_nil]
    subst this
    rw [error_residual hf]
  -- the loop does not look at the number of places
  have hmono : ∀ (k' n : Nat), n + 1 ≤ k' → ‖(loop argmax eps points k' 0 (List.range (n + 1)) (start target)).residual‖ ≤
      ‖(loop argmax eps points k' 0 (List.range n) (start target)).residual‖ := by
    intro k' n hn
    rw [List.range_succ, loop_append, List.length_range, Nat.zero_add]
    rw [loop_one, if_pos (by omega)]
    exact shorter he (loop argmax eps points k' 0 (List.range n) (start target)).residual (points _)
  have hsame : ∀ (k' k'' n : Nat), n ≤ k' → n ≤ k'' → loop argmax eps points k' 0 (List.range n) (start target) =
      loop argmax eps points k'' 0 (List.range n) (start target) := by
    intro k' k'' n
    induction n with
    | zero => intro _ _; rfl
    | succ n ih =>
      intro h1 h2
      rw [List.range_succ, loop_append, loop_append, ih (by omega) (by omega), List.length_range, Nat.zero_add]
      unfold loop loop
      rw [if_pos (by omega), if_pos (by omega)]
  rw [hres k perms h sel co hr]
  constructor
  · have : ∀ n, n ≤ k → ‖(loop argmax eps points k 0 (List.range n) (start target)).residual‖ ≤ ‖target‖ := by
      intro n
      induction n with
      | zero => intro _; exact le_refl _
      | succ n ih => intro hn; exact (hmono k n hn).trans (ih (by omega))
    exact this k (le_refl _)
  · intro h' sel' co' hr'
    rw [hres (k + 1) perms' h' sel' co' hr', hsame k (k + 1) k (le_refl _) (by omega)]
    exact hmono (k + 1) k (le_refl _)

/-- C127 (partial: for candidates of one length, without `eps`, and if the coefficient that is replaced is not negative): one more replacement is no worse. -/
theorem C127_replacement_partial (ha : IsArgmax count argmax) {perms : Nat → List Nat} {k : Nat} (hk : 0 < k) (h : Shuffles k perms) {ν : ℝ} (hν : 0 < ν)
    (hlen : ∀ i < count, ‖points i‖ = ν) {total : Nat} {sel sel' : List Nat} {co co' : List ℝ}
    (hr : run argmax perms 0 points count target k (some total) = .ok (sel, co))
    (hr' : run argmax perms 0 points count target k (some (total + 1)) = .ok (sel', co')) (hco : ∀ c ∈ co, 0 ≤ c) :
    ‖target - combine points sel' co'‖ ≤ ‖target - combine points sel co‖ := by
  obtain ⟨l, t, h1, hlen', h2, ht⟩ := order_succ h hk total
  obtain ⟨l1, hl1, hf⟩ := run_filled ha h hr
  obtain ⟨hkt, hkc, l2, hl2, rfl, rfl⟩ := run_state hr
  obtain ⟨l3, hl3, hf'⟩ := run_filled ha h hr'
  obtain ⟨_, _, l4, hl4, rfl, rfl⟩ := run_state hr'
  simp only [Option.getD_some] at hl1 hl2 hl3 hl4 hkt
  rw [h1] at hl1 hl2
  cases hl1
  cases hl2
  rw [h2] at hl3 hl4
  cases hl3
  cases hl4
  rw [error_residual hf, error_residual hf', loop_append, Nat.zero_add, hlen']
  have hco' := hco _ (List.mem_map.2 ⟨t, List.mem_range.2 ht, rfl⟩)
  set s := loop argmax 0 points k 0 l (start target)
  unfold loop loop
  rw [if_neg (by omega)]
  have hrem := remove_filled hf (t := t) (by simpa using ht)
  obtain ⟨c1, c2, c3⟩ := chosen ha hrem (by rw [card_erase_of_mem (by simpa using ht), card_range]; omega)
  have hold := c3 (s.selected t) (hf.lt t (by simpa using ht)) (if_pos rfl)
  set i := argmax (score points (remove points t s))
  have er : (remove points t s).residual = s.residual + s.coeff t • points (s.selected t) := rfl
  have ep : (put argmax 0 points t (remove points t s)).residual = (remove points t s).residual -
      ((inner ℝ (remove points t s).residual (points i) : ℝ) / ((inner ℝ (points i) (points i) : ℝ) + 0)) • points i := rfl
  rw [ep]
  have es : s.residual = (remove points t s).residual - s.coeff t • points (s.selected t) := by rw [er]; abel
  rw [es]
  set R := (remove points t s).residual
  rw [← sq_le_sq₀ (norm_nonneg _) (norm_nonneg _), norm_sub_sq_real, norm_sub_sq_real, inner_smul_right, inner_smul_right, norm_smul, norm_smul, mul_pow,
    mul_pow, real_inner_self_eq_norm_sq, hlen i c1, hlen _ (hf.lt t (by simpa using ht)), Real.norm_eq_abs, Real.norm_eq_abs, sq_abs, sq_abs, add_zero]
  set m : ℝ := inner ℝ R (points i)
  set a : ℝ := inner ℝ R (points (s.selected t))
  set c := s.coeff t
  have hν2 : 0 < ν ^ 2 := by positivity
  have e1 : (m / ν ^ 2) ^ 2 * ν ^ 2 = m ^ 2 / ν ^ 2 := by field_simp
  have e2 : m / ν ^ 2 * m = m ^ 2 / ν ^ 2 := by ring
  rw [e1, e2]
  have key : 2 * (c * a) - c ^ 2 * ν ^ 2 ≤ m ^ 2 / ν ^ 2 := by
    rw [le_div_iff₀ hν2]
    rcases le_total a 0 with ha0 | ha0
    · have : c * a ≤ 0 := mul_nonpos_of_nonneg_of_nonpos hco' ha0
      have h3 : (2 * (c * a) - c ^ 2 * ν ^ 2) * ν ^ 2 ≤ 0 := mul_nonpos_of_nonpos_of_nonneg (by nlinarith [sq_nonneg (c * ν)]) hν2.le
      nlinarith [sq_nonneg m]
    · have : a ^ 2 ≤ m ^ 2 := pow_le_pow_left₀ ha0 hold 2
      nlinarith [sq_nonneg (c * ν ^ 2 - a)]
  linarith

theorem picks {n : Nat} {argmax : (Nat → WithBot ℝ) → Nat} (ha : IsArgmax n argmax) {f : Nat → WithBot ℝ} {i : Nat} (hi : i < n)
    (h : ∀ j < n, j ≠ i → f j < f i) : argmax f = i := by
  obtain ⟨h1, h2⟩ := ha (by omega) f
  by_contra hne
  exact absurd (h2 i hi) (not_le.2 (h _ h1 hne))

theorem inner_plane (z w : ℂ) : (inner ℝ z w : ℝ) = z.re * w.re + z.im * w.im := by
  rw [Complex.inner]
  simp [Complex.mul_re]
  ring

theorem score_lt {s : State E} {i j : Nat} (hj : s.mask j = false) (h : s.mask i = true ∨ (inner ℝ s.residual (points i) : ℝ) < inner ℝ s.residual (points j)) :
    score points s i < score points s j := by
  have ej : score points s j = ((inner ℝ s.residual (points j) : ℝ) : WithBot ℝ) := if_neg (by simp [hj])
  rw [ej]
  unfold score
  split
  · exact WithBot.bot_lt_coe _
  · rename_i hi
    rcases h with h | h
    · exact absurd h hi
    · exact_mod_cast h

/-- What a round with a known choice does. -/
theorem put_eq {s : State E} {i t : Nat} {c : ℝ} {r : E} (h : argmax (score points s) = i)
    (hc : (inner ℝ s.residual (points i) : ℝ) / ((inner ℝ (points i) (points i) : ℝ) + eps) = c) (hr : s.residual - c • points i = r) :
    put argmax eps points t s = { selected := fun l => if l = t then i else s.selected l, mask := fun m => if m = i then true else s.mask m, coeff := fun l => if l = t then c else s.coeff l, residual := r } := by
  subst h hc hr
  rfl

/-- Three candidates in the plane. -/
noncomputable def three : Nat → ℂ
  | 0 => ⟨0, 2⟩
  | 1 => ⟨1, 0⟩
  | _ => ⟨-2, 3⟩

/-- C127: in general a replacement can be worse.  Two of three candidates in the plane give the target exactly; the first replacement loses that. -/
theorem C127_worse {argmax : (Nat → WithBot ℝ) → Nat} (ha : IsArgmax 3 argmax) {perms : Nat → List Nat} (hp : perms 0 = [0, 1]) :
    run argmax perms 0 three 3 ⟨1, 1⟩ 2 (some 2) = .ok ([0, 1], [1 / 2, 1]) ∧ combine three [0, 1] [1 / 2, 1] = ⟨1, 1⟩ ∧
    run argmax perms 0 three 3 ⟨1, 1⟩ 2 (some 3) = .ok ([2, 1], [3 / 13, 1]) ∧
      ‖(⟨1, 1⟩ : ℂ) - combine three [2, 1] [3 / 13, 1]‖ ^ 2 = 4 / 13 := by
  have e0 : order perms 2 2 = some [0, 1] := by
    simp [order, fillUp, List.range_succ]
  have e1 : order perms 2 3 = some [0, 1, 0] := by
    simp [order, fillUp, List.range_succ, hp]
  have p0 : put argmax 0 three 0 (start (⟨1, 1⟩ : ℂ)) =
      { selected := fun l => if l = 0 then 0 else 0, mask := fun m => if m = 0 then true else false, coeff := fun l => if l = 0 then 1 / 2 else 0, residual := ⟨1, 0⟩ } := by
    refine put_eq (picks ha (by omega) ?_) ?_ ?_
    · intro j hj hne
      have : j = 1 ∨ j = 2 := by omega
      refine score_lt rfl (Or.inr ?_)
      rcases this with rfl | rfl <;> simp only [start, inner_plane, three] <;> norm_num
    · simp only [start, inner_plane, three]
      norm_num
    · apply Complex.ext <;> simp [start, three]
  have p1 : put argmax 0 three 1 (put argmax 0 three 0 (start (⟨1, 1⟩ : ℂ))) =
      { selected := fun l => if l = 1 then 1 else if l = 0 then 0 else 0, mask := fun m => if m = 1 then true else if m = 0 then true else false,
        coeff := fun l => if l = 1 then 1 else if l = 0 then 1 / 2 else 0, residual := ⟨0, 0⟩ } := by
    rw [p0]
    refine put_eq (picks ha (by omega) ?_) ?_ ?_
    · intro j hj hne
      have : j = 0 ∨ j = 2 := by omega
      refine score_lt rfl ?_
      rcases this with rfl | rfl
      · exact Or.inl rfl
      · right
        simp only [inner_plane, three]
        norm_num
    · simp only [inner_plane, three]
      norm_num
    · apply Complex.ext <;> simp [three]
  have p2 : put argmax 0 three 0 (remove three 0 (put argmax 0 three 1 (put argmax 0 three 0 (start (⟨1, 1⟩ : ℂ))))) =
      { selected := fun l => if l = 0 then 2 else if l = 1 then 1 else if l = 0 then 0 else 0,
        mask := fun m => if m = 2 then true else if m = 0 then false else if m = 1 then true else if m = 0 then true else false,
        coeff := fun l => if l = 0 then 3 / 13 else if l = 1 then 1 else if l = 0 then 1 / 2 else 0, residual := ⟨6 / 13, 4 / 13⟩ } := by
    rw [p1]
    refine put_eq (picks ha (by omega) ?_) ?_ ?_
    · intro j hj hne
      have : j = 0 ∨ j = 1 := by omega
      refine score_lt rfl ?_
      rcases this with rfl | rfl
      · right
        simp [remove, three]
        norm_num
      · exact Or.inl rfl
    · rw [inner_plane, inner_plane]
      simp [remove, three]
      norm_num
    · apply Complex.ext <;> simp [remove, three] <;> norm_num
  refine ⟨?_, ?_, ?_, ?_⟩
  · unfold run
    simp only [Option.getD_some, e0, loop]
    simp [p1, List.range_succ]
  · unfold combine
    apply Complex.ext <;> simp [three]
  · unfold run
    simp only [Option.getD_some, e1, loop]
    simp [p2, List.range_succ]
  · have : (⟨1, 1⟩ : ℂ) - combine three [2, 1] [3 / 13, 1] = ⟨6 / 13, 4 / 13⟩ := by
      unfold combine
      apply Complex.ext <;> simp [three] <;> norm_num
    rw [this, ← Complex.normSq_eq_norm_sq, Complex.normSq_mk]
    norm_num

/-- Two candidates in the plane. -/
noncomputable def two : Nat → ℂ
  | 0 => ⟨1, 0⟩
  | _ => ⟨0, 1⟩

/-- C127: candidates that point away from the target are not used, even if a negative multiple of one is the target: the product is not taken without its
sign.  (A candidate with product 0 is preferred, and gets the coefficient 0.) -/
theorem C127_signed {argmax : (Nat → WithBot ℝ) → Nat} (ha : IsArgmax 2 argmax) (perms : Nat → List Nat) (eps : ℝ) :
    run argmax perms eps two 2 ⟨-1, 0⟩ 1 (some 1) = .ok ([1], [0]) ∧ ‖(⟨-1, 0⟩ : ℂ) - combine two [1] [0]‖ = 1 ∧
      (⟨-1, 0⟩ : ℂ) - combine two [0] [-1] = 0 := by
  have e0 : order perms 1 1 = some [0] := by
    simp [order, fillUp, List.range_succ]
  have p0 : put argmax eps two 0 (start (⟨-1, 0⟩ : ℂ)) =
      { selected := fun l => if l = 0 then 1 else 0, mask := fun m => if m = 1 then true else false, coeff := fun l => if l = 0 then 0 else 0, residual := ⟨-1, 0⟩ } := by
    refine put_eq (picks ha (by omega) ?_) ?_ ?_
    · intro j hj hne
      have : j = 0 := by omega
      refine score_lt rfl (Or.inr ?_)
      subst this
      simp only [start, inner_plane, two]
      norm_num
    · simp only [start, inner_plane, two]
      norm_num
    · apply Complex.ext <;> simp [start, two]
  refine ⟨?_, ?_, ?_⟩
  · unfold run
    simp only [Option.getD_some, e0, loop]
    simp [p0, List.range_succ]
  · unfold combine
    have : (⟨-1, 0⟩ : ℂ) = -1 := by apply Complex.ext <;> simp
    simp [this]
  · unfold combine
    apply Complex.ext <;> simp [two]

/-- The hypotheses can be met: the first of the largest numbers, and the reversal for every permutation. -/
example : ∃ argmax, IsArgmax 3 argmax ∧ Shuffles 2 (fun _ => [1, 0]) ∧ ∃ sel co, run argmax (fun _ => [1, 0]) (1 / 100) three 3 ⟨1, 1⟩ 2 none = .ok (sel, co) := by
  have hex : ∀ f : Nat → WithBot ℝ, ∃ i < 3, ∀ j < 3, f j ≤ f i := by
    intro f
    obtain ⟨i, hi, h⟩ := Finset.exists_max_image (Finset.range 3) f ⟨0, by simp⟩
    exact ⟨i, by simpa using hi, fun j hj => h j (by simpa using hj)⟩
  choose argmax h1 h2 using hex
  have hs : Shuffles 2 (fun _ => [1, 0]) := fun _ => List.Perm.swap 0 1 []
  exact ⟨argmax, fun _ f => ⟨h1 f, h2 f⟩, hs, (C127_refused argmax (1 / 100) three 3 ⟨1, 1⟩ 2 hs none).2.1 (by decide) (by decide) (by decide)⟩

/-- The hypotheses of `C127_replacement_partial` can be met: candidates of length 1, no negative coefficient. -/
example : ∃ (argmax : (Nat → WithBot ℝ) → Nat) (perms : Nat → List Nat), IsArgmax 2 argmax ∧ Shuffles 1 perms ∧ (∀ i < 2, ‖two i‖ = 1) ∧
    run argmax perms 0 two 2 ⟨2, 1⟩ 1 (some 1) = .ok ([0], [2]) ∧ (∃ sel co, run argmax perms 0 two 2 ⟨2, 1⟩ 1 (some (1 + 1)) = .ok (sel, co)) ∧
    ∀ c ∈ [(2 : ℝ)], 0 ≤ c := by
  have hex : ∀ f : Nat → WithBot ℝ, ∃ i < 2, ∀ j < 2, f j ≤ f i := by
    intro f
    obtain ⟨i, hi, h⟩ := Finset.exists_max_image (Finset.range 2) f ⟨0, by simp⟩
    exact ⟨i, by simpa using hi, fun j hj => h j (by simpa using hj)⟩
  choose argmax h1 h2 using hex
  have ha : IsArgmax 2 argmax := fun _ f => ⟨h1 f, h2 f⟩
  have hs : Shuffles 1 (fun _ => [0]) := fun _ => List.Perm.refl _
  refine ⟨argmax, fun _ => [0], ha, hs, ?_, ?_, (C127_refused argmax 0 two 2 ⟨2, 1⟩ 1 hs (some 2)).2.1 (by decide) (by decide) (by decide), by simp⟩
  · intro i hi
    have : i = 0 ∨ i = 1 := by omega
    rw [← sq_eq_sq₀ (norm_nonneg _) (by norm_num), ← Complex.normSq_eq_norm_sq]
    rcases this with rfl | rfl <;> simp [two, Complex.normSq_mk]
  · have e0 : order (fun _ => [0]) 1 1 = some [0] := by decide
    have p0 : put argmax 0 two 0 (start (⟨2, 1⟩ : ℂ)) =
        { selected := fun l => if l = 0 then 0 else 0, mask := fun m => if m = 0 then true else false, coeff := fun l => if l = 0 then 2 else 0, residual := ⟨0, 1⟩ } := by
      refine put_eq (picks ha (by omega) ?_) ?_ ?_
      · intro j hj hne
        have : j = 1 := by omega
        refine score_lt rfl (Or.inr ?_)
        subst this
        simp only [start, inner_plane, two]
        norm_num
      · simp only [start, inner_plane, two]
        norm_num
      · apply Complex.ext <;> simp [start, two]
    unfold run
    simp only [Option.getD_some, e0, loop]
    simp [p0, List.range_succ]

end Verif.Resets
