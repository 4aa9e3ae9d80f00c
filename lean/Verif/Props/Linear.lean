import Verif.Model.MergeMethods
import Verif.Props.Tensor
import Mathlib.Algebra.Order.BigOperators.Group.List
import Mathlib.Algebra.BigOperators.Ring.List
import Mathlib.Tactic.Linarith
import Mathlib.Tactic.FieldSimp
import Mathlib.Tactic.Ring
import Mathlib.Data.Rat.Floor

/-! # C33, C41, C43: linear, nearswap and passthrough merges -/

namespace Verif.Merge

open Verif.Tensor

section
variable {K : Type} [Field K] [LinearOrder K] {M : Type}

/-- All tensors have the same shape (specification). -/
def OneShape (tensors : List (M × Tensor K)) (s : List Nat) : Prop := ∀ e ∈ tensors, e.2.shape = s

omit [Field K] [LinearOrder K] in
theorem rectify_oneShape (isEmbed : Bool) (ts : List (Tensor K)) (s : List Nat) (h : ∀ t ∈ ts, t.shape = s) :
    rectify isEmbed ts = ts := by
  cases ts with
  | nil => simp [rectify, takeCommonSubmatrix, minSizes]
  | cons t0 ts =>
    unfold rectify
    split
    · rename_i hc
      rw [Bool.and_eq_true, List.all_eq_true] at hc
      have hlen : s.length = 2 := by simpa [h t0 (by simp)] using hc.2 t0 (by simp)
      obtain ⟨r, c, rfl⟩ : ∃ r c, s = [r, c] := by
        match s, hlen with
        | [r, c], _ => exact ⟨r, c, rfl⟩
      obtain ⟨m, n, hmn, ⟨⟨a, ha, hae⟩, _⟩, ⟨⟨b, hb, hbe⟩, _⟩⟩ := minSizes_least t0 ts
      unfold takeCommonSubmatrix
      rw [hmn]
      simp only
      rw [if_pos]
      rw [List.all_eq_true]
      intro t ht
      simp only [h a ha, h b hb, List.getD_cons_zero, List.getD_cons_succ] at hae hbe
      rw [h t ht, ← hae, ← hbe]
      simp
    · rfl

/-- Entry `i` of the weighted sum of the gathered tensors (specification). -/
def weightedSum (weight : M → K) (tensors : List (M × Tensor K)) (i : Nat) : K :=
  (tensors.map (fun e => weight e.1 * e.2.get i)).sum

/-- Sum of the weights (specification). -/
def totalWeight (weight : M → K) (tensors : List (M × Tensor K)) : K := (tensors.map (fun e => weight e.1)).sum

omit [LinearOrder K] in
theorem wsum_eq (weight : M → K) (tensors : List (M × Tensor K)) (i : Nat) :
    wsum ((tensors.map (fun e => weight e.1)).zip (tensors.map Prod.snd)) i = weightedSum weight tensors i := by
  unfold wsum weightedSum
  rw [List.zip_map', List.map_map]
  rfl

theorem linear_eq (isEmbed normalize : Bool) (weight : M → K) (tensors : List (M × Tensor K)) (s : List Nat)
    (hs : OneShape tensors s) (hne : tensors ≠ []) :
    linear isEmbed normalize weight tensors =
      (if normalize then
        if totalWeight weight tensors = 0 then .error .nonFinite
        else .ok ⟨s, fun i => weightedSum weight tensors i / totalWeight weight tensors⟩
      else .ok ⟨s, fun i => weightedSum weight tensors i⟩) := by
  unfold linear
  rw [rectify_oneShape isEmbed _ s (by
    intro t ht
    obtain ⟨e, he, rfl⟩ := List.mem_map.1 ht
    exact hs e he)]
  have hws := wsum_eq weight tensors
  cases tensors with
  | nil => exact absurd rfl hne
  | cons e rest =>
    simp only [List.map_cons] at hws ⊢
    rw [if_pos]
    · rw [hs e (by simp)]
      simp only [hws]
      rfl
    · rw [List.all_eq_true]
      intro t ht
      obtain ⟨e', he', rfl⟩ := List.mem_map.1 ht
      simp [hs e (by simp), hs e' (by simp [he'])]

/-- **C33** The linear merge of tensors of one shape is their weighted mean, or without normalization their weighted sum. -/
theorem C33_weighted_mean (isEmbed : Bool) (weight : M → K) (tensors : List (M × Tensor K)) (s : List Nat)
    (hs : OneShape tensors s) (hne : tensors ≠ []) :
    (∃ r, linear isEmbed false weight tensors = .ok r ∧ r.shape = s ∧ ∀ i, r.get i = weightedSum weight tensors i) ∧
    (totalWeight weight tensors ≠ 0 →
      ∃ r, linear isEmbed true weight tensors = .ok r ∧ r.shape = s ∧
        ∀ i, r.get i * totalWeight weight tensors = weightedSum weight tensors i) := by
  constructor
  · rw [linear_eq isEmbed false weight tensors s hs hne]
    exact ⟨_, rfl, rfl, fun i => rfl⟩
  · intro hw
    rw [linear_eq isEmbed true weight tensors s hs hne]
    simp only [if_true, hw, if_false]
    exact ⟨_, rfl, rfl, fun i => div_mul_cancel₀ _ hw⟩

/-- **C33** Tensors of different shapes (not both embedding matrices) are rejected. -/
theorem C33_shapes_rejected (normalize : Bool) (weight : M → K) (tensors : List (M × Tensor K))
    (a b : M × Tensor K) (ha : a ∈ tensors) (hb : b ∈ tensors) (hne : a.2.shape ≠ b.2.shape) :
    linear false normalize weight tensors = .error .shape := by
  unfold linear
  rw [(C44_others_untouched _).1]
  cases tensors with
  | nil => cases ha
  | cons e rest =>
    simp only [List.map_cons]
    rw [if_neg]
    intro h
    rw [List.all_eq_true] at h
    have key : ∀ x ∈ e :: rest, x.2.shape = e.2.shape := by
      intro x hx
      rcases List.mem_cons.1 hx with rfl | hx
      · rfl
      · simpa using h x.2 (List.mem_map.2 ⟨x, hx, rfl⟩)
    exact hne ((key a ha).trans (key b hb).symm)

/-- **C33** The order of the models does not matter. -/
theorem C33_order (isEmbed normalize : Bool) (weight : M → K) (tensors tensors' : List (M × Tensor K)) (s : List Nat)
    (hs : OneShape tensors s) (hperm : tensors.Perm tensors') :
    linear isEmbed normalize weight tensors = linear isEmbed normalize weight tensors' := by
  by_cases hne : tensors = []
  · subst hne
    rw [List.nil_perm.1 hperm]
  · rw [linear_eq isEmbed normalize weight tensors s hs hne,
      linear_eq isEmbed normalize weight tensors' s (fun e he => hs e (hperm.mem_iff.2 he))
        (fun h => hne (by rw [h] at hperm; exact List.perm_nil.1 hperm))]
    have h1 : totalWeight weight tensors = totalWeight weight tensors' := (hperm.map _).sum_eq
    have h2 : ∀ i, weightedSum weight tensors i = weightedSum weight tensors' i := fun i => (hperm.map _).sum_eq
    simp only [h1, h2]

/-- **C33** Scaling all weights by the same factor changes nothing when normalizing. -/
theorem C33_scale (isEmbed : Bool) (weight : M → K) (c : K) (hc : c ≠ 0) (tensors : List (M × Tensor K)) (s : List Nat)
    (hs : OneShape tensors s) :
    linear isEmbed true (fun m => c * weight m) tensors = linear isEmbed true weight tensors := by
  by_cases hne : tensors = []
  · subst hne; rfl
  · rw [linear_eq _ _ _ _ s hs hne, linear_eq _ _ _ _ s hs hne]
    have h1 : totalWeight (fun m => c * weight m) tensors = c * totalWeight weight tensors := by
      unfold totalWeight
      rw [← List.sum_map_mul_left]
    have h2 : ∀ i, weightedSum (fun m => c * weight m) tensors i = c * weightedSum weight tensors i := by
      intro i
      unfold weightedSum
      rw [← List.sum_map_mul_left]
      simp only [mul_assoc]
    simp only [h1, h2, mul_eq_zero, hc, false_or, mul_div_mul_left _ _ hc, if_true]

/-- **C33** Identical inputs are returned unchanged. -/
theorem C33_identical (isEmbed : Bool) (weight : M → K) (tensors : List (M × Tensor K)) (t : Tensor K)
    (hs : ∀ e ∈ tensors, e.2.shape = t.shape ∧ ∀ i, e.2.get i = t.get i) (hw : totalWeight weight tensors ≠ 0) :
    ∃ r, linear isEmbed true weight tensors = .ok r ∧ r.shape = t.shape ∧ ∀ i, r.get i = t.get i := by
  have hne : tensors ≠ [] := by
    rintro rfl
    simp [totalWeight] at hw
  rw [linear_eq _ _ _ _ t.shape (fun e he => (hs e he).1) hne]
  simp only [if_true, hw, if_false]
  refine ⟨_, rfl, rfl, fun i => ?_⟩
  have : weightedSum weight tensors i = totalWeight weight tensors * t.get i := by
    unfold weightedSum totalWeight
    rw [← List.sum_map_mul_right]
    congr 1
    exact List.map_congr_left (fun e he => by rw [(hs e he).2 i])
  show weightedSum weight tensors i / totalWeight weight tensors = t.get i
  rw [this, mul_div_cancel_left₀ _ hw]

variable [IsStrictOrderedRing K]

/-- **C33** With non-negative weights each entry lies between the smallest and the largest input. -/
theorem C33_between (isEmbed : Bool) (weight : M → K) (tensors : List (M × Tensor K)) (s : List Nat)
    (hs : OneShape tensors s) (hpos : ∀ e ∈ tensors, 0 ≤ weight e.1) (hw : totalWeight weight tensors ≠ 0)
    (i : Nat) (lo hi : K) (hlo : ∀ e ∈ tensors, lo ≤ e.2.get i) (hhi : ∀ e ∈ tensors, e.2.get i ≤ hi) :
    ∃ r, linear isEmbed true weight tensors = .ok r ∧ lo ≤ r.get i ∧ r.get i ≤ hi := by
  have hne : tensors ≠ [] := by
    rintro rfl
    simp [totalWeight] at hw
  rw [linear_eq _ _ _ _ s hs hne]
  simp only [if_true, hw, if_false]
  have hnn : 0 ≤ totalWeight weight tensors := by
    unfold totalWeight
    apply List.sum_nonneg
    intro x hx
    obtain ⟨e, he, rfl⟩ := List.mem_map.1 hx
    exact hpos e he
  have hp : 0 < totalWeight weight tensors := lt_of_le_of_ne hnn (Ne.symm hw)
  refine ⟨_, rfl, ?_, ?_⟩
  · rw [le_div_iff₀ hp]
    unfold totalWeight weightedSum
    rw [← List.sum_map_mul_left]
    apply List.sum_le_sum
    intro e he
    rw [mul_comm]
    exact mul_le_mul_of_nonneg_left (hlo e he) (hpos e he)
  · rw [div_le_iff₀ hp]
    unfold totalWeight weightedSum
    rw [← List.sum_map_mul_left]
    apply List.sum_le_sum
    intro e he
    rw [mul_comm hi]
    exact mul_le_mul_of_nonneg_left (hhi e he) (hpos e he)

end

/-- Two models with weights 1 and 3. -/
def sampleTensors : List (Nat × Tensor ℚ) := [(0, ⟨[2], fun i => i⟩), (1, ⟨[2], fun i => 4 - i⟩)]

example : OneShape sampleTensors [2] ∧ totalWeight (fun m => if m = 0 then 1 else 3) sampleTensors ≠ 0 ∧
    ∃ r, linear false true (fun m : Nat => if m = 0 then (1 : ℚ) else 3) sampleTensors = .ok r ∧ r.get 1 = 5 / 2 := by
  have hs : OneShape sampleTensors [2] := by unfold OneShape; decide
  have hw : totalWeight (fun m => if m = 0 then (1 : ℚ) else 3) sampleTensors ≠ 0 := by decide +kernel
  refine ⟨hs, hw, ?_⟩
  rw [linear_eq _ _ _ _ [2] hs (by simp [sampleTensors])]
  simp only [if_true, hw, if_false]
  exact ⟨_, rfl, by decide +kernel⟩

/-! ## C43 -/

/-- **C43** Passthrough returns its single input, times the scale if there is one, and refuses any other number of inputs. -/
theorem C43_passthrough {K M : Type} [Field K] [LinearOrder K] (scale : M → Option K) (tensors : List (M × Tensor K)) :
    (∀ m t, tensors = [(m, t)] → scale m = none → passthrough scale tensors = .ok t) ∧
    (∀ m t c, tensors = [(m, t)] → scale m = some c →
      ∃ r, passthrough scale tensors = .ok r ∧ r.shape = t.shape ∧ ∀ i, r.get i = c * t.get i) ∧
    (tensors.length ≠ 1 → passthrough scale tensors = .error .count) := by
  refine ⟨?_, ?_, ?_⟩
  · rintro m t rfl hs
    simp [passthrough, hs]
  · rintro m t c rfl hs
    simp only [passthrough, hs]
    exact ⟨_, rfl, rfl, fun i => mul_comm _ _⟩
  · intro h
    unfold passthrough
    match tensors, h with
    | [], _ => rfl
    | [_], h => simp at h
    | _ :: _ :: _, _ => rfl

example : (passthrough (fun _ => none) [(0, (⟨[1], fun _ => 2⟩ : Tensor ℚ))]).isOk = true := rfl

/-! ## C41 -/

section
variable {K : Type} [Field K] [LinearOrder K] [IsStrictOrderedRing K]

theorem nearswap_entry (t x y : K) (ht : 0 ≤ t) :
    let w := clamp 0 1 (t / max |x - y| (1 / 1000000))
    0 ≤ w ∧ w ≤ 1 ∧ w * |y - x| ≤ t ∧ (1 / 1000000 ≤ t → |x - y| ≤ t → w = 1) := by
  intro w
  have hp : (0 : K) < max |x - y| (1 / 1000000) := lt_of_lt_of_le (by norm_num) (le_max_right _ _)
  have hq : 0 ≤ t / max |x - y| (1 / 1000000) := div_nonneg ht hp.le
  have hw0 : 0 ≤ w := le_min (le_max_right _ _) zero_le_one
  have hw1 : w ≤ 1 := min_le_right _ _
  have hw : w ≤ t / max |x - y| (1 / 1000000) := by
    refine le_trans (min_le_left _ _) ?_
    rw [max_eq_left hq]
  refine ⟨hw0, hw1, ?_, ?_⟩
  · rw [abs_sub_comm y x]
    calc w * |x - y| ≤ t / max |x - y| (1 / 1000000) * max |x - y| (1 / 1000000) :=
          mul_le_mul hw (le_max_left _ _) (abs_nonneg _) hq
      _ = t := div_mul_cancel₀ _ hp.ne'
  · intro h1 h2
    refine le_antisymm hw1 ?_
    refine le_min ?_ (le_refl _)
    rw [max_eq_left hq, le_div_iff₀ hp, one_mul]
    exact max_le h2 h1

/-- **C41** No entry moves by more than `t`, and results lie between the two inputs. -/
theorem C41_moves_at_most (base b : Tensor K) (t : K) (ht : 0 ≤ t) (hs : base.shape = b.shape) :
    ∃ r, nearswap [b] base t = .ok r ∧ r.shape = base.shape ∧ ∀ i, |r.get i - base.get i| ≤ t ∧
      min (base.get i) (b.get i) ≤ r.get i ∧ r.get i ≤ max (base.get i) (b.get i) := by
  simp only [nearswap, map2, hs, if_true]
  refine ⟨_, rfl, rfl, fun i => ?_⟩
  simp only
  obtain ⟨h0, h1, h2, _⟩ := nearswap_entry t (base.get i) (b.get i) ht
  generalize hw : clamp 0 1 (t / max |base.get i - b.get i| (1 / 1000000)) = w at h0 h1 h2
  generalize base.get i = x at *
  generalize b.get i = y at *
  refine ⟨?_, ?_, ?_⟩
  · have : w * y + (1 - w) * x - x = w * (y - x) := by ring
    rw [this, abs_mul, abs_of_nonneg h0]
    exact h2
  · rcases le_total x y with h | h
    · rw [min_eq_left h]
      nlinarith
    · rw [min_eq_right h]
      nlinarith
  · rcases le_total x y with h | h
    · rw [max_eq_right h]
      nlinarith
    · rw [max_eq_left h]
      nlinarith

/-- **C41** Where the two models differ by at most `t`, the other model's value is taken - for `t` at least one millionth.
For smaller ones see `C41_tiny_t`. -/
theorem C41_swaps_near_partial (base b : Tensor K) (t : K) (ht : 1 / 1000000 ≤ t) (hs : base.shape = b.shape) :
    ∃ r, nearswap [b] base t = .ok r ∧ ∀ i, |base.get i - b.get i| ≤ t → r.get i = b.get i := by
  simp only [nearswap, map2, hs, if_true]
  refine ⟨_, rfl, fun i hi => ?_⟩
  have h0 : (0 : K) ≤ t := le_trans (by norm_num) ht
  obtain ⟨_, _, _, h3⟩ := nearswap_entry t (base.get i) (b.get i) h0
  simp only
  rw [h3 ht hi]
  ring

end

/-- **C41** Below one millionth the swap is not complete although the values differ by at most `t`. -/
theorem C41_tiny_t : ∃ (base b r : Tensor ℚ) (t : ℚ), 0 < t ∧ base.shape = b.shape ∧ nearswap [b] base t = .ok r ∧
    |base.get 0 - b.get 0| ≤ t ∧ r.get 0 ≠ b.get 0 :=
  ⟨⟨[1], fun _ => 0⟩, ⟨[1], fun _ => 1 / 10000000⟩, _, 1 / 10000000, by norm_num, rfl, rfl, by norm_num, by
    simp only [clamp]
    decide +kernel⟩

/-- **C41** Without another model the base is returned; with two or more it is an error. -/
theorem C41_count {K : Type} [Field K] [LinearOrder K] (base : Tensor K) (t : K) :
    nearswap [] base t = .ok base ∧ ∀ ts, ts.length ≥ 2 → nearswap ts base t = .error .count := by
  refine ⟨rfl, ?_⟩
  intro ts h
  match ts, h with
  | _ :: _ :: _, _ => rfl

example : ∃ r : Tensor ℚ, nearswap [(⟨[2], fun i => i⟩ : Tensor ℚ)] ⟨[2], fun _ => 0⟩ (1 / 2) = .ok r ∧ r.get 1 = 1 / 2 := by
  refine ⟨_, rfl, ?_⟩
  decide +kernel

end Verif.Merge
