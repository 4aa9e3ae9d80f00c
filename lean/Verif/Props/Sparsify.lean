import Verif.Model.Sparsify
import Mathlib.Algebra.Order.BigOperators.Group.List
import Mathlib.Algebra.BigOperators.Ring.List
import Mathlib.Algebra.BigOperators.Intervals
import Mathlib.Tactic.Linarith
import Mathlib.Tactic.FieldSimp
import Mathlib.Tactic.Ring
import Mathlib.Data.Rat.Floor
import Mathlib.Data.List.Nodup
import Mathlib.Data.List.Perm.Basic
import Mathlib.Data.Real.Sqrt

/-! # C37 to C40: sparsification -/

set_option linter.unusedSectionVars false

namespace Verif.Sparsify

open Verif.Tensor

section
variable {K : Type} [Field K] [LinearOrder K]

/-! ## Specification -/

/-- `l` is the positions below `n` in order of decreasing `w`. -/
structure SortsDesc (w : Nat → K) (n : Nat) (l : List Nat) : Prop where
  perm : l.Perm (List.range n)
  sorted : l.Pairwise (fun a b => w b ≤ w a)

/-- `l` is the positions below `n` in order of increasing `w`. -/
structure SortsAsc (w : Nat → K) (n : Nat) (l : List Nat) : Prop where
  perm : l.Perm (List.range n)
  sorted : l.Pairwise (fun a b => w a ≤ w b)

/-- `sqrt` is a square root. -/
def IsSqrt (sqrt : K → K) : Prop := ∀ x, 0 ≤ x → 0 ≤ sqrt x ∧ sqrt x * sqrt x = x

/-- `r` is `c` times `t` on the positions in `kept` and zero elsewhere. -/
structure Keeps (t r : Tensor K) (c : K) (kept : List Nat) : Prop where
  shape : r.shape = t.shape
  inside : ∀ i ∈ kept, r.get i = c * t.get i
  outside : ∀ i, i ∉ kept → r.get i = 0

/-- The sum of the magnitudes of a tensor. -/
def mass (t : Tensor K) : K := ((List.range t.shape.prod).map (fun i => |t.get i|)).sum

/-- The factor of the kept entries: 1 without rescaling; with rescaling to the sum of magnitudes (as in merges) that sum is as before, unless it, or what is kept
of it, is less than 1e-7, and then the factor is 1 too. -/
structure Factor (norm : Option Norm) (t r : Tensor K) (c : K) : Prop where
  pos : 0 < c
  off : norm = none → c = 1
  on : norm = some .l1 → (c = 1 ∧ (mass t < 1 / 10000000 ∨ mass r < 1 / 10000000)) ∨ mass r = mass t

variable [IsStrictOrderedRing K]

/-! ## C39 -/

theorem rescaled_scale (sqrt : K → K) (t : Tensor K) (mask : Nat → Bool) (norm : Option Norm) :
    ∃ c : K, Factor norm t (rescaled sqrt t mask norm) c ∧ (rescaled sqrt t mask norm).shape = t.shape ∧
      ∀ i, (rescaled sqrt t mask norm).get i = if mask i then c * t.get i else 0 := by
  have hm : ∀ (c : K) (i : Nat), (masked t mask).get i * c = if mask i then c * t.get i else 0 := by
    intro c i
    simp only [masked]
    split <;> ring
  unfold rescaled
  cases norm with
  | none => exact ⟨1, ⟨one_pos, fun _ => rfl, (fun h => nomatch h)⟩, rfl, fun i => by rw [← hm, mul_one]⟩
  | some nm =>
    simp only
    split
    · rename_i h
      refine ⟨1, ⟨one_pos, fun _ => rfl, ?_⟩, rfl, fun i => by rw [← hm, mul_one]⟩
      intro hn
      cases hn
      exact Or.inl ⟨rfl, h⟩
    · rename_i h
      push Not at h
      have e : (0 : K) < 1 / 10000000 := by norm_num
      have p1 := lt_of_lt_of_le e h.1
      have p2 := lt_of_lt_of_le e h.2
      refine ⟨_, ⟨div_pos p1 p2, (fun hh => nomatch hh), ?_⟩, rfl, fun i => hm _ i⟩
      intro hn
      cases hn
      refine Or.inr ?_
      have hs : mass (⟨t.shape, fun i => (masked t mask).get i * (normOf sqrt .l1 t / normOf sqrt .l1 (masked t mask))⟩ : Tensor K) =
          normOf sqrt .l1 (masked t mask) * (normOf sqrt .l1 t / normOf sqrt .l1 (masked t mask)) := by
        have habs : ∀ i, |(masked t mask).get i * (normOf sqrt .l1 t / normOf sqrt .l1 (masked t mask))| =
            |(masked t mask).get i| * (normOf sqrt .l1 t / normOf sqrt .l1 (masked t mask)) :=
          fun i => by rw [abs_mul, abs_of_pos (div_pos p1 p2)]
        unfold mass
        simp only [habs]
        rw [List.sum_map_mul_right]
        rfl
      rw [hs, mul_div_cancel₀ _ p2.ne']
      rfl

theorem normOf_scale (sqrt : K → K) (hsqrt : IsSqrt sqrt) (nm : Norm) (t r : Tensor K) (c : K) (hc : 0 < c)
    (hs : r.shape = t.shape) (hr : ∀ i, r.get i = t.get i * c) : normOf sqrt nm r = normOf sqrt nm t * c := by
  have hn : r.numel = t.numel := by unfold Tensor.numel; rw [hs]
  have habs : ∀ i, |r.get i| = |t.get i| * c := fun i => by rw [hr, abs_mul, abs_of_pos hc]
  cases nm with
  | l1 =>
    simp only [normOf, hn, habs]
    rw [List.sum_map_mul_right]
  | l2 =>
    simp only [normOf, hn]
    have : ((List.range t.numel).map (fun i => r.get i * r.get i)).sum =
        ((List.range t.numel).map (fun i => t.get i * t.get i)).sum * (c * c) := by
      rw [← List.sum_map_mul_right]
      congr 1
      refine List.map_congr_left (fun i _ => ?_)
      rw [hr]
      ring
    rw [this]
    have hS : 0 ≤ ((List.range t.numel).map (fun i => t.get i * t.get i)).sum := by
      apply List.sum_nonneg
      intro x hx
      obtain ⟨i, _, rfl⟩ := List.mem_map.1 hx
      exact mul_self_nonneg _
    generalize ((List.range t.numel).map (fun i => t.get i * t.get i)).sum = S at hS
    obtain ⟨h1, h2⟩ := hsqrt S hS
    obtain ⟨h3, h4⟩ := hsqrt (S * (c * c)) (mul_nonneg hS (mul_self_nonneg c))
    refine (mul_self_inj h3 (mul_nonneg h1 hc.le)).1 ?_
    rw [h4]
    calc S * (c * c) = (sqrt S * sqrt S) * (c * c) := by rw [h2]
      _ = _ := by ring
  | linf =>
    simp only [normOf, hn, habs]
    have : ∀ (l : List Nat) (a : K), (l.map (fun i => |t.get i| * c)).foldl max (a * c) = (l.map (fun i => |t.get i|)).foldl max a * c := by
      intro l
      induction l with
      | nil => intro a; rfl
      | cons i l ih =>
        intro a
        simp only [List.map_cons, List.foldl_cons]
        rw [← ih (max a |t.get i|), max_mul_of_nonneg _ _ hc.le]
    have := this (List.range t.numel) 0
    rw [zero_mul] at this
    exact this

/-- **C39** Unless the original or the masked tensor is negligible, the rescaled tensor has the norm of the original. -/
theorem C39_norm_preserved (sqrt : K → K) (hsqrt : IsSqrt sqrt) (nm : Norm) (t : Tensor K) (mask : Nat → Bool)
    (h1 : 1 / 10000000 ≤ normOf sqrt nm t) (h2 : 1 / 10000000 ≤ normOf sqrt nm (masked t mask)) :
    normOf sqrt nm (rescaled sqrt t mask (some nm)) = normOf sqrt nm t := by
  unfold rescaled
  simp only
  rw [if_neg (by push Not; exact ⟨h1, h2⟩)]
  have e : (0 : K) < 1 / 10000000 := by norm_num
  have p1 := lt_of_lt_of_le e h1
  have p2 := lt_of_lt_of_le e h2
  refine (normOf_scale sqrt hsqrt nm (masked t mask) ⟨t.shape, fun i => (masked t mask).get i * (normOf sqrt nm t / normOf sqrt nm (masked t mask))⟩
    _ (div_pos p1 p2) rfl (fun i => rfl)).trans ?_
  field_simp

/-- **C39** Negligible tensors, and all tensors when rescaling is off, are only masked. -/
theorem C39_otherwise_masked (sqrt : K → K) (norm : Option Norm) (t : Tensor K) (mask : Nat → Bool)
    (h : ∀ nm, norm = some nm → normOf sqrt nm t < 1 / 10000000 ∨ normOf sqrt nm (masked t mask) < 1 / 10000000) :
    (rescaled sqrt t mask norm).shape = t.shape ∧
    ∀ i, (rescaled sqrt t mask norm).get i = if mask i then t.get i else 0 := by
  unfold rescaled
  cases norm with
  | none => exact ⟨rfl, fun i => by simp only [masked]; split <;> simp⟩
  | some nm =>
    simp only
    rw [if_pos (h nm rfl)]
    exact ⟨rfl, fun i => by simp only [masked]; split <;> simp⟩

variable [FloorRing K]

/-- **C39** Whatever the method: entries are either dropped or multiplied with one positive factor (1 without rescaling): zeros stay zeros and no
sign is flipped. -/
theorem C39_every_method (sqrt : K → K) (sortDesc sortAsc : (Nat → K) → Nat → List Nat) (sample : (Nat → K) → Nat → Bool)
    (t r : Tensor K) (density : K) (method : Method) (gamma epsilon : K) (norm : Option Norm)
    (h : sparsify sqrt sortDesc sortAsc sample t density method gamma epsilon norm = .ok r) :
    ∃ (kept : Nat → Prop) (c : K), 0 < c ∧ (norm = none → c = 1) ∧ r.shape = t.shape ∧
      (∀ i, kept i → r.get i = c * t.get i) ∧ (∀ i, ¬ kept i → r.get i = 0) ∧
      ∀ i, (t.get i = 0 → r.get i = 0) ∧ 0 ≤ r.get i * t.get i := by
  have key : ∃ (m : Nat → Bool) (c : K), 0 < c ∧ (norm = none → c = 1) ∧ r.shape = t.shape ∧
      ∀ i, r.get i = if m i then c * t.get i else 0 := by
    have whole : ∃ (m : Nat → Bool) (c : K), 0 < c ∧ (norm = none → c = 1) ∧ t.shape = t.shape ∧
        ∀ i, t.get i = if m i then c * t.get i else 0 :=
      ⟨fun _ => true, 1, one_pos, fun _ => rfl, rfl, fun i => by simp⟩
    have res : ∀ m, ∃ (m' : Nat → Bool) (c : K), 0 < c ∧ (norm = none → c = 1) ∧ (rescaled sqrt t m norm).shape = t.shape ∧
        ∀ i, (rescaled sqrt t m norm).get i = if m' i then c * t.get i else 0 := fun m => by
      obtain ⟨c, a, d, e⟩ := rescaled_scale sqrt t m norm
      exact ⟨m, c, a.pos, a.off, d, e⟩
    cases method with
    | magnitude =>
      simp only [sparsify, magnitude] at h
      split at h
      · cases h; exact whole
      · split at h
        · cases h; exact res _
        · cases h
    | random =>
      simp only [sparsify, bernoulli] at h
      split at h
      · cases h; exact whole
      · split at h
        · cases h
        · cases h; exact res _
    | magnitudeOutliers =>
      simp only [sparsify, magnitudeOutliers] at h
      cases h
      split
      · exact whole
      · exact res _
    | dellaMagprune =>
      simp only [sparsify, della] at h
      split at h
      · cases h; exact whole
      · split at h
        · cases h
          exact ⟨fun _ => false, 1, one_pos, fun _ => rfl, rfl, fun i => by simp⟩
        · split at h
          · cases h
          · split at h
            · cases h
            · split at h
              · cases h
              · cases h; exact res _
  obtain ⟨m, c, hc, hn, hs, hi⟩ := key
  refine ⟨fun i => m i = true, c, hc, hn, hs, ?_, ?_, ?_⟩
  · intro i h
    rw [hi, if_pos h]
  · intro i h
    rw [hi, if_neg h]
  · intro i
    rw [hi]
    split
    · refine ⟨fun h => by rw [h, mul_zero], ?_⟩
      rw [mul_assoc]
      exact mul_nonneg hc.le (mul_self_nonneg _)
    · simp

/-! ## C37 -/

theorem toInt_nonneg (x : K) (h : 0 ≤ x) : toInt x = ⌊x⌋ := by simp [toInt, h]

/-- **C37** Pruning to density `d < 1` keeps `floor(d * n)` entries (up to the common factor of the rescaling, 1 if off); every kept one is at least as large in
magnitude as every dropped one. -/
theorem C37_keeps_largest (sqrt : K → K) (argsort : (Nat → K) → Nat → List Nat)
    (hsort : ∀ w n, SortsDesc w n (argsort w n)) (t : Tensor K) (density : K) (norm : Option Norm) (hd : density < 1)
    (hk : 1 ≤ density * t.numel) :
    ∃ r kept c, magnitude sqrt argsort t density norm = .ok r ∧ Factor norm t r c ∧ Keeps t r c kept ∧
      kept.Nodup ∧ (kept.length : Int) = ⌊density * (t.numel : K)⌋ ∧ (∀ i ∈ kept, i < t.numel) ∧
      ∀ i ∈ kept, ∀ j, j < t.numel → j ∉ kept → |t.get j| ≤ |t.get i| := by
  unfold magnitude
  rw [if_neg (not_le.2 hd)]
  have h0 : 0 ≤ density * (t.numel : K) := le_trans zero_le_one hk
  simp only [toInt_nonneg _ h0]
  have hfl : 1 ≤ ⌊density * (t.numel : K)⌋ := by rw [Int.le_floor]; simpa using hk
  rw [if_pos (by omega)]
  obtain ⟨hp, hso⟩ := hsort (fun i => |t.get i|) t.numel
  generalize argsort (fun i => |t.get i|) t.numel = l at hp hso
  have hlen : l.length = t.numel := by rw [hp.length_eq, List.length_range]
  have hle : ⌊density * (t.numel : K)⌋ ≤ t.numel := by
    rw [Int.floor_le_iff]
    have : density * (t.numel : K) ≤ 1 * t.numel := mul_le_mul_of_nonneg_right hd.le (Nat.cast_nonneg _)
    push_cast
    linarith
  generalize ⌊density * (t.numel : K)⌋ = k at hfl hle
  obtain ⟨c, hc, hs, hi⟩ := rescaled_scale sqrt t (fun i => decide (i ∈ l.take k.toNat)) norm
  refine ⟨_, l.take k.toNat, c, rfl, hc, ⟨hs, ?_, ?_⟩, ?_, ?_, ?_, ?_⟩
  · intro i hmem
    rw [hi]
    simp [hmem]
  · intro i hmem
    rw [hi]
    simp [hmem]
  · exact (hp.nodup_iff.2 List.nodup_range).sublist (List.take_sublist _ _)
  · rw [List.length_take, hlen]
    omega
  · intro i hmem
    exact List.mem_range.1 (hp.mem_iff.1 (List.mem_of_mem_take hmem))
  · intro i hmem j hj hjn
    have hjl : j ∈ l := hp.mem_iff.2 (List.mem_range.2 hj)
    rw [← List.take_append_drop k.toNat l] at hjl hso
    rcases List.mem_append.1 hjl with h | h
    · exact absurd h hjn
    · exact (List.pairwise_append.1 hso).2.2 i hmem j h

/-- **C37** Density 1 or more returns the tensor itself; a density that would keep nothing is refused. -/
theorem C37_extremes (sqrt : K → K) (argsort : (Nat → K) → Nat → List Nat) (t : Tensor K) (density : K) (norm : Option Norm) :
    (1 ≤ density → magnitude sqrt argsort t density norm = .ok t) ∧
    (density < 1 → density * t.numel < 1 → magnitude sqrt argsort t density norm = .error .assertion) := by
  constructor
  · intro h
    simp [magnitude, h]
  · intro h1 h2
    unfold magnitude
    rw [if_neg (not_le.2 h1)]
    simp only
    rw [if_neg]
    unfold toInt
    split
    · have : ⌊density * (t.numel : K)⌋ < 1 := by rw [Int.floor_lt]; simpa using h2
      omega
    · rename_i hneg
      push Not at hneg
      have : ⌈density * (t.numel : K)⌉ ≤ 0 := by rw [Int.ceil_le]; simpa using hneg.le
      omega

/-! ## C38 -/

theorem floor_le_numel (density : K) (n : Nat) (hd : density < 1) : ⌊density * (n : K)⌋ ≤ n := by
  rw [Int.floor_le_iff]
  have : density * (n : K) ≤ 1 * n := mul_le_mul_of_nonneg_right hd.le (Nat.cast_nonneg _)
  push_cast
  linarith

theorem slice_mid {A : Type} (l : List A) (bot top : Nat) (ht : 1 ≤ top) (hle : bot + top ≤ l.length) :
    slice l bot (-(top : Int)) = (l.drop bot).take (l.length - top - bot) := by
  unfold slice sliceBound
  rw [if_neg (by omega : ¬ (bot : Int) < 0), if_pos (by omega : -(top : Int) < 0)]
  have h1 : ((l.length : Int) + -(top : Int)).toNat = l.length - top := by omega
  have h2 : min (bot : Int).toNat l.length = bot := by
    simp
    omega
  rw [h1, h2, List.drop_take]

/-- **C38** If at least one entry is to be dropped at the top, `floor(d * n)` entries are kept, the `floor(gamma * n)` (or as many as there are to drop)
largest are dropped, and the kept ones lie between the dropped ones in magnitude.  Otherwise see `C38_everything_dropped`. -/
theorem C38_keeps_middle_partial (sqrt : K → K) (sort : (Nat → K) → Nat → List Nat)
    (hsort : ∀ w n, SortsAsc w n (sort w n)) (t : Tensor K) (density gamma : K) (norm : Option Norm)
    (hd0 : 0 ≤ density) (hd : density < 1) (hg : 1 ≤ gamma * t.numel) :
    ∃ small kept big c, Factor norm t (magnitudeOutliers sqrt sort t density gamma norm) c ∧ Keeps t (magnitudeOutliers sqrt sort t density gamma norm) c kept ∧
      (small ++ kept ++ big).Perm (List.range t.numel) ∧
      (kept.length : Int) = ⌊density * (t.numel : K)⌋ ∧
      (big.length : Int) = min ⌊gamma * (t.numel : K)⌋ (t.numel - ⌊density * (t.numel : K)⌋) ∧
      (∀ i ∈ small, ∀ j ∈ kept, |t.get i| ≤ |t.get j|) ∧ (∀ j ∈ kept, ∀ k ∈ big, |t.get j| ≤ |t.get k|) := by
  have hn0 : t.numel ≠ 0 := by
    rintro h
    rw [h] at hg
    simp at hg
    linarith
  have htgt0 : 0 ≤ ⌊density * (t.numel : K)⌋ := Int.floor_nonneg.2 (mul_nonneg hd0 (Nat.cast_nonneg _))
  have htop : 1 ≤ ⌊gamma * (t.numel : K)⌋ := by rw [Int.le_floor]; simpa using hg
  have htlt : ⌊density * (t.numel : K)⌋ < t.numel := by
    rw [Int.floor_lt]
    have : (0 : K) < t.numel := by exact_mod_cast Nat.pos_of_ne_zero hn0
    push_cast
    nlinarith
  unfold magnitudeOutliers
  rw [if_neg (not_le.2 hd)]
  simp only
  unfold outlierCounts
  rw [toInt_nonneg _ (mul_nonneg hd0 (Nat.cast_nonneg _)), toInt_nonneg _ (le_trans zero_le_one hg)]
  simp only
  obtain ⟨hp, hso⟩ := hsort (fun i => |t.get i|) t.numel
  generalize sort (fun i => |t.get i|) t.numel = l at hp hso
  have hlen : l.length = t.numel := by rw [hp.length_eq, List.length_range]
  generalize ⌊density * (t.numel : K)⌋ = k at htgt0 htlt
  generalize ⌊gamma * (t.numel : K)⌋ = g at htop
  obtain ⟨top, htopdef⟩ : ∃ top : Nat, (top : Int) = min g (t.numel - k) := ⟨(min g (t.numel - k)).toNat, by omega⟩
  obtain ⟨bot, hbotdef⟩ : ∃ bot : Nat, (bot : Int) = t.numel - k - top := ⟨(t.numel - k - top).toNat, by omega⟩
  have hpair : (if (t.numel : Int) - k - g < 0 then ((0 : Int), g + ((t.numel : Int) - k - g)) else ((t.numel : Int) - k - g, g)) = ((bot : Int), (top : Int)) := by
    split <;> (refine Prod.ext ?_ ?_ <;> simp only <;> omega)
  rw [hpair]
  simp only
  rw [slice_mid l bot top (by omega) (by omega)]
  obtain ⟨c, hc, hs, hi⟩ := rescaled_scale sqrt t (fun i => decide (i ∈ (l.drop bot).take (l.length - top - bot))) norm
  refine ⟨l.take bot, (l.drop bot).take (l.length - top - bot), (l.drop bot).drop (l.length - top - bot), c, hc, ⟨hs, ?_, ?_⟩, ?_, ?_, ?_, ?_, ?_⟩
  · intro i hmem
    rw [hi]
    simp only [decide_eq_true hmem, if_true]
  · intro i hmem
    rw [hi]
    simp only [decide_eq_false hmem, Bool.false_eq_true, if_false]
  · rw [List.append_assoc, List.take_append_drop, List.take_append_drop]
    exact hp
  · rw [List.length_take, List.length_drop]
    omega
  · rw [List.length_drop, List.length_drop]
    omega
  · intro i h1 j h2
    rw [← List.take_append_drop bot l] at hso
    exact (List.pairwise_append.1 hso).2.2 i h1 j (List.mem_of_mem_take h2)
  · intro j h1 k' h2
    have hso' : (l.drop bot).Pairwise (fun a b => |t.get a| ≤ |t.get b|) := hso.sublist (List.drop_sublist _ _)
    rw [← List.take_append_drop (l.length - top - bot) (l.drop bot)] at hso'
    exact (List.pairwise_append.1 hso').2.2 j h1 k' h2

/-- **C38** refuted: if `gamma * n` is below 1 - with the default of one percent, for every tensor with fewer than hundred entries - everything
is dropped. -/
theorem C38_everything_dropped (sqrt : K → K) (sort : (Nat → K) → Nat → List Nat) (t : Tensor K) (density gamma : K)
    (norm : Option Norm) (hd : density < 1) (hg0 : 0 ≤ gamma) (hg : gamma * t.numel < 1) (hd0 : 0 ≤ density) :
    ∀ i, (magnitudeOutliers sqrt sort t density gamma norm).get i = 0 := by
  intro i
  unfold magnitudeOutliers
  rw [if_neg (not_le.2 hd)]
  simp only
  have hle := floor_le_numel density t.numel hd
  have hgz : ⌊gamma * (t.numel : K)⌋ = 0 := by
    rw [Int.floor_eq_zero_iff]
    exact ⟨mul_nonneg hg0 (Nat.cast_nonneg _), hg⟩
  unfold outlierCounts
  rw [toInt_nonneg _ (mul_nonneg hd0 (Nat.cast_nonneg _)), toInt_nonneg _ (mul_nonneg hg0 (Nat.cast_nonneg _)), hgz]
  simp only
  rw [if_neg (by omega)]
  simp only
  obtain ⟨c, _, _, hi⟩ := rescaled_scale sqrt t
    (fun i => decide (i ∈ slice (sort (fun i => |t.get i|) t.numel) ((t.numel : Int) - ⌊density * (t.numel : K)⌋ - 0) (-0))) norm
  rw [hi]
  have : slice (sort (fun i => |t.get i|) t.numel) ((t.numel : Int) - ⌊density * (t.numel : K)⌋ - 0) (-0) = [] := by
    unfold slice sliceBound
    simp
  rw [this]
  simp

/-! ## C40 -/

theorem onLine_pos (b s x j z : Nat) (hj : j < b) (hz : z < s) :
    ((x * b + j) * s + z) / s % b = j ∧ ∀ j', onLine b s ((x * b + j) * s + z) j' = (x * b + j') * s + z := by
  have hs : 0 < s := by omega
  have hb : 0 < b := by omega
  have h1 : ((x * b + j) * s + z) / s = x * b + j := by
    rw [Nat.mul_comm, Nat.mul_add_div hs, Nat.div_eq_of_lt hz, Nat.add_zero]
  have h2 : ((x * b + j) * s + z) % s = z := by
    rw [Nat.mul_comm, Nat.mul_add_mod, Nat.mod_eq_of_lt hz]
  have h3 : (x * b + j) % b = j := by
    rw [Nat.mul_comm, Nat.mul_add_mod, Nat.mod_eq_of_lt hj]
  have h4 : (x * b + j) / b = x := by
    rw [Nat.mul_comm, Nat.mul_add_div hb, Nat.div_eq_of_lt hj, Nat.add_zero]
  refine ⟨by rw [h1, h3], fun j' => ?_⟩
  unfold onLine
  rw [h1, h2, h4]

theorem dellaProb_eq (argsort : (Nat → K) → Nat → List Nat) (hsort : ∀ w n, SortsAsc w n (argsort w n))
    (t : Tensor K) (b s : Nat) (density epsilon : K) (hb : 2 ≤ b) (x z : Nat) (hz : z < s) (j : Nat) (hj : j < b) :
    dellaProb argsort t b s density epsilon ((x * b + j) * s + z) =
      (density - epsilon) + (((argsort (fun j => |t.get ((x * b + j) * s + z)|) b).idxOf j : Nat) : K) / ((b : K) - 1) * 2 * epsilon := by
  obtain ⟨h1, h2⟩ := onLine_pos b s x j z hj hz
  unfold dellaProb
  simp only [h1, h2]
  have hp := (hsort (fun j => |t.get ((x * b + j) * s + z)|) b).perm
  generalize argsort (fun j => |t.get ((x * b + j) * s + z)|) b = l at hp
  have hlt : l.idxOf j < b := by
    have : j ∈ l := hp.mem_iff.2 (List.mem_range.2 hj)
    have := List.idxOf_lt_length_of_mem this
    rwa [hp.length_eq, List.length_range] at this
  have hbK : (2 : K) ≤ b := by exact_mod_cast hb
  have hden : (0 : K) < (b : K) - 1 := by linarith
  have hidx : ((l.idxOf j : Nat) : K) ≤ (b : K) - 1 := by
    have : ((l.idxOf j + 1 : Nat) : K) ≤ b := by exact_mod_cast hlt
    push_cast at this
    linarith
  rw [add_sub_cancel_right, max_eq_left (div_nonneg (Nat.cast_nonneg _) hden.le), min_eq_left ((div_le_one hden).2 hidx)]

theorem sum_idxOf (l : List Nat) (b : Nat) (hp : l.Perm (List.range b)) :
    ((List.range b).map (fun j => l.idxOf j)).sum = (List.range b).sum := by
  have h1 : ((List.range b).map (fun j => l.idxOf j)).sum = (l.map (fun j => l.idxOf j)).sum := (hp.map _).sum_eq.symm
  have hnd : l.Nodup := hp.nodup_iff.2 List.nodup_range
  have h2 : l.map (fun j => l.idxOf j) = List.range l.length := by
    apply List.ext_getElem
    · simp
    · intro n h3 h4
      simp [hnd.idxOf_getElem]
  rw [h1, h2, hp.length_eq, List.length_range]

theorem sum_range_cast (b : Nat) : (((List.range b).sum : Nat) : K) = (b : K) * ((b : K) - 1) / 2 := by
  induction b with
  | zero => simp
  | succ b ih =>
    rw [List.range_succ, List.sum_append, List.sum_singleton]
    rw [Nat.cast_add, ih]
    push_cast
    ring

/-- **C40** For lines of at least two entries along the second dimension (for vectors: of the whole vector), the entries are drawn with
probabilities between `density - epsilon` and `density + epsilon` which never decrease with the magnitude within a line and average to `density` on every line.
Lines of a single entry see `C40_single_column`. -/
theorem C40_probabilities_partial (sqrt : K → K) (argsort : (Nat → K) → Nat → List Nat) (hsort : ∀ w n, SortsAsc w n (argsort w n))
    (sample : (Nat → K) → Nat → Bool) (t : Tensor K) (density epsilon : K) (norm : Option Norm)
    (b s : Nat) (hshape : (t.shape = [b] ∧ s = 1) ∨ ∃ a rest, t.shape = a :: b :: rest ∧ s = rest.prod)
    (hb : 2 ≤ b) (he : 0 ≤ epsilon) (h1 : density + epsilon < 1) (h2 : 0 < density - epsilon) :
    ∃ probs : Nat → K, della sqrt argsort sample t density epsilon norm = .ok (rescaled sqrt t (sample probs) norm) ∧
      ∀ x z, z < s →
        let at' := fun j => (x * b + j) * s + z
        (∀ j < b, density - epsilon ≤ probs (at' j) ∧ probs (at' j) ≤ density + epsilon) ∧
        (∀ j < b, ∀ j' < b, |t.get (at' j)| < |t.get (at' j')| → probs (at' j) ≤ probs (at' j')) ∧
        ((List.range b).map (fun j => probs (at' j))).sum = b * density := by
  have hline : lineOf t.shape = some (b, s) := by
    rcases hshape with ⟨h, rfl⟩ | ⟨a, rest, h, rfl⟩
    · rw [h]; rfl
    · rw [h]; rfl
  refine ⟨dellaProb argsort t b s density epsilon, ?_, ?_⟩
  · unfold della
    rw [if_neg (by push Not; linarith), if_neg (by push Not; linarith), if_neg (by push Not; exact ⟨h1, h2⟩), hline]
    simp only
    rw [if_neg (by omega)]
  · intro x z hz
    have heq := dellaProb_eq argsort hsort t b s density epsilon hb x z hz
    obtain ⟨hp, hso⟩ := hsort (fun j => |t.get ((x * b + j) * s + z)|) b
    simp only
    generalize argsort (fun j => |t.get ((x * b + j) * s + z)|) b = l at heq hp hso
    have hbK : (2 : K) ≤ b := by exact_mod_cast hb
    have hden : (0 : K) < (b : K) - 1 := by linarith
    refine ⟨?_, ?_, ?_⟩
    · intro j hj
      rw [heq j hj]
      have hlt : l.idxOf j < b := by
        have : j ∈ l := hp.mem_iff.2 (List.mem_range.2 hj)
        have := List.idxOf_lt_length_of_mem this
        rwa [hp.length_eq, List.length_range] at this
      have hidx : ((l.idxOf j : Nat) : K) ≤ (b : K) - 1 := by
        have : ((l.idxOf j + 1 : Nat) : K) ≤ b := by exact_mod_cast hlt
        push_cast at this
        linarith
      have q0 : 0 ≤ ((l.idxOf j : Nat) : K) / ((b : K) - 1) := div_nonneg (Nat.cast_nonneg _) hden.le
      have q1 : ((l.idxOf j : Nat) : K) / ((b : K) - 1) ≤ 1 := (div_le_one hden).2 hidx
      constructor
      · nlinarith
      · nlinarith
    · intro j hj j' hj' hlt
      rw [heq j hj, heq j' hj']
      have hjl : j ∈ l := hp.mem_iff.2 (List.mem_range.2 hj)
      have hjl' : j' ∈ l := hp.mem_iff.2 (List.mem_range.2 hj')
      have hidx : l.idxOf j ≤ l.idxOf j' := by
        by_contra hc
        push Not at hc
        have a1 := List.idxOf_lt_length_of_mem hjl
        have a2 := List.idxOf_lt_length_of_mem hjl'
        have := List.pairwise_iff_getElem.1 hso _ _ a2 a1 hc
        rw [List.getElem_idxOf, List.getElem_idxOf] at this
        exact absurd hlt (not_lt.2 this)
      have hidxK : ((l.idxOf j : Nat) : K) ≤ ((l.idxOf j' : Nat) : K) := by exact_mod_cast hidx
      have : ((l.idxOf j : Nat) : K) / ((b : K) - 1) ≤ ((l.idxOf j' : Nat) : K) / ((b : K) - 1) :=
        div_le_div_of_nonneg_right hidxK hden.le
      nlinarith
    · have e1 : (List.range b).map (fun j => dellaProb argsort t b s density epsilon ((x * b + j) * s + z)) =
          (List.range b).map (fun j => (density - epsilon) + ((l.idxOf j : Nat) : K) * (2 * epsilon / ((b : K) - 1))) := by
        refine List.map_congr_left (fun j hj => ?_)
        rw [heq j (List.mem_range.1 hj)]
        ring
      rw [e1]
      have e2 : ∀ (L : List Nat) (c d : K), (L.map (fun j => c + ((l.idxOf j : Nat) : K) * d)).sum =
          L.length * c + (((L.map (fun j => l.idxOf j)).sum : Nat) : K) * d := by
        intro L c d
        induction L with
        | nil => simp
        | cons a L ih =>
          simp only [List.map_cons, List.sum_cons, ih, List.length_cons]
          push_cast
          ring
      rw [e2, sum_idxOf l b hp, sum_range_cast, List.length_range]
      field_simp
      ring

/-- **C40** Settings whose range leaves (0, 1) are refused; densities of 1 and more keep, of 0 and less drop everything. -/
theorem C40_refused (sqrt : K → K) (argsort : (Nat → K) → Nat → List Nat) (sample : (Nat → K) → Nat → Bool)
    (t : Tensor K) (density epsilon : K) (norm : Option Norm) :
    (0 < density → density < 1 → (1 ≤ density + epsilon ∨ density - epsilon ≤ 0) →
      della sqrt argsort sample t density epsilon norm = .error .value) ∧
    (1 ≤ density → della sqrt argsort sample t density epsilon norm = .ok t) ∧
    (density ≤ 0 → ∃ r, della sqrt argsort sample t density epsilon norm = .ok r ∧ r.shape = t.shape ∧ ∀ i, r.get i = 0) := by
  refine ⟨?_, ?_, ?_⟩
  · intro h0 h1 h2
    unfold della
    rw [if_neg (not_le.2 h1), if_neg (not_le.2 h0), if_pos h2]
  · intro h
    unfold della
    rw [if_pos h]
  · intro h
    unfold della
    rw [if_neg (by push Not; linarith), if_pos h]
    exact ⟨_, rfl, rfl, fun _ => rfl⟩

/-- **C40** refuted: tensors with a single entry along that dimension fail (the ranks are normalized by 0 / 0), for all accepted settings. -/
theorem C40_single_column (sqrt : K → K) (argsort : (Nat → K) → Nat → List Nat) (sample : (Nat → K) → Nat → Bool)
    (t : Tensor K) (density epsilon : K) (norm : Option Norm) (h1 : density + epsilon < 1) (h2 : 0 < density - epsilon)
    (he : 0 ≤ epsilon) (hs : t.shape = [1] ∨ ∃ a rest, t.shape = a :: 1 :: rest) :
    della sqrt argsort sample t density epsilon norm = .error .nonFinite := by
  unfold della
  rw [if_neg (by push Not; linarith), if_neg (by push Not; linarith), if_neg (by push Not; exact ⟨h1, h2⟩)]
  rcases hs with h | ⟨a, rest, h⟩ <;> simp [h, lineOf]

/-- **C40** A negative epsilon passes the check and reverses the order of the probabilities. -/
theorem C40_negative_epsilon (sqrt : K → K) (argsort : (Nat → K) → Nat → List Nat) (hsort : ∀ w n, SortsAsc w n (argsort w n))
    (sample : (Nat → K) → Nat → Bool) (norm : Option Norm) :
    ∃ (t : Tensor K) (probs : Nat → K),
      della sqrt argsort sample t (1 / 2) (-(1 / 4)) norm = .ok (rescaled sqrt t (sample probs) norm) ∧
      |t.get 0| < |t.get 1| ∧ probs 1 < probs 0 := by
  refine ⟨⟨[2], fun i => i⟩, dellaProb argsort ⟨[2], fun i => i⟩ 2 1 (1 / 2) (-(1 / 4)), ?_, by simp, ?_⟩
  · unfold della
    rw [if_neg (by norm_num), if_neg (by norm_num), if_neg (by norm_num)]
    rfl
  · have e0 := dellaProb_eq argsort hsort (⟨[2], fun i => (i : K)⟩ : Tensor K) 2 1 (1 / 2) (-(1 / 4)) (le_refl _) 0 0 (by omega) 0 (by omega)
    have e1 := dellaProb_eq argsort hsort (⟨[2], fun i => (i : K)⟩ : Tensor K) 2 1 (1 / 2) (-(1 / 4)) (le_refl _) 0 0 (by omega) 1 (by omega)
    norm_num at e0 e1
    obtain ⟨hp, hso⟩ := hsort (fun j => (j : K)) 2
    generalize argsort (fun j => (j : K)) 2 = l at e0 e1 hp hso
    have hm0 : 0 ∈ l := hp.mem_iff.2 (by simp)
    have hm1 : 1 ∈ l := hp.mem_iff.2 (by simp)
    have hlt : l.idxOf 0 < l.idxOf 1 := by
      by_contra hc
      push Not at hc
      have a1 := List.idxOf_lt_length_of_mem hm0
      have a2 := List.idxOf_lt_length_of_mem hm1
      rcases Nat.lt_or_ge (l.idxOf 1) (l.idxOf 0) with h | h
      · have := List.pairwise_iff_getElem.1 hso _ _ a2 a1 h
        rw [List.getElem_idxOf, List.getElem_idxOf] at this
        simp at this
        linarith
      · have : l.idxOf 0 = l.idxOf 1 := by omega
        have := (List.idxOf_inj hm0).1 this
        omega
    have : ((l.idxOf 0 : Nat) : K) < ((l.idxOf 1 : Nat) : K) := by exact_mod_cast hlt
    rw [e0, e1]
    linarith

/-! ## The public entry point -/

/-- **C37** The same through `sparsify` with the magnitude method: the density given there decides how many entries are kept. -/
theorem C37_sparsify (sqrt : K → K) (sortDesc sortAsc : (Nat → K) → Nat → List Nat) (sample : (Nat → K) → Nat → Bool)
    (hsort : ∀ w n, SortsDesc w n (sortDesc w n)) (t : Tensor K) (density gamma epsilon : K) (norm : Option Norm) (hd : density < 1)
    (hk : 1 ≤ density * t.numel) :
    ∃ r kept c, sparsify sqrt sortDesc sortAsc sample t density .magnitude gamma epsilon norm = .ok r ∧ Factor norm t r c ∧
      Keeps t r c kept ∧ kept.Nodup ∧ (kept.length : Int) = ⌊density * (t.numel : K)⌋ ∧ (∀ i ∈ kept, i < t.numel) ∧
      ∀ i ∈ kept, ∀ j, j < t.numel → j ∉ kept → |t.get j| ≤ |t.get i| :=
  C37_keeps_largest sqrt sortDesc hsort t density norm hd hk

/-- **C38** The same through `sparsify` with the outlier method. -/
theorem C38_sparsify_partial (sqrt : K → K) (sortDesc sortAsc : (Nat → K) → Nat → List Nat) (sample : (Nat → K) → Nat → Bool)
    (hsort : ∀ w n, SortsAsc w n (sortAsc w n)) (t : Tensor K) (density gamma epsilon : K) (norm : Option Norm)
    (hd0 : 0 ≤ density) (hd : density < 1) (hg : 1 ≤ gamma * t.numel) :
    ∃ r small kept big c, sparsify sqrt sortDesc sortAsc sample t density .magnitudeOutliers gamma epsilon norm = .ok r ∧
      Factor norm t r c ∧ Keeps t r c kept ∧
      (small ++ kept ++ big).Perm (List.range t.numel) ∧
      (kept.length : Int) = ⌊density * (t.numel : K)⌋ ∧
      (big.length : Int) = min ⌊gamma * (t.numel : K)⌋ (t.numel - ⌊density * (t.numel : K)⌋) ∧
      (∀ i ∈ small, ∀ j ∈ kept, |t.get i| ≤ |t.get j|) ∧ (∀ j ∈ kept, ∀ k ∈ big, |t.get j| ≤ |t.get k|) := by
  obtain ⟨small, kept, big, c, h⟩ := C38_keeps_middle_partial sqrt sortAsc hsort t density gamma norm hd0 hd hg
  exact ⟨_, small, kept, big, c, rfl, h⟩

/-- **C40** The same through `sparsify` with the DELLA method. -/
theorem C40_sparsify_partial (sqrt : K → K) (sortDesc sortAsc : (Nat → K) → Nat → List Nat) (sample : (Nat → K) → Nat → Bool)
    (hsort : ∀ w n, SortsAsc w n (sortAsc w n)) (t : Tensor K) (density gamma epsilon : K) (norm : Option Norm)
    (b s : Nat) (hshape : (t.shape = [b] ∧ s = 1) ∨ ∃ a rest, t.shape = a :: b :: rest ∧ s = rest.prod)
    (hb : 2 ≤ b) (he : 0 ≤ epsilon) (h1 : density + epsilon < 1) (h2 : 0 < density - epsilon) :
    ∃ probs : Nat → K, sparsify sqrt sortDesc sortAsc sample t density .dellaMagprune gamma epsilon norm =
        .ok (rescaled sqrt t (sample probs) norm) ∧
      ∀ x z, z < s →
        let at' := fun j => (x * b + j) * s + z
        (∀ j < b, density - epsilon ≤ probs (at' j) ∧ probs (at' j) ≤ density + epsilon) ∧
        (∀ j < b, ∀ j' < b, |t.get (at' j)| < |t.get (at' j')| → probs (at' j) ≤ probs (at' j')) ∧
        ((List.range b).map (fun j => probs (at' j))).sum = b * density :=
  C40_probabilities_partial sqrt sortAsc hsort sample t density epsilon norm b s hshape hb he h1 h2

/-- **C72** Random dropping keeps every entry with the given density as probability - the mask is what the random source yields for that
constant probability - and multiplies the kept ones with one factor (1 without rescaling, otherwise see `Factor`).  Densities of 1 and more keep the tensor as it is,
negative ones are refused. -/
theorem C72_random (sqrt : K → K) (sortDesc sortAsc : (Nat → K) → Nat → List Nat) (sample : (Nat → K) → Nat → Bool)
    (t : Tensor K) (density gamma epsilon : K) (norm : Option Norm) :
    (0 ≤ density → density < 1 → ∃ r c, sparsify sqrt sortDesc sortAsc sample t density .random gamma epsilon norm = .ok r ∧
      Factor norm t r c ∧ r.shape = t.shape ∧
      ∀ i, r.get i = if sample (fun _ => density) i then c * t.get i else 0) ∧
    (1 ≤ density → sparsify sqrt sortDesc sortAsc sample t density .random gamma epsilon norm = .ok t) ∧
    (density < 0 → sparsify sqrt sortDesc sortAsc sample t density .random gamma epsilon norm = .error .value) := by
  refine ⟨fun h0 h1 => ?_, fun h => ?_, fun h => ?_⟩
  · obtain ⟨c, a, d, e⟩ := rescaled_scale sqrt t (sample (fun _ => density)) norm
    refine ⟨_, c, ?_, a, d, e⟩
    simp only [sparsify, bernoulli]
    rw [if_neg (not_le.2 h1), if_neg (not_lt.2 h0)]
  · simp only [sparsify, bernoulli]
    rw [if_pos h]
  · simp only [sparsify, bernoulli]
    rw [if_neg (by push Not; linarith), if_pos h]

end

/-! ## Examples -/

/-- A sorting function as the theorems require it. -/
noncomputable def someSort (w : Nat → ℚ) (n : Nat) : List Nat := (List.range n).mergeSort (fun a b => decide (w a ≤ w b))

theorem someSort_sorts (w : Nat → ℚ) (n : Nat) : SortsAsc w n (someSort w n) := by
  refine ⟨List.mergeSort_perm _ _, ?_⟩
  have := List.pairwise_mergeSort (le := fun a b => decide (w a ≤ w b))
    (by intro a b c h1 h2; simp only [decide_eq_true_eq] at *; exact le_trans h1 h2)
    (by intro a b; simp only [Bool.or_eq_true, decide_eq_true_eq]; exact le_total _ _) (List.range n)
  exact this.imp (by intro a b h; simpa using h)

theorem someSort_desc (w : Nat → ℚ) (n : Nat) : SortsDesc w n (someSort w n).reverse :=
  ⟨(List.reverse_perm _).trans (someSort_sorts w n).perm, List.pairwise_reverse.2 (someSort_sorts w n).sorted⟩

/-- A tensor of ten entries. -/
def sampleT : Tensor ℚ := ⟨[2, 5], fun i => i - 4⟩

example : (1 : ℚ) ≤ (1 / 2) * sampleT.numel ∧ (1 : ℚ) ≤ (1 / 5) * sampleT.numel ∧ (1 / 100 : ℚ) * sampleT.numel < 1 := by
  have : sampleT.numel = 10 := rfl
  rw [this]
  norm_num

example : ∃ r, magnitude id (fun w n => (someSort w n).reverse) sampleT (1 / 2) none = .ok r := by
  obtain ⟨r, _, _, h, _⟩ := C37_keeps_largest id (fun w n => (someSort w n).reverse) someSort_desc sampleT (1 / 2) none (by norm_num)
    (by have : sampleT.numel = 10 := rfl
        rw [this]
        norm_num)
  exact ⟨r, h⟩

example : IsSqrt Real.sqrt := fun x hx => ⟨Real.sqrt_nonneg x, Real.mul_self_sqrt hx⟩

end Verif.Sparsify
