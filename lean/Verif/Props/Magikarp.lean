import Verif.Model.Magikarp
import Verif.Props.TokenSurgeon
import Mathlib.Tactic.Linarith
import Mathlib.Tactic.Ring
import Mathlib.Tactic.NormNum
import Mathlib.Tactic.Positivity
import Mathlib.Data.List.Sort
import Mathlib.Data.List.GetD

/-! # Well-trained tokens (C97, C98) -/

namespace Verif.Magikarp

open Finset
open Verif.ModelRef (Str)
open Verif.Tok (NToken unnormalize)
open Verif.Surgeon (Emb Vocab)

/-! ## Specification -/

/-- The id belongs to no token, or to one that is known not to be used or whose name says so. -/
def IsUnused (v : Vocab) (rows : Nat) (known : List NToken) (id : Nat) : Prop :=
  (id < rows ∧ ∀ t, (t, id) ∉ v) ∨
    ∃ t, (t, id) ∈ v ∧ (t ∈ known ∨ cs!"unused_token" <:+: unnormalize t ∨ cs!"reserved_special_token" <:+: unnormalize t)

/-- How many rows have a number of at most `x`. -/
noncomputable def atMost (m : Rows) (f : (Nat → ℝ) → ℝ) (x : ℝ) : Nat := ((range m.rows).filter (fun i => f (m.row i) ≤ x)).card

/-- How many rows have a number of at least `x`. -/
noncomputable def atLeast (m : Rows) (f : (Nat → ℝ) → ℝ) (x : ℝ) : Nat := ((range m.rows).filter (fun i => x ≤ f (m.row i))).card

/-- The part `q` of all rows but one. -/
noncomputable def part (m : Rows) (q : ℝ) : ℝ := q * ((m.rows - 1 : Nat) : ℝ)

/-! ## Quantiles -/

theorem countP_le_of_drop {s : List ℝ} {p : ℝ → Bool} {m : Nat} (h : ∀ x ∈ s.drop m, p x = false) : s.countP p ≤ m := by
  conv_lhs => rw [← List.take_append_drop m s]
  rw [List.countP_append]
  have h1 : (s.drop m).countP p = 0 := by
    rw [List.countP_eq_zero]
    intro x hx; rw [h x hx]; simp
  have h2 : (s.take m).countP p ≤ (s.take m).length := List.countP_le_length
  have h3 : (s.take m).length ≤ m := by rw [List.length_take]; exact Nat.min_le_left _ _
  omega

theorem le_countP_of_take {s : List ℝ} {p : ℝ → Bool} {m : Nat} (hm : m ≤ s.length) (h : ∀ x ∈ s.take m, p x = true) : m ≤ s.countP p := by
  conv_rhs => rw [← List.take_append_drop m s]
  rw [List.countP_append]
  have h1 : (s.take m).countP p = (s.take m).length := List.countP_eq_length.mpr h
  rw [h1, List.length_take, Nat.min_eq_left hm]
  omega

theorem countP_le_of_take {s : List ℝ} {p : ℝ → Bool} {m : Nat} (hm : m ≤ s.length) (h : ∀ x ∈ s.take m, p x = false) : s.countP p ≤ s.length - m := by
  conv_lhs => rw [← List.take_append_drop m s]
  rw [List.countP_append]
  have h1 : (s.take m).countP p = 0 := by
    rw [List.countP_eq_zero]
    intro x hx; rw [h x hx]; simp
  have h2 : (s.drop m).countP p ≤ (s.drop m).length := List.countP_le_length
  rw [List.length_drop] at h2
  omega

theorem le_countP_of_drop {s : List ℝ} {p : ℝ → Bool} {m : Nat} (h : ∀ x ∈ s.drop m, p x = true) : s.length - m ≤ s.countP p := by
  conv_rhs => rw [← List.take_append_drop m s]
  rw [List.countP_append]
  have h1 : (s.drop m).countP p = (s.drop m).length := List.countP_eq_length.mpr h
  rw [h1, List.length_drop]
  omega

theorem sorted_drop {s : List ℝ} (hs : s.Pairwise (· ≤ ·)) {m : Nat} (hm : m < s.length) {x : ℝ} (hx : x ∈ s.drop m) : s.getD m 0 ≤ x := by
  rw [List.getD_eq_getElem _ _ hm]
  obtain ⟨i, hi, rfl⟩ := List.mem_iff_getElem.mp hx
  rw [List.getElem_drop]
  rw [List.length_drop] at hi
  rcases Nat.eq_zero_or_pos i with rfl | h0
  · simp
  · exact List.pairwise_iff_getElem.mp hs m (m + i) hm (by omega) (by omega)

theorem sorted_take {s : List ℝ} (hs : s.Pairwise (· ≤ ·)) {m : Nat} (hm : m < s.length) {x : ℝ} (hx : x ∈ s.take (m + 1)) : x ≤ s.getD m 0 := by
  rw [List.getD_eq_getElem _ _ hm]
  obtain ⟨i, hi, rfl⟩ := List.mem_iff_getElem.mp hx
  rw [List.getElem_take]
  rw [List.length_take] at hi
  rcases Nat.lt_or_ge i m with h0 | h0
  · exact List.pairwise_iff_getElem.mp hs i m (by omega) hm h0
  · have : i = m := by omega
    subst this; exact le_refl _

/-- The quantile lies between two neighbours of the sorted list. -/
theorem quantile_between {xs : List ℝ} (hx : xs ≠ []) {q : ℝ} (h0 : 0 ≤ q) (h1 : q ≤ 1) :
    ∃ s : List ℝ, s.Perm xs ∧ s.Pairwise (· ≤ ·) ∧ ⌊q * ((xs.length - 1 : Nat) : ℝ)⌋₊ ≤ ⌈q * ((xs.length - 1 : Nat) : ℝ)⌉₊ ∧
      ⌈q * ((xs.length - 1 : Nat) : ℝ)⌉₊ < s.length ∧ s.getD ⌊q * ((xs.length - 1 : Nat) : ℝ)⌋₊ 0 ≤ quantile xs q ∧
      quantile xs q ≤ s.getD ⌈q * ((xs.length - 1 : Nat) : ℝ)⌉₊ 0 := by
  have hlen : 0 < xs.length := List.length_pos_of_ne_nil hx
  set s := xs.mergeSort (fun a b => decide (a ≤ b)) with hs
  have hperm : s.Perm xs := List.mergeSort_perm _ _
  have hsorted : s.Pairwise (· ≤ ·) := by
    have := List.pairwise_mergeSort (le := fun a b : ℝ => decide (a ≤ b)) (fun a b c hab hbc => by
      simp only [decide_eq_true_eq] at *; exact le_trans hab hbc) (fun a b => by simp only [Bool.or_eq_true, decide_eq_true_eq]; exact le_total a b) xs
    exact this.imp (fun h => by simpa using h)
  set r := q * ((xs.length - 1 : Nat) : ℝ) with hr
  have hr0 : 0 ≤ r := by positivity
  have hr1 : r ≤ ((xs.length - 1 : Nat) : ℝ) := by
    have : (0 : ℝ) ≤ ((xs.length - 1 : Nat) : ℝ) := by positivity
    nlinarith
  have hc : ⌈r⌉₊ ≤ xs.length - 1 := Nat.ceil_le.mpr hr1
  have hfc : ⌊r⌋₊ ≤ ⌈r⌉₊ := Nat.floor_le_ceil r
  have hl : s.length = xs.length := hperm.length_eq
  have hle : s.getD ⌊r⌋₊ 0 ≤ s.getD ⌈r⌉₊ 0 := by
    apply sorted_drop hsorted (by omega)
    rw [List.getD_eq_getElem _ _ (by omega)]
    refine List.mem_iff_getElem.mpr ⟨⌈r⌉₊ - ⌊r⌋₊, by rw [List.length_drop]; omega, ?_⟩
    rw [List.getElem_drop]
    congr 1; omega
  have hf0 : 0 ≤ r - ⌊r⌋₊ := by linarith [Nat.floor_le hr0]
  have hf1 : r - ⌊r⌋₊ ≤ 1 := by linarith [Nat.lt_floor_add_one r]
  have hq : quantile xs q = s.getD ⌊r⌋₊ 0 + (r - ⌊r⌋₊) * (s.getD ⌈r⌉₊ 0 - s.getD ⌊r⌋₊ 0) := rfl
  refine ⟨s, hperm, hsorted, hfc, by omega, ?_, ?_⟩
  · rw [hq]; nlinarith
  · rw [hq]; nlinarith

/-- Few numbers are below a quantile, and whatever is among the lowest is below it. -/
theorem below_quantile {xs : List ℝ} (hx : xs ≠ []) {q : ℝ} (h0 : 0 ≤ q) (h1 : q ≤ 1) (x : ℝ) :
    (x < quantile xs q → xs.countP (fun y => decide (y ≤ x)) ≤ ⌈q * ((xs.length - 1 : Nat) : ℝ)⌉₊) ∧
    (xs.countP (fun y => decide (y ≤ x)) ≤ ⌊q * ((xs.length - 1 : Nat) : ℝ)⌋₊ → x < quantile xs q) := by
  obtain ⟨s, hp, hs, hfc, hlt, hlo, hhi⟩ := quantile_between hx h0 h1
  rw [← hp.countP_eq]
  constructor
  · intro h
    apply countP_le_of_drop
    intro y hy
    have := sorted_drop hs hlt hy
    rw [decide_eq_false_iff_not, not_le]
    linarith
  · intro h
    by_contra hn
    rw [not_lt] at hn
    have := le_countP_of_take (s := s) (p := fun y => decide (y ≤ x)) (m := ⌊q * ((xs.length - 1 : Nat) : ℝ)⌋₊ + 1) (by omega) (by
      intro y hy
      have := sorted_take hs (by omega) hy
      rw [decide_eq_true_eq]; linarith)
    omega

/-- Few numbers are above a quantile, and whatever is among the highest is above it. -/
theorem above_quantile {xs : List ℝ} (hx : xs ≠ []) {q : ℝ} (h0 : 0 ≤ q) (h1 : q ≤ 1) (x : ℝ) :
    (quantile xs (1 - q) < x → xs.countP (fun y => decide (x ≤ y)) ≤ ⌈q * ((xs.length - 1 : Nat) : ℝ)⌉₊) ∧
    (xs.countP (fun y => decide (x ≤ y)) ≤ ⌊q * ((xs.length - 1 : Nat) : ℝ)⌋₊ → quantile xs (1 - q) < x) := by
  obtain ⟨s, hp, hs, hfc, hlt, hlo, hhi⟩ := quantile_between hx (q := 1 - q) (by linarith) (by linarith)
  have hl := hp.length_eq
  have hlen : 0 < xs.length := List.length_pos_of_ne_nil hx
  set n1 := xs.length - 1 with hn1
  have hpos : (0 : ℝ) ≤ q * (n1 : ℝ) := by positivity
  -- the two roundings
  have e1 : n1 ≤ ⌊(1 - q) * (n1 : ℝ)⌋₊ + ⌈q * (n1 : ℝ)⌉₊ := by
    have h2 : (n1 : ℝ) - ⌈q * (n1 : ℝ)⌉₊ ≤ (1 - q) * n1 := by nlinarith [Nat.le_ceil (q * (n1 : ℝ))]
    rcases Nat.le_total n1 ⌈q * (n1 : ℝ)⌉₊ with h3 | h3
    · omega
    · have : n1 - ⌈q * (n1 : ℝ)⌉₊ ≤ ⌊(1 - q) * (n1 : ℝ)⌋₊ := by
        apply Nat.le_floor
        rw [Nat.cast_sub h3]; exact h2
      omega
  have e2 : ⌈(1 - q) * (n1 : ℝ)⌉₊ + ⌊q * (n1 : ℝ)⌋₊ ≤ n1 := by
    have h2 : (1 - q) * n1 ≤ (n1 : ℝ) - ⌊q * (n1 : ℝ)⌋₊ := by nlinarith [Nat.floor_le hpos]
    have h3 : ⌊q * (n1 : ℝ)⌋₊ ≤ n1 := by
      apply Nat.floor_le_of_le
      have : (0 : ℝ) ≤ n1 := by positivity
      nlinarith
    have : ⌈(1 - q) * (n1 : ℝ)⌉₊ ≤ n1 - ⌊q * (n1 : ℝ)⌋₊ := by
      apply Nat.ceil_le.mpr
      rw [Nat.cast_sub h3]; exact h2
    omega
  rw [← hp.countP_eq]
  constructor
  · intro h
    have := countP_le_of_take (s := s) (p := fun y => decide (x ≤ y)) (m := ⌊(1 - q) * (n1 : ℝ)⌋₊ + 1) (by omega) (by
      intro y hy
      have := sorted_take hs (by omega) hy
      rw [decide_eq_false_iff_not, not_le]
      linarith)
    omega
  · intro h
    by_contra hn
    rw [not_lt] at hn
    have := le_countP_of_drop (s := s) (p := fun y => decide (x ≤ y)) (m := ⌈(1 - q) * (n1 : ℝ)⌉₊) (by
      intro y hy
      have := sorted_drop hs hlt hy
      rw [decide_eq_true_eq]; linarith)
    omega

theorem countP_column (m : Rows) (f : (Nat → ℝ) → ℝ) (p : ℝ → Bool) :
    (column m f).countP p = ((range m.rows).filter (fun i => p (f (m.row i)) = true)).card := by
  unfold column
  rw [List.countP_map]
  induction m.rows with
  | zero => simp
  | succ n ih =>
    rw [List.range_succ, List.countP_append, ih, range_add_one, filter_insert]
    by_cases hp : p (f (m.row n)) = true
    · rw [if_pos hp, card_insert_of_notMem (by simp)]
      simp [hp]
    · rw [if_neg hp]
      simp [hp]

theorem column_length (m : Rows) (f : (Nat → ℝ) → ℝ) : (column m f).length = m.rows := by simp [column]

theorem column_ne {m : Rows} (h : 0 < m.rows) (f : (Nat → ℝ) → ℝ) : column m f ≠ [] := by
  intro he
  have := column_length m f
  rw [he] at this
  simp at this
  omega

theorem short_iff {d : Nat} {m : Rows} {q : ℝ} (h0 : 0 ≤ q) (h1 : q ≤ 1) {i : Nat} (hi : i < m.rows) :
    (i ∈ short d m q → atMost m (norm d) (norm d (m.row i)) ≤ ⌈part m q⌉₊) ∧
    (atMost m (norm d) (norm d (m.row i)) ≤ ⌊part m q⌋₊ → i ∈ short d m q) := by
  have := below_quantile (column_ne (show 0 < m.rows by omega) (norm d)) h0 h1 (norm d (m.row i))
  rw [countP_column, column_length] at this
  simp only [decide_eq_true_eq] at this
  unfold short
  simp only [mem_filter, mem_range]
  exact ⟨fun h => this.1 h.2, fun h => ⟨hi, this.2 h⟩⟩

theorem similar_iff {d : Nat} {m : Rows} {mean : Nat → ℝ} {q : ℝ} (h0 : 0 ≤ q) (h1 : q ≤ 1) {i : Nat} (hi : i < m.rows) :
    (i ∈ similar d m mean q → 1 / 2 < cosine d (m.row i) mean ∧ atLeast m (fun x => cosine d x mean) (cosine d (m.row i) mean) ≤ ⌈part m q⌉₊) ∧
    (1 / 2 < cosine d (m.row i) mean → atLeast m (fun x => cosine d x mean) (cosine d (m.row i) mean) ≤ ⌊part m q⌋₊ → i ∈ similar d m mean q) := by
  have := above_quantile (column_ne (show 0 < m.rows by omega) (fun x => cosine d x mean)) h0 h1 (cosine d (m.row i) mean)
  rw [countP_column, column_length] at this
  simp only [decide_eq_true_eq] at this
  unfold similar threshold
  simp only [mem_filter, mem_range]
  constructor
  · rintro ⟨_, h⟩
    split at h
    · rename_i hq
      exact ⟨h, this.1 (lt_trans hq h)⟩
    · rename_i hq
      exact ⟨lt_of_le_of_lt (not_lt.mp hq) h, this.1 h⟩
  · intro h2 h3
    refine ⟨hi, ?_⟩
    split
    · exact h2
    · exact this.2 h3

/-! ## C97: which tokens are returned -/

theorem occurs_iff (p s : Str) : occurs p s = true ↔ p <:+: s := by
  unfold occurs
  rw [List.any_eq_true]
  constructor
  · rintro ⟨t, ht, hp⟩
    have h1 := List.mem_tails _ _ |>.mp ht
    have h2 := List.isPrefixOf_iff_prefix.mp hp
    exact h2.isInfix.trans h1.isInfix
  · rintro ⟨a, b, rfl⟩
    exact ⟨p ++ b, (List.mem_tails _ _).mpr ⟨a, by simp⟩, List.isPrefixOf_iff_prefix.mpr (List.prefix_append _ _)⟩

theorem named_iff (t : NToken) : named t = true ↔ cs!"unused_token" <:+: unnormalize t ∨ cs!"reserved_special_token" <:+: unnormalize t := by
  unfold named
  rw [Bool.or_eq_true, occurs_iff, occurs_iff]

theorem mem_unused {v : Vocab} {rows : Nat} {known : List NToken} {id : Nat} : id ∈ unused v rows known ↔ IsUnused v rows known id := by
  unfold unused IsUnused
  simp only [mem_union, mem_sdiff, mem_range, List.mem_toFinset, List.mem_map, List.mem_filter, Bool.or_eq_true, decide_eq_true_eq, named_iff]
  constructor
  · rintro (⟨h1, h2⟩ | ⟨⟨t, i⟩, ⟨h1, h2⟩, rfl⟩)
    · exact Or.inl ⟨h1, fun t ht => h2 ⟨(t, id), ht, rfl⟩⟩
    · exact Or.inr ⟨t, h1, h2⟩
  · rintro (⟨h1, h2⟩ | ⟨t, h1, h2⟩)
    · exact Or.inl ⟨h1, fun ⟨⟨t, i⟩, ht, he⟩ => h2 t (by cases he; exact ht)⟩
    · exact Or.inr ⟨(t, id), ⟨h1, h2⟩, rfl⟩

/-- C97: the search fails exactly when an unused id has no row in one of the matrices, or there is an output matrix and no input row at all. -/
theorem C97_fails (d d' : Nat) (v : Vocab) (embed : Rows) (head : Option Rows) (known : List NToken) (q : ℝ) :
    (∃ ts, wellTrained d d' v embed head known q = .ok ts) ↔
      (∀ id, IsUnused v embed.rows known id → id < embed.rows ∧ ∀ h, head = some h → id < h.rows) ∧ (head.isSome → embed.rows ≠ 0) := by
  have e : (∀ i ∈ unused v embed.rows known, i < embed.rows ∧ ∀ h, head = some h → i < h.rows) ↔
      ∀ id, IsUnused v embed.rows known id → id < embed.rows ∧ ∀ h, head = some h → id < h.rows :=
    ⟨fun h i hi => h i (mem_unused.mpr hi), fun h i hi => h i (mem_unused.mp hi)⟩
  rw [← e]
  unfold wellTrained
  simp only
  by_cases h1 : ∀ i ∈ unused v embed.rows known, i < embed.rows ∧ ∀ h, head = some h → i < h.rows
  · rw [if_neg (not_not.mpr h1)]
    by_cases h2 : head.isSome ∧ embed.rows = 0
    · rw [if_pos h2]
      exact ⟨fun h => (by obtain ⟨_, h⟩ := h; cases h), fun h => absurd h2.2 (h.2 h2.1)⟩
    · rw [if_neg h2]
      exact ⟨fun _ => ⟨h1, fun hs he => h2 ⟨hs, he⟩⟩, fun _ => ⟨_, rfl⟩⟩
  · rw [if_pos h1]
    exact ⟨fun h => (by obtain ⟨_, h⟩ := h; cases h), fun h => absurd h.1 h1⟩

theorem wellTrained_ok {d d' : Nat} {v : Vocab} {embed : Rows} {head : Option Rows} {known : List NToken} {q : ℝ} {ts : List NToken}
    (h : wellTrained d d' v embed head known q = .ok ts) : ts = (v.filter (fun e => decide (e.2 ∉ bad d d' v embed head known q))).map Prod.fst := by
  unfold wellTrained at h
  simp only at h
  split at h
  · cases h
  · split at h
    · cases h
    · cases h; rfl

theorem mem_wellTrained {d d' : Nat} {v : Vocab} {embed : Rows} {head : Option Rows} {known : List NToken} {q : ℝ} {ts : List NToken}
    (hk : (v.map Prod.fst).Nodup) (h : wellTrained d d' v embed head known q = .ok ts) {t : NToken} {id : Nat} (ht : (t, id) ∈ v) :
    t ∈ ts ↔ id ∉ bad d d' v embed head known q := by
  rw [wellTrained_ok h]
  simp only [List.mem_map, List.mem_filter, decide_eq_true_eq, Prod.exists, exists_and_right, exists_eq_right]
  constructor
  · rintro ⟨id', h1, h2⟩
    have := List.inj_on_of_nodup_map hk h1 ht rfl
    cases this
    exact h2
  · exact fun h => ⟨id, ht, h⟩

/-- C97: tokens are returned in the order of the vocabulary, each at most as often as it is there. -/
theorem C97_order {d d' : Nat} {v : Vocab} {embed : Rows} {head : Option Rows} {known : List NToken} {q : ℝ} {ts : List NToken}
    (h : wellTrained d d' v embed head known q = .ok ts) : ts.Sublist (v.map Prod.fst) := by
  rw [wellTrained_ok h]
  exact List.Sublist.map _ List.filter_sublist

/-- C97: no unused token is returned. -/
theorem C97_unused {d d' : Nat} {v : Vocab} {embed : Rows} {head : Option Rows} {known : List NToken} {q : ℝ} {ts : List NToken}
    (hk : (v.map Prod.fst).Nodup) (h : wellTrained d d' v embed head known q = .ok ts) {t : NToken} {id : Nat} (ht : (t, id) ∈ v)
    (hu : IsUnused v embed.rows known id) : t ∉ ts := by
  rw [mem_wellTrained hk h ht, not_not]
  unfold bad
  exact mem_union_left _ (mem_union_left _ (mem_unused.mpr hu))

/-- The Euclidean length of the first `d` entries. -/
noncomputable def len (d : Nat) (x : Nat → ℝ) : ℝ := Real.sqrt (∑ l ∈ range d, x l ^ 2)

/-- The cosine of the angle between two vectors; lengths below `1e-8` count as `1e-8`. -/
noncomputable def cosTo (d : Nat) (y x : Nat → ℝ) : ℝ := (∑ l ∈ range d, x l * y l) / (max (len d x) (1 / 10 ^ 8) * max (len d y) (1 / 10 ^ 8))

/-- The average of some rows. -/
noncomputable def average (m : Rows) (s : Finset Nat) : Nat → ℝ := fun l => (∑ i ∈ s, m.row i l) / s.card

/-- The row is among the shortest ones, a part `q` of all; `low` and `high` are ways to round. -/
def Shortest (d : Nat) (m : Rows) (q : ℝ) (round : ℝ → Nat) (id : Nat) : Prop :=
  id < m.rows ∧ atMost m (len d) (len d (m.row id)) ≤ round (part m q)

/-- The row is at an angle of less than 60 degrees to the mean of some rows, and among the nearest, a part `q` of all. -/
noncomputable def Nearest (d : Nat) (m : Rows) (q : ℝ) (s : Finset Nat) (round : ℝ → Nat) (id : Nat) : Prop :=
  id < m.rows ∧ 1 / 2 < cosTo d (average m s) (m.row id) ∧
    atLeast m (cosTo d (average m s)) (cosTo d (average m s) (m.row id)) ≤ round (part m q)

/-- A reason to leave a token out: it is not used, its input embedding is among the shortest (if there is an output matrix), or one of its embeddings is
among the nearest to the mean of the unused ones (if there are any). -/
noncomputable def Reason (d d' : Nat) (v : Vocab) (embed : Rows) (head : Option Rows) (known : List NToken) (q : ℝ) (round : ℝ → Nat) (id : Nat) : Prop :=
  IsUnused v embed.rows known id ∨ (head.isSome ∧ Shortest d embed q round id) ∨
    ((∃ i, IsUnused v embed.rows known i) ∧ ∃ s : Finset Nat, (∀ i, i ∈ s ↔ IsUnused v embed.rows known i) ∧
      (Nearest d embed q s round id ∨ ∃ h, head = some h ∧ Nearest d' h q s round id))

/-- C97: a token is left out only for a reason, and always if there is one; the two differ only in how a fraction of a row is rounded. -/
theorem C97_reason {d d' : Nat} {v : Vocab} {embed : Rows} {head : Option Rows} {known : List NToken} {q : ℝ} (h0 : 0 ≤ q) (h1 : q ≤ 1)
    {ts : List NToken} (hk : (v.map Prod.fst).Nodup) (h : wellTrained d d' v embed head known q = .ok ts) {t : NToken} {id : Nat} (ht : (t, id) ∈ v) :
    (t ∉ ts → Reason d d' v embed head known q Nat.ceil id) ∧ (Reason d d' v embed head known q Nat.floor id → t ∉ ts) := by
  rw [mem_wellTrained hk h ht, not_not]
  unfold bad Reason
  simp only [mem_union, mem_unused]
  have hne : (unused v embed.rows known = ∅) ↔ ¬ ∃ i, IsUnused v embed.rows known i := by
    rw [eq_empty_iff_forall_notMem, not_exists]
    exact ⟨fun h i hi => h i (mem_unused.mpr hi), fun h i hi => h i (mem_unused.mp hi)⟩
  constructor
  · rintro ((h2 | h2) | h2)
    · exact Or.inl h2
    · refine Or.inr (Or.inl ?_)
      cases head with
      | none => simp at h2
      | some hd =>
        have hlt : id < embed.rows := by unfold short at h2; exact mem_range.mp (mem_filter.mp h2).1
        exact ⟨rfl, hlt, (short_iff h0 h1 hlt).1 h2⟩
    · refine Or.inr (Or.inr ?_)
      split at h2
      · simp at h2
      · rename_i hu
        refine ⟨not_not.mp (fun hn => hu (hne.mpr hn)), unused v embed.rows known, fun i => mem_unused, ?_⟩
        rw [mem_union] at h2
        rcases h2 with h2 | h2
        · have hlt : id < embed.rows := by unfold similar at h2; exact mem_range.mp (mem_filter.mp h2).1
          obtain ⟨h3, h4⟩ := (similar_iff h0 h1 hlt).1 h2
          exact Or.inl ⟨hlt, h3, h4⟩
        · cases head with
          | none => simp at h2
          | some hd =>
            have hlt : id < hd.rows := by unfold similar at h2; exact mem_range.mp (mem_filter.mp h2).1
            obtain ⟨h3, h4⟩ := (similar_iff h0 h1 hlt).1 h2
            exact Or.inr ⟨hd, rfl, hlt, h3, h4⟩
  · rintro (h2 | ⟨h2, hlt, h3⟩ | ⟨h2, s, hs, h3⟩)
    · exact Or.inl (Or.inl h2)
    · refine Or.inl (Or.inr ?_)
      cases head with
      | none => cases h2
      | some hd => exact (short_iff h0 h1 hlt).2 h3
    · refine Or.inr ?_
      rw [if_neg (fun he => hne.mp he h2)]
      have hs' : s = unused v embed.rows known := by
        ext i; rw [hs, mem_unused]
      subst hs'
      rw [mem_union]
      rcases h3 with ⟨hlt, h4, h5⟩ | ⟨hd, rfl, hlt, h4, h5⟩
      · exact Or.inl ((similar_iff h0 h1 hlt).2 h4 h5)
      · exact Or.inr ((similar_iff h0 h1 hlt).2 h4 h5)

theorem card_short {d : Nat} {m : Rows} {q : ℝ} (h0 : 0 ≤ q) (h1 : q ≤ 1) : (short d m q).card ≤ ⌈part m q⌉₊ := by
  rcases (short d m q).eq_empty_or_nonempty with he | hne
  · rw [he]; simp
  · -- the longest of the short rows
    obtain ⟨i, hi, hmax⟩ := exists_max_image (short d m q) (fun i => norm d (m.row i)) hne
    have hlt : i < m.rows := by unfold short at hi; exact mem_range.mp (mem_filter.mp hi).1
    refine le_trans (card_le_card ?_) ((short_iff h0 h1 hlt).1 hi)
    intro j hj
    have hj' : j ∈ range m.rows := by unfold short at hj; exact (mem_filter.mp hj).1
    exact mem_filter.mpr ⟨hj', hmax j hj⟩

theorem card_similar {d : Nat} {m : Rows} {mean : Nat → ℝ} {q : ℝ} (h0 : 0 ≤ q) (h1 : q ≤ 1) : (similar d m mean q).card ≤ ⌈part m q⌉₊ := by
  rcases (similar d m mean q).eq_empty_or_nonempty with he | hne
  · rw [he]; simp
  · obtain ⟨i, hi, hmin⟩ := exists_min_image (similar d m mean q) (fun i => cosine d (m.row i) mean) hne
    have hlt : i < m.rows := by unfold similar at hi; exact mem_range.mp (mem_filter.mp hi).1
    refine le_trans (card_le_card ?_) ((similar_iff h0 h1 hlt).1 hi).2
    intro j hj
    have hj' : j ∈ range m.rows := by unfold similar at hj; exact (mem_filter.mp hj).1
    exact mem_filter.mpr ⟨hj', hmin j hj⟩

/-- C97: of the tokens that are used (with different ids) at most three times the part `q` of the rows are left out, once for each test; with one matrix
only, at most the part `q`. -/
theorem C97_most {d d' : Nat} {v : Vocab} {embed : Rows} {head : Option Rows} {known : List NToken} {q : ℝ} (h0 : 0 ≤ q) (h1 : q ≤ 1)
    {ts : List NToken} (hk : (v.map Prod.fst).Nodup) (hid : (v.map Prod.snd).Nodup) (h : wellTrained d d' v embed head known q = .ok ts)
    (out : List NToken) (ho : out.Nodup) (hout : ∀ t ∈ out, t ∉ ts ∧ ∃ id, (t, id) ∈ v ∧ ¬ IsUnused v embed.rows known id) :
    out.length ≤ match head with
      | none => ⌈part embed q⌉₊
      | some hd => ⌈part embed q⌉₊ + ⌈part embed q⌉₊ + ⌈part hd q⌉₊ := by
  classical
  -- the ids of the tokens
  have hget : ∀ t : NToken, ∃ id, t ∈ out → (t, id) ∈ v ∧ id ∈ bad d d' v embed head known q \ unused v embed.rows known := by
    intro t
    by_cases ht : t ∈ out
    · obtain ⟨h2, id, h3, h4⟩ := hout t ht
      refine ⟨id, fun _ => ⟨h3, mem_sdiff.mpr ⟨?_, fun hu => h4 (mem_unused.mp hu)⟩⟩⟩
      by_contra hb
      exact h2 ((mem_wellTrained hk h h3).mpr hb)
    · exact ⟨0, fun h => absurd h ht⟩
  choose f hf using hget
  have hcard : out.length ≤ (bad d d' v embed head known q \ unused v embed.rows known).card := by
    rw [← List.toFinset_card_of_nodup ho]
    apply card_le_card_of_injOn f
    · intro t ht
      exact (hf t (List.mem_toFinset.mp ht)).2
    · intro t ht t' ht' he
      have h2 := (hf t (List.mem_toFinset.mp ht)).1
      have h3 := (hf t' (List.mem_toFinset.mp ht')).1
      rw [he] at h2
      have := List.inj_on_of_nodup_map hid h2 h3 rfl
      exact congrArg Prod.fst this
  refine hcard.trans ?_
  cases head with
  | none =>
    refine le_trans (card_le_card ?_) (card_similar (d := d) (m := embed) (mean := meanRow embed (unused v embed.rows known)) h0 h1)
    intro i hi
    rw [mem_sdiff] at hi
    obtain ⟨hb, hu⟩ := hi
    unfold bad at hb
    simp only [mem_union, hu, false_or, union_empty, notMem_empty] at hb
    split at hb
    · simp at hb
    · exact hb
  | some hd =>
    have hsub : bad d d' v embed (some hd) known q \ unused v embed.rows known ⊆
        short d embed q ∪ similar d embed (meanRow embed (unused v embed.rows known)) q ∪ similar d' hd (meanRow hd (unused v embed.rows known)) q := by
      intro i hi
      rw [mem_sdiff] at hi
      obtain ⟨hb, hu⟩ := hi
      unfold bad at hb
      simp only [mem_union, hu, false_or] at hb
      simp only [mem_union]
      rcases hb with hb | hb
      · exact Or.inl (Or.inl hb)
      · split at hb
        · simp at hb
        · rw [mem_union] at hb
          rcases hb with hb | hb
          · exact Or.inl (Or.inr hb)
          · exact Or.inr hb
    refine (card_le_card hsub).trans ((card_union_le _ _).trans ?_)
    show _ ≤ ⌈part embed q⌉₊ + ⌈part embed q⌉₊ + ⌈part hd q⌉₊
    have := card_union_le (short d embed q) (similar d embed (meanRow embed (unused v embed.rows known)) q)
    have h2 := card_short (d := d) (m := embed) h0 h1
    have h3 := card_similar (d := d) (m := embed) (mean := meanRow embed (unused v embed.rows known)) h0 h1
    have h4 := card_similar (d := d') (m := hd) (mean := meanRow hd (unused v embed.rows known)) h0 h1
    omega

/-- C97: with one matrix and no unused id all tokens are returned. -/
theorem C97_all {d d' : Nat} {v : Vocab} {embed : Rows} {known : List NToken} {q : ℝ} (hu : ∀ id, ¬ IsUnused v embed.rows known id) :
    wellTrained d d' v embed none known q = .ok (v.map Prod.fst) := by
  have he : unused v embed.rows known = ∅ := by
    rw [eq_empty_iff_forall_notMem]
    exact fun i hi => hu i (mem_unused.mp hi)
  have hb : bad d d' v embed none known q = ∅ := by
    unfold bad
    simp [he]
  unfold wellTrained
  simp [he, hb]

/-- C97 does not hold as stated: the name looked at is that of the kind of special token, so that a token reserved or unused by its own name, but listed as
a special token of some kind (not named that way), is not recognised. -/
theorem C97_special_name {special : List (Str × List Str)} {wordStart tok kind : Str} {toks : List Str} (hw : wordStart.isPrefixOf tok = false)
    (hf : special.find? (fun e => decide (tok ∈ e.2)) = some (kind, toks)) (hk : occurs cs!"unused_token" kind = false)
    (hk' : occurs cs!"reserved_special_token" kind = false) : named (Verif.Tok.normalize special wordStart tok) = false := by
  unfold Verif.Tok.normalize
  rw [if_neg (by rw [hw]; simp), hf]
  unfold named unnormalize
  simp only [hk, hk', Bool.or_false]

example : named (Verif.Tok.normalize [(cs!"additional_special_tokens", [cs!"<|reserved_special_token_0|>"])] cs!"Ġ" cs!"<|reserved_special_token_0|>") = false ∧
    named (Verif.Tok.normalize [] cs!"Ġ" cs!"<|reserved_special_token_0|>") = true := by
  constructor
  · exact C97_special_name (by decide +kernel) rfl (by decide +kernel) (by decide +kernel)
  · decide +kernel

/-- The hypotheses of the theorems can be met: three tokens, one of them reserved, rows that are not empty and an output matrix. -/
example : ∃ ts, wellTrained 2 2 [((none, cs!"a"), 0), ((none, cs!"b"), 1), ((none, cs!"<reserved_special_token_1>"), 2)]
    ⟨4, fun i l => (i : ℝ) + l⟩ (some ⟨4, fun i _ => (i : ℝ)⟩) [] (1 / 100) = .ok ts ∧ (none, cs!"<reserved_special_token_1>") ∉ ts := by
  obtain ⟨ts, hts⟩ := (C97_fails 2 2 [((none, cs!"a"), 0), ((none, cs!"b"), 1), ((none, cs!"<reserved_special_token_1>"), 2)]
    ⟨4, fun i l => (i : ℝ) + l⟩ (some ⟨4, fun i _ => (i : ℝ)⟩) [] (1 / 100)).mpr ⟨by
      rintro id (⟨h, _⟩ | ⟨t, ht, _⟩)
      · exact ⟨h, fun h' he => by cases he; exact h⟩
      · have : id < 4 := by
          simp only [List.mem_cons, Prod.mk.injEq, List.not_mem_nil, or_false] at ht
          omega
        exact ⟨this, fun h' he => by cases he; exact this⟩, by simp⟩
  refine ⟨ts, hts, C97_unused (by decide +kernel) hts (id := 2) (by simp) (Or.inr ⟨(none, cs!"<reserved_special_token_1>"), by simp, Or.inr (Or.inr ?_)⟩)⟩
  rw [← occurs_iff]; decide +kernel

/-! ## C98: what the command does with them -/

theorem select_ok {orig donor : Source} {r : Vocab × List Nat} (h : select true orig donor = .ok r) :
    ∃ good goodDonor, wellTrained orig.dim orig.headDim orig.vocab orig.embed orig.head [] (1 / 100) = .ok good ∧
      wellTrained donor.dim donor.headDim donor.vocab donor.embed donor.head [] (1 / 100) = .ok goodDonor ∧
      r = (commonVocab good goodDonor orig.vocab, junk good goodDonor donor.vocab) := by
  unfold select at h
  rw [if_pos rfl] at h
  cases h1 : wellTrained orig.dim orig.headDim orig.vocab orig.embed orig.head [] (1 / 100) with
  | error e => rw [h1] at h; cases h
  | ok good =>
    rw [h1] at h
    cases h2 : wellTrained donor.dim donor.headDim donor.vocab donor.embed donor.head [] (1 / 100) with
    | error e => rw [h2] at h; cases h
    | ok goodDonor =>
      rw [h2] at h
      cases h
      exact ⟨good, goodDonor, rfl, rfl, rfl⟩

/-- Without the option nothing is left out. -/
theorem C98_off (orig donor : Source) : select false orig donor = .ok (orig.vocab, []) := rfl

section
variable {R : Type} [Zero R] [Add R]

open Verif.Surgeon in
/-- C98: with the option, in the matrix built (from matrices with rows of any kind) every token that is well-trained in both models has the row of the
original model; every token of the donor that is well-trained in neither has a zero row; the row of any other token is an approximation (unless matching
by byte or prefix gives it one). -/
theorem C98_rows {ws : Char → Bool} {ab ap : Bool} {a : Approx R} {batch : Option Int} {orig : Emb R} {donorRows : Nat} {o d : Source} {r : Vocab × List Nat}
    {out : Emb R} (ha : Complete a) (ho : (o.vocab.map Prod.fst).Nodup) (hk : (d.vocab.map Prod.fst).Nodup) (hids : (d.vocab.map Prod.snd).Nodup)
    (hr : ab = true → ∀ e ∈ d.vocab, Regular e.1) (hs : select true o d = .ok r) (h : build ws ab ap a batch orig donorRows r.1 d.vocab r.2 = .ok out) :
    ∃ good goodDonor, wellTrained o.dim o.headDim o.vocab o.embed o.head [] (1 / 100) = .ok good ∧
      wellTrained d.dim d.headDim d.vocab d.embed d.head [] (1 / 100) = .ok goodDonor ∧
      ∀ t id, (t, id) ∈ d.vocab → id < donorRows →
        (t ∈ good → t ∈ goodDonor → ∀ i, (t, i) ∈ o.vocab → i < orig.rows → out.row id = orig.row i) ∧
        (t ∉ good → t ∉ goodDonor → out.row id = 0) ∧
        ((t ∈ good ↔ t ∉ goodDonor) → ab = false → ap = false →
          ∃ (b : Nat) (ts : List NToken) (rs : List R), t ∈ ts ∧ approximate a b ts = .ok rs ∧ out.row id ∈ rs) := by
  obtain ⟨good, goodDonor, hg, hgd, rfl⟩ := select_ok hs
  refine ⟨good, goodDonor, hg, hgd, ?_⟩
  have ho' : ((commonVocab good goodDonor o.vocab).map Prod.fst).Nodup := ho.sublist (List.Sublist.map _ List.filter_sublist)
  obtain ⟨_, _, hz, new, hnew, hrows⟩ := C60_rows ha ho' hk hids hr h
  intro t id ht hlt
  have hmem : ∀ {t i}, (t, i) ∈ commonVocab good goodDonor o.vocab ↔ (t, i) ∈ o.vocab ∧ t ∈ good ∧ t ∈ goodDonor := by
    intro t i
    unfold commonVocab
    simp
  have hjunk : t ∈ good ∨ t ∈ goodDonor → id ∉ junk good goodDonor d.vocab := by
    intro hor hj
    unfold junk at hj
    simp only [List.mem_map, List.mem_filter, Bool.and_eq_true, decide_eq_true_eq] at hj
    obtain ⟨⟨t', i'⟩, ⟨h1, h2, h3⟩, he⟩ := hj
    have := List.inj_on_of_nodup_map hids h1 ht he
    cases this
    rcases hor with h4 | h4
    · exact h3 h4
    · exact h2 h4
  refine ⟨fun h1 h2 i hi hin => ?_, fun h1 h2 => ?_, fun hx hab hap => ?_⟩
  · exact (hrows t id ht hlt (hjunk (Or.inl h1))).1 i (.exact ⟨hmem.mpr ⟨hi, h1, h2⟩, hin⟩)
  · refine hz id (Or.inl ?_)
    unfold junk
    simp only [List.mem_map, List.mem_filter, Bool.and_eq_true, decide_eq_true_eq]
    exact ⟨(t, id), ⟨ht, h2, h1⟩, rfl⟩
  · have hor : t ∈ good ∨ t ∈ goodDonor := by
      by_cases hgt : t ∈ good
      · exact Or.inl hgt
      · exact Or.inr (not_not.mp fun hn => hgt (hx.mpr hn))
    have hnot : ∀ i, ¬ Has (commonVocab good goodDonor o.vocab) orig.rows t i := by
      rintro i ⟨hi, _⟩
      obtain ⟨_, h1, h2⟩ := hmem.mp hi
      exact hx.mp h1 h2
    subst hab hap
    obtain ⟨k, size, hk1, hsize, rs, hap, hrow⟩ := (hrows t id ht hlt (hjunk hor)).2 (.none hnot (by simp) (by simp))
    refine ⟨_, _, rs, ?_, hap, List.mem_of_getElem? hrow⟩
    have hklt : k < new.length := (List.getElem?_eq_some_iff.mp hk1).1
    have hspos : 0 < size := by
      rw [hsize]; unfold batchSize
      split
      · omega
      · omega
    refine List.mem_of_getElem? (i := k % size) ?_
    rw [List.getElem?_take_of_lt (Nat.mod_lt _ hspos), List.getElem?_drop, show k / size * size + k % size = k by rw [Nat.mul_comm]; exact Nat.div_add_mod k size]
    exact hk1

end

/-- Two tokens, two rows, one matrix. -/
noncomputable def small : Source := { vocab := [((none, cs!"a"), 0), ((none, cs!"b"), 1)], embed := ⟨2, fun i _ => (i : ℝ) + 1⟩, dim := 1, head := none, headDim := 1 }

/-- Three tokens, one of them reserved. -/
noncomputable def reserved : Source :=
  { vocab := [((none, cs!"a"), 0), ((none, cs!"<unused_token_7>"), 1), ((none, cs!"c"), 2)], embed := ⟨3, fun i _ => (i : ℝ) + 1⟩, dim := 1, head := none, headDim := 1 }

/-- A source whose ids all have rows. -/
theorem wellTrained_small (s : Source) (hh : s.head = none) (hv : ∀ e ∈ s.vocab, e.2 < s.embed.rows) :
    ∃ ts, wellTrained s.dim s.headDim s.vocab s.embed s.head [] (1 / 100) = .ok ts := by
  refine (C97_fails _ _ _ _ _ _ _).mpr ⟨?_, by simp [hh]⟩
  rintro id (⟨h, _⟩ | ⟨t, ht, _⟩)
  · exact ⟨h, fun h' he => by rw [hh] at he; cases he⟩
  · exact ⟨hv _ ht, fun h' he => by rw [hh] at he; cases he⟩

open Verif.Surgeon in
/-- The hypotheses of `C98_rows` can be met. -/
example : ∃ (r : Vocab × List Nat) (out : Emb Int), select true small reserved = .ok r ∧
    build (fun _ => false) false false ⟨fun ts => .ok (ts.map fun _ => 7), false, none, none⟩ none ⟨2, fun i => (i : Int)⟩ 3 r.1 reserved.vocab r.2 = .ok out := by
  obtain ⟨g, hg⟩ := wellTrained_small small rfl (by unfold small; simp)
  obtain ⟨g', hg'⟩ := wellTrained_small reserved rfl (by unfold reserved; simp)
  have hs : select true small reserved = .ok (commonVocab g g' small.vocab, junk g g' reserved.vocab) := by
    unfold select
    rw [if_pos rfl, hg, hg']
    rfl
  have ho : (small.vocab.map Prod.fst).Nodup := by unfold small; decide +kernel
  obtain ⟨out, h⟩ := C60_accepted (ws := fun _ => false) (ab := false) (ap := false) (a := (⟨fun ts => .ok (ts.map fun _ => 7), false, none, none⟩ : Approx Int))
    (batch := none) (orig := ⟨2, fun i => (i : Int)⟩) (donorRows := 3) (origVocab := commonVocab g g' small.vocab) (donor := reserved.vocab)
    (junk := junk g g' reserved.vocab) (ho.sublist (List.Sublist.map _ List.filter_sublist)) (by unfold reserved; simp) (by simp)
    (fun b ts => ⟨ts.map fun _ => 7, by simp [approximate, finish, Except.bind]⟩)
  exact ⟨_, out, hs, h⟩

end Verif.Magikarp
