import Verif.Model.Tensor
import Mathlib.Tactic.Linarith

/-! # C44 -/

namespace Verif.Tensor

variable {K : Type}

/-- Entry `(i, j)` of a tensor with `c` columns. -/
def at2 (t : Tensor K) (i j : Nat) : K := t.get (i * t.shape.getD 1 0 + j)

/-- `s` is `t` cut down to its first `m` rows and `n` columns (specification). -/
structure IsLeading (t s : Tensor K) (m n : Nat) : Prop where
  shape : s.shape = [m, n]
  entry : ∀ i j, i < m → j < n → at2 s i j = at2 t i j

theorem submatrix_leading (t : Tensor K) (r c m n : Nat) (h : t.shape = [r, c]) (hm : m ≤ r) (hn : n ≤ c) :
    ∃ s, submatrix t m n = some s ∧ IsLeading t s m n := by
  refine ⟨⟨[min m r, min n c], fun k => t.get ((k / min n c) * c + k % min n c)⟩, by simp [submatrix, h], ?_⟩
  have e1 : min m r = m := by omega
  have e2 : min n c = n := by omega
  rw [e1, e2]
  refine ⟨rfl, ?_⟩
  intro i j hi hj
  simp only [at2, h, List.getD_cons_succ, List.getD_cons_zero]
  have h1 : (i * n + j) / n = i := by
    rw [Nat.mul_comm, Nat.mul_add_div (by omega), Nat.div_eq_of_lt hj, Nat.add_zero]
  have h2 : (i * n + j) % n = j := by
    rw [Nat.mul_comm, Nat.mul_add_mod, Nat.mod_eq_of_lt hj]
  rw [h1, h2]

/-- `m` is the least of the values of `f`. -/
def IsLeast (ts : List (Tensor K)) (f : Tensor K → Nat) (m : Nat) : Prop := (∃ t ∈ ts, f t = m) ∧ ∀ t ∈ ts, m ≤ f t

theorem minSizes_some (ts : List (Tensor K)) (a b : Nat) :
    ∃ m n, minSizes ts (some (a, b)) = some (m, n) ∧
      (m ≤ a ∧ (∀ t ∈ ts, m ≤ t.shape.getD 0 0) ∧ (m = a ∨ ∃ t ∈ ts, t.shape.getD 0 0 = m)) ∧
      (n ≤ b ∧ (∀ t ∈ ts, n ≤ t.shape.getD 1 0) ∧ (n = b ∨ ∃ t ∈ ts, t.shape.getD 1 0 = n)) := by
  induction ts generalizing a b with
  | nil => exact ⟨a, b, rfl, ⟨le_refl _, by simp, Or.inl rfl⟩, ⟨le_refl _, by simp, Or.inl rfl⟩⟩
  | cons t ts ih =>
    obtain ⟨m, n, h, ⟨m1, m2, m3⟩, ⟨n1, n2, n3⟩⟩ :=
      ih (if t.shape.getD 0 0 < a then t.shape.getD 0 0 else a) (if t.shape.getD 1 0 < b then t.shape.getD 1 0 else b)
    refine ⟨m, n, by simpa [minSizes] using h, ⟨?_, ?_, ?_⟩, ⟨?_, ?_, ?_⟩⟩
    · split at m1 <;> omega
    · intro x hx
      rcases List.mem_cons.1 hx with rfl | hx
      · split at m1 <;> omega
      · exact m2 x hx
    · rcases m3 with m3 | ⟨x, hx, hxe⟩
      · split at m3
        · right; exact ⟨t, by simp, m3.symm⟩
        · left; exact m3
      · right; exact ⟨x, by simp [hx], hxe⟩
    · split at n1 <;> omega
    · intro x hx
      rcases List.mem_cons.1 hx with rfl | hx
      · split at n1 <;> omega
      · exact n2 x hx
    · rcases n3 with n3 | ⟨x, hx, hxe⟩
      · split at n3
        · right; exact ⟨t, by simp, n3.symm⟩
        · left; exact n3
      · right; exact ⟨x, by simp [hx], hxe⟩

theorem minSizes_least (t0 : Tensor K) (ts : List (Tensor K)) :
    ∃ m n, minSizes (t0 :: ts) none = some (m, n) ∧ IsLeast (t0 :: ts) (fun t => t.shape.getD 0 0) m ∧
      IsLeast (t0 :: ts) (fun t => t.shape.getD 1 0) n := by
  obtain ⟨m, n, h, ⟨m1, m2, m3⟩, ⟨n1, n2, n3⟩⟩ := minSizes_some ts (t0.shape.getD 0 0) (t0.shape.getD 1 0)
  refine ⟨m, n, by simpa [minSizes] using h, ⟨?_, ?_⟩, ⟨?_, ?_⟩⟩
  · rcases m3 with m3 | ⟨x, hx, hxe⟩
    · exact ⟨t0, by simp, m3.symm⟩
    · exact ⟨x, by simp [hx], hxe⟩
  · intro x hx
    rcases List.mem_cons.1 hx with rfl | hx
    · exact m1
    · exact m2 x hx
  · rcases n3 with n3 | ⟨x, hx, hxe⟩
    · exact ⟨t0, by simp, n3.symm⟩
    · exact ⟨x, by simp [hx], hxe⟩
  · intro x hx
    rcases List.mem_cons.1 hx with rfl | hx
    · exact n1
    · exact n2 x hx

/-- **C44** Embedding matrices are all cut to the leading submatrix whose size is the minimum in each dimension. -/
theorem C44_common_submatrix (t0 : Tensor K) (ts : List (Tensor K)) (h2 : ∀ t ∈ t0 :: ts, ∃ r c, t.shape = [r, c]) :
    ∃ m n, IsLeast (t0 :: ts) (fun t => t.shape.getD 0 0) m ∧ IsLeast (t0 :: ts) (fun t => t.shape.getD 1 0) n ∧
      List.Forall₂ (fun t s => IsLeading t s m n) (t0 :: ts) (rectify true (t0 :: ts)) := by
  obtain ⟨m, n, h, hm, hn⟩ := minSizes_least t0 ts
  refine ⟨m, n, hm, hn, ?_⟩
  have hall : (t0 :: ts).all (fun t => t.shape.length = 2) = true := by
    rw [List.all_eq_true]
    intro t ht
    obtain ⟨r, c, hs⟩ := h2 t ht
    simp [hs]
  unfold rectify
  rw [if_pos (by simpa using hall)]
  unfold takeCommonSubmatrix
  rw [h]
  simp only
  split
  · rename_i hsame
    rw [List.forall₂_same]
    intro t ht
    rw [List.all_eq_true] at hsame
    exact ⟨by simpa using hsame t ht, fun _ _ _ _ => rfl⟩
  · rw [List.forall₂_map_right_iff, List.forall₂_same]
    intro t ht
    obtain ⟨r, c, hs⟩ := h2 t ht
    have h1 := hm.2 t ht
    have h3 := hn.2 t ht
    simp only [hs, List.getD_cons_zero, List.getD_cons_succ] at h1 h3
    obtain ⟨s, hss, hl⟩ := submatrix_leading t r c m n hs h1 h3
    rw [hss]
    exact hl

/-- **C44** Nothing else is changed: weights that are not embeddings, or not all matrices, keep their shapes. -/
theorem C44_others_untouched (ts : List (Tensor K)) : rectify false ts = ts ∧
    ∀ b, (∃ t ∈ ts, t.shape.length ≠ 2) → rectify b ts = ts := by
  constructor
  · simp [rectify]
  · rintro b ⟨t, ht, hne⟩
    unfold rectify
    rw [if_neg]
    intro h
    rw [Bool.and_eq_true, List.all_eq_true] at h
    exact hne (by simpa using h.2 t ht)

/-- **C44** does not hold for Karcher merges: there the tensors stay as they are, of whatever size. -/
theorem C44_karcher_not_cut (isEmbed : Bool) (ts : List (Tensor K)) : karcherRectify isEmbed ts = ts := by
  cases ts with
  | nil => rfl
  | cons t0 rest =>
    have : ∀ (l : List (Tensor K)) (st : List (Tensor K)),
        l.foldl (fun (state : List (Tensor K)) t => let _tmp := rectify isEmbed [t0, t]; state) st = st := by
      intro l
      induction l with
      | nil => intro st; rfl
      | cons _ _ ih => intro st; exact ih st
    exact this rest (t0 :: rest)

example : ∃ ts : List (Tensor Nat), (∀ t ∈ ts, ∃ r c, t.shape = [r, c]) ∧ (karcherRectify true ts).map (·.shape) = [[3, 2], [2, 4]] ∧
    (rectify true ts).map (·.shape) = [[2, 2], [2, 2]] ∧
    (rectify true ts).map (fun t => (List.range 4).map t.get) = [[0, 1, 2, 3], [0, 1, 4, 5]] :=
  ⟨[⟨[3, 2], id⟩, ⟨[2, 4], id⟩], by
    intro t ht
    simp only [List.mem_cons, List.not_mem_nil, or_false] at ht
    rcases ht with rfl | rfl <;> exact ⟨_, _, rfl⟩, rfl, by decide, by decide⟩

end Verif.Tensor
