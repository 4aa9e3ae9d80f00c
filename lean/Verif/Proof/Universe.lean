import Verif.Spec.Universe
import Mathlib.Data.List.Nodup
import Mathlib.Data.List.Infix
import Mathlib.Data.List.Forall2

set_option linter.unusedSectionVars false

namespace Verif.Universe

variable {T : Type} [DecidableEq T]

theorem getElem?_prefix {α : Type} {l l' : List α} (h : l <+: l') {i : Nat} {a : α}
    (hi : l[i]? = some a) : l'[i]? = some a := by
  obtain ⟨r, rfl⟩ := h
  rw [List.getElem?_append_left]
  · exact hi
  · by_contra hn
    rw [List.getElem?_eq_none (by omega)] at hi
    cases hi

theorem Complete.mono {S : TaskSystem T} {u u' : Universe T} {i : Nat} (h : Complete S u i)
    (hp : u.tasks <+: u'.tasks) (ha : u'.argTable i = u.argTable i) : Complete S u' i := by
  obtain ⟨t, al, h1, h2, h3⟩ := h
  refine ⟨t, al, getElem?_prefix hp h1, ha.trans h2, h3.imp ?_⟩
  rintro a b ⟨hk, hb⟩
  exact ⟨hk, getElem?_prefix hp hb⟩

/-- What one recursive addition guarantees. -/
structure Grown (S : TaskSystem T) (u : Universe T) (t : T) (u' : Universe T) (i : Nat) : Prop where
  pre : u.tasks <+: u'.tasks
  nodup : u'.tasks.Nodup
  here : u'.tasks[i]? = some t
  keep : ∀ j, j < u.tasks.length → u'.argTable j = u.argTable j
  complete : ∀ j, u.tasks.length ≤ j → j < u'.tasks.length → Complete S u' j
  only : ∀ x ∈ u'.tasks, x ∈ u.tasks ∨ SubTask S t x

theorem addArgs_grown (S : TaskSystem T) (t : T)
    (ih : ∀ x, S.rank x < S.rank t → ∀ u : Universe T, u.tasks.Nodup →
      Grown S u x (addTask S u x true).1 (addTask S u x true).2)
    (l : List (String × T)) (hl : ∀ a ∈ l, a ∈ S.args t) (index : Nat) (u : Universe T)
    (hnd : u.tasks.Nodup) (old : List (String × Nat)) (hidx : index < u.tasks.length)
    (hold : u.argTable index = some old) :
    let u' := addArgs S t l hl index u
    u.tasks <+: u'.tasks ∧ u'.tasks.Nodup ∧
      (∀ j, j < u.tasks.length → j ≠ index → u'.argTable j = u.argTable j) ∧
      (∃ new, u'.argTable index = some (old ++ new) ∧
        List.Forall₂ (fun a b => a.1 = b.1 ∧ u'.tasks[b.2]? = some a.2) l new) ∧
      (∀ j, u.tasks.length ≤ j → j < u'.tasks.length → Complete S u' j) ∧
      (∀ x ∈ u'.tasks, x ∈ u.tasks ∨ SubTask S t x) := by
  induction l generalizing u old with
  | nil =>
    simp only [addArgs]
    exact ⟨List.prefix_rfl, hnd, by simp, ⟨[], by simp [hold], .nil⟩,
      fun j h1 h2 => absurd h2 (by omega), fun x hx => Or.inl hx⟩
  | cons a rest ihl =>
    obtain ⟨k, v⟩ := a
    have g := ih v (S.rank_lt t (k, v) (hl _ List.mem_cons_self)) u hnd
    simp only [addArgs]
    set r := addTask S u v true with hr
    have hold' : r.1.argTable index = some old := by rw [g.keep index hidx, hold]
    set u1 : Universe T := ⟨r.1.tasks, Function.update r.1.argTable index
      (some (((r.1.argTable index).getD []) ++ [(k, r.2)]))⟩ with hu1
    have hlen : u.tasks.length ≤ r.1.tasks.length := g.pre.length_le
    have hu1idx : u1.argTable index = some (old ++ [(k, r.2)]) := by
      simp [hu1, hold']
    obtain ⟨p1, p2, p3, ⟨new, p4, p4'⟩, p5, p6⟩ := ihl (fun a h => hl a (List.mem_cons_of_mem _ h)) u1
      g.nodup (old ++ [(k, r.2)]) (by show index < r.1.tasks.length; omega) hu1idx
    set u' := addArgs S t rest (fun a h => hl a (List.mem_cons_of_mem _ h)) index u1 with hu'
    refine ⟨g.pre.trans p1, p2, ?_, ⟨(k, r.2) :: new, by rw [p4]; simp, ?_⟩, ?_, ?_⟩
    · intro j hj hne
      rw [p3 j (by show j < r.1.tasks.length; omega) hne]
      show Function.update r.1.argTable index _ j = _
      rw [Function.update_of_ne hne, g.keep j hj]
    · exact .cons ⟨rfl, getElem?_prefix p1 g.here⟩ p4'
    · intro j h1 h2
      by_cases hj : j < r.1.tasks.length
      · have hne : j ≠ index := by omega
        refine (g.complete j h1 hj).mono p1 ?_
        rw [p3 j hj hne]
        show Function.update r.1.argTable index _ j = _
        rw [Function.update_of_ne hne]
      · exact p5 j (by show r.1.tasks.length ≤ j; omega) h2
    · intro x hx
      rcases p6 x hx with h | h
      · rcases g.only x h with h | h
        · exact Or.inl h
        · exact Or.inr (.head ⟨k, hl _ List.mem_cons_self⟩ h)
      · exact Or.inr h

theorem addTask_grown (S : TaskSystem T) : ∀ (m : Nat) (t : T), S.rank t = m → ∀ u : Universe T,
    u.tasks.Nodup → Grown S u t (addTask S u t true).1 (addTask S u t true).2 := by
  intro m
  induction m using Nat.strong_induction_on with
  | _ m ihm =>
    intro t hm u hnd
    have ih : ∀ x, S.rank x < S.rank t → ∀ u : Universe T, u.tasks.Nodup →
        Grown S u x (addTask S u x true).1 (addTask S u x true).2 :=
      fun x hx => ihm (S.rank x) (hm ▸ hx) x rfl
    rw [addTask]
    split
    · rename_i hmem
      refine ⟨List.prefix_rfl, hnd, ?_, fun _ _ => rfl, fun j h1 h2 => absurd h2 (by simp; omega),
        fun x hx => Or.inl hx⟩
      exact List.getElem?_idxOf hmem
    · rename_i hmem
      simp only [if_true]
      set u2 : Universe T := ⟨u.tasks ++ [t],
        Function.update u.argTable u.tasks.length (some [])⟩ with hu2
      have hnd2 : u2.tasks.Nodup := by
        show (u.tasks ++ [t]).Nodup
        rw [List.nodup_append]
        refine ⟨hnd, by simp, ?_⟩
        intro a ha b hb
        rw [List.mem_singleton.1 hb]
        rintro rfl; exact hmem ha
      obtain ⟨p1, p2, p3, ⟨new, p4, p4'⟩, p5, p6⟩ := addArgs_grown S t ih (S.args t) (fun _ h => h)
        u.tasks.length u2 hnd2 [] (by simp [hu2]) (by simp [hu2])
      have hhere : (addArgs S t (S.args t) (fun _ h => h) u.tasks.length u2).tasks[u.tasks.length]? =
          some t := getElem?_prefix p1 (by simp [hu2])
      refine ⟨(List.prefix_append _ _).trans p1, p2, hhere, ?_, ?_, ?_⟩
      · intro j hj
        rw [p3 j (by simp [hu2]; omega) (by omega)]
        show Function.update u.argTable u.tasks.length _ j = _
        rw [Function.update_of_ne (by omega)]
      · intro j h1 h2
        by_cases hj : j = u.tasks.length
        · subst hj
          exact ⟨t, new, hhere, by simpa using p4, p4'⟩
        · exact p5 j (by simp [hu2]; omega) h2
      · intro x hx
        rcases p6 x hx with h | h
        · rcases List.mem_append.1 h with h | h
          · exact Or.inl h
          · rw [List.mem_singleton.1 h]; exact Or.inr .refl
        · exact Or.inr h

end Verif.Universe
