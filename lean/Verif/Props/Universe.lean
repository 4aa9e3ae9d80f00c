import Verif.Proof.Universe

/-! # C06: interning of tasks -/

set_option linter.unusedSectionVars false

namespace Verif.Universe

variable {T : Type} [DecidableEq T]

/-- **C06**, stability: adding a task (recursively or not) never changes the task or the recorded arguments
behind a handle issued before; the new handle refers to the added task. -/
theorem C06_handles_stable (S : TaskSystem T) (u : Universe T) (hu : u.tasks.Nodup) (t : T) (r : Bool) :
    let x := addTask S u t r
    x.1.tasks.Nodup ∧ x.1.tasks[x.2]? = some t ∧
      ∀ j, j < u.tasks.length → x.1.tasks[j]? = u.tasks[j]? ∧ x.1.argTable j = u.argTable j := by
  have key : ∀ l : List T, u.tasks <+: l → ∀ j, j < u.tasks.length → l[j]? = u.tasks[j]? := by
    intro l h j hj
    rw [List.getElem?_eq_getElem hj]
    exact getElem?_prefix h (List.getElem?_eq_getElem hj)
  cases r with
  | true =>
    have g := addTask_grown S _ t rfl u hu
    exact ⟨g.nodup, g.here, fun j hj => ⟨key _ g.pre j hj, g.keep j hj⟩⟩
  | false =>
    intro x
    have hx : x = if t ∈ u.tasks then (u, u.tasks.idxOf t)
        else (({ u with tasks := u.tasks ++ [t] } : Universe T), u.tasks.length) := by
      show addTask S u t false = _
      rw [addTask]; simp
    rw [hx]
    split
    · rename_i hm
      exact ⟨hu, List.getElem?_idxOf hm, fun _ _ => ⟨rfl, rfl⟩⟩
    · rename_i hm
      refine ⟨?_, by simp, fun j hj => ⟨key _ (List.prefix_append _ _) j hj, rfl⟩⟩
      simp only
      rw [List.nodup_append]
      refine ⟨hu, by simp, ?_⟩
      intro a ha b hb
      rw [List.mem_singleton.1 hb]
      rintro rfl; exact hm ha

theorem addAll_spec (S : TaskSystem T) (ops : List T) : ∀ (u : Universe T), u.tasks.Nodup →
    (∀ j, j < u.tasks.length → Complete S u j) →
    let y := addAll S u (ops.map (fun t => (t, true)))
    u.tasks <+: y.1.tasks ∧ y.1.tasks.Nodup ∧ y.2.length = ops.length ∧
      List.Forall₂ (fun t h => y.1.tasks[h]? = some t) ops y.2 ∧
      (∀ j, j < y.1.tasks.length → Complete S y.1 j) ∧
      (∀ x ∈ y.1.tasks, x ∈ u.tasks ∨ ∃ t ∈ ops, SubTask S t x) := by
  induction ops with
  | nil => intro u hu hc; exact ⟨List.prefix_rfl, hu, rfl, .nil, hc, fun x hx => Or.inl hx⟩
  | cons t ops ih =>
    intro u hu hc
    have g := addTask_grown S _ t rfl u hu
    simp only [List.map_cons, addAll]
    obtain ⟨p1, p2, p3, p4, p5, p6⟩ := ih (addTask S u t true).1 g.nodup (by
      intro j hj
      by_cases h : j < u.tasks.length
      · exact (hc j h).mono g.pre (g.keep j h)
      · exact g.complete j (by omega) hj)
    refine ⟨g.pre.trans p1, p2, by simp [p3], .cons (getElem?_prefix p1 g.here) p4, p5, ?_⟩
    intro x hx
    rcases p6 x hx with h | ⟨t', h, h'⟩
    · rcases g.only x h with h | h
      · exact Or.inl h
      · exact Or.inr ⟨t, List.mem_cons_self, h⟩
    · exact Or.inr ⟨t', List.mem_cons_of_mem _ h, h'⟩

/-- **C06** Looking a task up gives the handle behind which that very task is, and nothing iff it was never added; so it gives the handle its addition gave, however
many additions followed. -/
theorem C06_get_handle (S : TaskSystem T) (ops more : List T) :
    let y := addAll S Universe.empty (ops.map (fun t => (t, true)))
    let z := addAll S y.1 (more.map (fun t => (t, true)))
    (∀ t h, getHandle z.1 t = some h ↔ z.1.tasks[h]? = some t) ∧ (∀ t, getHandle z.1 t = none ↔ t ∉ z.1.tasks) ∧
      List.Forall₂ (fun t h => getHandle z.1 t = some h) ops y.2 := by
  intro y z
  obtain ⟨-, n1, -, a1, c1, -⟩ := addAll_spec S ops Universe.empty (by simp [Universe.empty]) (by simp [Universe.empty])
  obtain ⟨p2, n2, -, -, -, -⟩ := addAll_spec S more y.1 n1 c1
  have hiff : ∀ t h, getHandle z.1 t = some h ↔ z.1.tasks[h]? = some t := by
    intro t h
    unfold getHandle
    constructor
    · intro hg
      split at hg
      · rename_i hm
        rw [← Option.some.inj hg]
        exact List.getElem?_idxOf hm
      · cases hg
    · intro hg
      have hm := List.mem_of_getElem? hg
      rw [if_pos hm]
      obtain ⟨hlt, rfl⟩ := List.getElem?_eq_some_iff.1 hg
      rw [List.Nodup.idxOf_getElem n2]
  refine ⟨hiff, ?_, ?_⟩
  · intro t
    unfold getHandle
    split <;> simp_all
  · exact a1.imp (fun t h hh => (hiff t h).2 (getElem?_prefix p2 hh))

/-- **C06** For every sequence of recursive additions to a fresh universe: the handle issued for the `i`-th
addition refers to that task at the end, two additions get the same handle iff the tasks are
equal, every handle has all its arguments recorded and present, and nothing but the added tasks
and their (transitive) arguments is in the universe. -/
theorem C06_interning (S : TaskSystem T) (ops : List T) :
    let y := addAll S Universe.empty (ops.map (fun t => (t, true)))
    y.2.length = ops.length ∧
    (∀ (i : Nat) t, ops[i]? = some t → ∃ h : Nat, y.2[i]? = some h ∧ y.1.tasks[h]? = some t) ∧
    (∀ i j : Nat, i < ops.length → j < ops.length → (y.2[i]? = y.2[j]? ↔ ops[i]? = ops[j]?)) ∧
    (∀ h, h < y.1.tasks.length → Complete S y.1 h) ∧
    (∀ x ∈ y.1.tasks, ∃ t ∈ ops, SubTask S t x) := by
  intro y
  obtain ⟨_, p2, p3, p4, p5, p6⟩ := addAll_spec S ops Universe.empty List.nodup_nil
    (by simp [Universe.empty])
  have hget : ∀ (i : Nat) t, ops[i]? = some t → ∃ h : Nat, y.2[i]? = some h ∧ y.1.tasks[h]? = some t := by
    intro i t hi
    have hil : i < ops.length := by
      by_contra hn
      rw [List.getElem?_eq_none (by omega)] at hi; cases hi
    have hil' : i < y.2.length := by rw [p3]; exact hil
    refine ⟨y.2[i], List.getElem?_eq_getElem hil', ?_⟩
    have := p4.get hil hil'
    rw [List.getElem?_eq_getElem hil] at hi
    cases hi
    simpa using this
  refine ⟨p3, hget, ?_, p5, ?_⟩
  · intro i j hi hj
    obtain ⟨h1, e1, t1⟩ := hget i _ (List.getElem?_eq_getElem hi)
    obtain ⟨h2, e2, t2⟩ := hget j _ (List.getElem?_eq_getElem hj)
    rw [e1, e2, List.getElem?_eq_getElem hi, List.getElem?_eq_getElem hj]
    constructor
    · intro h
      cases h
      rw [t1] at t2
      exact t2
    · intro h
      rw [← Option.some.inj h] at t2
      have l1 : h1 < y.1.tasks.length := by
        by_contra hn; rw [List.getElem?_eq_none (by omega)] at t1; cases t1
      have l2 : h2 < y.1.tasks.length := by
        by_contra hn; rw [List.getElem?_eq_none (by omega)] at t2; cases t2
      rw [List.getElem?_eq_getElem l1] at t1
      rw [List.getElem?_eq_getElem l2] at t2
      have := (p2.getElem_inj_iff (hi := l1) (hj := l2)).1
        (Option.some.inj (t1.trans t2.symm))
      rw [this]
  · intro x hx
    rcases p6 x hx with h | h
    · simp [Universe.empty] at h
    · exact h

/-- A small task system: `2` has arguments `a ↦ 0`, `b ↦ 1`; `1` has argument `x ↦ 0`. -/
def demo : TaskSystem (Fin 3) where
  args t := if t = 2 then [("a", 0), ("b", 1)] else if t = 1 then [("x", 0)] else []
  rank t := t.val
  rank_lt := by decide

/-- Non-vacuity: a history with sharing and a repeated addition. -/
example : (addAll demo Universe.empty [(1, true), (2, true), (1, true)]).2 = [0, 2, 0] ∧
    (addAll demo Universe.empty [(1, true), (2, true), (1, true)]).1.tasks = [1, 0, 2] := by
  simp [addAll, addTask, addArgs, demo, Universe.empty, List.idxOf, List.findIdx, List.findIdx.go]

/-- The history `add_task(t, recursive=False)` then `add_task(t)` leaves `t` without recorded arguments,
so completeness needs recursive first additions. -/
theorem C06_nonrecursive_first_add_incomplete :
    (addAll demo Universe.empty [(1, false), (1, true)]).2 = [0, 0] ∧
    ¬ Complete demo (addAll demo Universe.empty [(1, false), (1, true)]).1 0 := by
  have h : addAll demo Universe.empty [(1, false), (1, true)] = (⟨[1], fun _ => none⟩, [0, 0]) := by
    simp [addAll, addTask, Universe.empty]
  rw [h]
  refine ⟨rfl, ?_⟩
  rintro ⟨t, al, _, h2, _⟩
  cases h2

end Verif.Universe
