import Verif.Model.Pipeline
import Verif.Props.Graph
import Verif.Props.Universe

/-! # C01, C02 for tasks as the caller gives them

`C01_executor_value`, `C02_exactly_once` (`Props/Graph.lean`) talk about handles, `C06_interning` about how tasks become handles.  Here the
two are joined: everything is said in terms of tasks, compared by value. -/

set_option linter.unusedSectionVars false

namespace Verif.Pipeline

open Verif.Graph Verif.Universe

variable {T V E : Type} [DecidableEq T]

/-- Specification: the value of a task is the result of executing it on the values of its arguments. -/
inductive Value (S : TaskSystem T) (exec : T → List (String × V) → Except E V) : T → V → Prop
  | mk (t : T) (v : V) (vals : T → V) : (∀ a ∈ S.args t, Value S exec a.2 (vals a.2)) →
      exec t ((S.args t).map (fun a => (a.1, vals a.2))) = .ok v → Value S exec t v

/-- The tasks a run executed, in order. -/
def executed (u : Universe T) (trace : List (Event u.tasks.length V)) : List T := (execs trace).map (fun i => u.tasks[i.1])

/-- The tasks and values a run handed to the caller. -/
def handed (u : Universe T) (trace : List (Event u.tasks.length V)) : List (T × V) :=
  (yields trace).map (fun e => (u.tasks[e.1.1], e.2))

/-- What the universe of an executor looks like. -/
structure Built (S : TaskSystem T) (targets : List T) (u : Universe T) (hs : List Nat) : Prop where
  nodup : u.tasks.Nodup
  complete : ∀ j, j < u.tasks.length → Complete S u j
  handles : List.Forall₂ (fun t h => u.tasks[h]? = some t) targets hs
  only : ∀ x ∈ u.tasks, ∃ t ∈ targets, SubTask S t x

theorem built (S : TaskSystem T) (targets : List T) :
    Built S targets (universeOf S targets).1 (universeOf S targets).2 := by
  obtain ⟨_, p2, _, _, p5, p6⟩ := addAll_spec S targets Universe.empty List.nodup_nil (by simp [Universe.empty])
  obtain ⟨_, q2, _, q4, q5, q6⟩ := addAll_spec S targets _ p2 p5
  refine ⟨q2, q5, q4, ?_⟩
  intro x hx
  rcases q6 x hx with h | h
  · rcases p6 x h with h | h
    · simp [Universe.empty] at h
    · exact h
  · exact h

section
variable {S : TaskSystem T} {targets : List T} {u : Universe T} {hs : List Nat} (b : Built S targets u hs)
  (group : T → String) (prio : T → Int) (exec : T → List (String × V) → Except E V)
include b

theorem idx (i : Fin u.tasks.length) (j : Nat) (h : u.tasks[j]? = some (u.tasks[i.1])) : j = i.1 := by
  have hj : j < u.tasks.length := by
    by_contra hn; rw [List.getElem?_eq_none (by omega)] at h; cases h
  rw [List.getElem?_eq_getElem hj] at h
  exact (b.nodup.getElem_inj_iff (hi := hj) (hj := i.2)).1 (Option.some.inj h)

theorem args_graph (i : Fin u.tasks.length) :
    List.Forall₂ (fun a c => a.1 = c.1 ∧ u.tasks[c.2.1] = a.2) (S.args (u.tasks[i.1])) ((graphOf u group prio).args i) := by
  obtain ⟨t, al, h1, h2, h3⟩ := b.complete i.1 i.2
  rw [List.getElem?_eq_getElem i.2] at h1
  cases h1
  simp only [graphOf, h2, Option.getD_some]
  clear h2
  generalize S.args (u.tasks[i.1]) = l at h3
  induction h3 with
  | nil => exact .nil
  | @cons a c la lc hac _ ih =>
    have hc : c.2 < u.tasks.length := by
      by_contra hn; rw [List.getElem?_eq_none (by omega)] at hac; cases hac.2
    rw [List.filterMap_cons]
    simp only [toFin, hc, dif_pos, Option.map_some]
    refine .cons ⟨hac.1, ?_⟩ ih
    have := hac.2
    rw [List.getElem?_eq_getElem hc] at this
    exact Option.some.inj this

theorem mem_deps {i j : Fin u.tasks.length} :
    j ∈ (graphOf u group prio).deps i ↔ ∃ k, (k, u.tasks[j.1]) ∈ S.args (u.tasks[i.1]) := by
  have h := args_graph b group prio i
  constructor
  · intro hj
    obtain ⟨c, hc, rfl⟩ := List.mem_map.1 hj
    obtain ⟨n, hn, rfl⟩ := List.getElem_of_mem hc
    have hn' : n < (S.args (u.tasks[i.1])).length := by rw [h.length_eq]; exact hn
    have := h.get hn' hn
    refine ⟨((S.args (u.tasks[i.1]))[n]).1, ?_⟩
    simp only [List.get_eq_getElem] at this
    rw [this.2]
    exact List.getElem_mem hn'
  · rintro ⟨k, hk⟩
    obtain ⟨n, hn, he⟩ := List.getElem_of_mem hk
    have hn' : n < ((graphOf u group prio).args i).length := by rw [← h.length_eq]; exact hn
    have := h.get hn hn'
    simp only [List.get_eq_getElem, he] at this
    refine List.mem_map.2 ⟨_, List.getElem_mem hn', ?_⟩
    have h2 := (b.nodup.getElem_inj_iff (hi := (((graphOf u group prio).args i)[n]).2.2) (hj := j.2)).1 this.2
    exact Fin.ext h2

theorem acyclic (ts : List (Fin u.tasks.length)) : Acyclic (V := V) (graphOf u group prio) (fun _ => none) ts := by
  have : ∀ a c, Relation.TransGen (NeedsDep (graphOf u group prio) (fun k => ((none : Option V)).isSome) ts) a c →
      S.rank (u.tasks[a.1]) < S.rank (u.tasks[c.1]) := by
    intro a c h
    induction h with
    | single h =>
      obtain ⟨k, hk⟩ := (mem_deps b group prio).1 h.2
      exact S.rank_lt _ _ hk
    | tail _ h ih =>
      obtain ⟨k, hk⟩ := (mem_deps b group prio).1 h.2
      exact ih.trans (S.rank_lt _ _ hk)
  exact fun t ht => lt_irrefl _ (this t t ht)

theorem args_vals (i : Fin u.tasks.length) (vals : Fin u.tasks.length → V) (w : T → V)
    (h : ∀ j : Fin u.tasks.length, j ∈ (graphOf u group prio).deps i → vals j = w (u.tasks[j.1])) :
    ((graphOf u group prio).args i).map (fun a => (a.1, vals a.2)) =
      (S.args (u.tasks[i.1])).map (fun a => (a.1, w a.2)) := by
  have hf := args_graph b group prio i
  have hd : ∀ c ∈ (graphOf u group prio).args i, vals c.2 = w (u.tasks[c.2.1]) :=
    fun c hc => h c.2 (List.mem_map.2 ⟨c, hc, rfl⟩)
  generalize (graphOf u group prio).args i = l at hf hd
  generalize S.args (u.tasks[i.1]) = l' at hf
  induction hf with
  | nil => rfl
  | @cons a c la lc hac _ ih =>
    rw [List.map_cons, List.map_cons, ih (fun c hc => hd c (List.mem_cons_of_mem _ hc)), hd c List.mem_cons_self, hac.1, hac.2]

theorem value_of_eval [Nonempty V] {i : Fin u.tasks.length} {v : V}
    (h : Eval (graphOf u group prio) (fun i as => exec (u.tasks[i.1]) as) (fun _ => none) i v) :
    Value S exec (u.tasks[i.1]) v := by
  induction h with
  | cached h => cases h
  | @exec i v vals _ hd he ih =>
    classical
    let w : T → V := fun x => if h : u.tasks.idxOf x < u.tasks.length then vals ⟨_, h⟩ else Classical.arbitrary V
    have hw : ∀ j : Fin u.tasks.length, vals j = w (u.tasks[j.1]) := by
      intro j
      have e : u.tasks.idxOf (u.tasks[j.1]) = j.1 := b.nodup.idxOf_getElem _ j.2
      have : w (u.tasks[j.1]) = vals j := by
        show (if h : u.tasks.idxOf (u.tasks[j.1]) < u.tasks.length then vals ⟨_, h⟩ else Classical.arbitrary V) = vals j
        rw [dif_pos (by rw [e]; exact j.2)]
        congr 1
        exact Fin.ext e
      exact this.symm
    rw [args_vals b group prio i vals w (fun j _ => hw j)] at he
    refine .mk _ _ w ?_ he
    rintro ⟨k, x⟩ ha
    obtain ⟨n, hn, hx⟩ := List.getElem_of_mem ha
    have hf := args_graph b group prio i
    have hn' : n < ((graphOf u group prio).args i).length := by rw [← hf.length_eq]; exact hn
    have := hf.get hn hn'
    simp only [List.get_eq_getElem, hx] at this
    set j := (((graphOf u group prio).args i)[n]).2 with hj
    have hjd : j ∈ (graphOf u group prio).deps i := List.mem_map.2 ⟨_, List.getElem_mem hn', rfl⟩
    have r := ih j hjd
    rw [hw j] at r
    simp only
    rw [← this.2]
    exact r

end

/-- The value of a task is unique. -/
theorem Value.det {S : TaskSystem T} {exec : T → List (String × V) → Except E V} {t : T} {v w : V}
    (h : Value S exec t v) (h' : Value S exec t w) : v = w := by
  induction h generalizing w with
  | mk t v vals _ he ih =>
    cases h' with
    | mk _ _ vals' hd' he' =>
      have : (S.args t).map (fun a => (a.1, vals a.2)) = (S.args t).map (fun a => (a.1, vals' a.2)) := by
        apply List.map_congr_left
        intro a ha
        rw [ih a ha (hd' a ha)]
      rw [this, he'] at he
      exact (Except.ok.inj he).symm

theorem targets_mem {S : TaskSystem T} {targets : List T} {u : Universe T} {hs : List Nat} (b : Built S targets u hs)
    (i : Fin u.tasks.length) : i ∈ hs.filterMap (toFin u.tasks.length) ↔ u.tasks[i.1] ∈ targets := by
  rw [List.mem_filterMap]
  constructor
  · rintro ⟨h, hh, he⟩
    have : h = i.1 := by
      unfold toFin at he
      split at he
      · cases he; rfl
      · cases he
    subst this
    obtain ⟨n, hn, hx⟩ := List.getElem_of_mem hh
    have hn' : n < targets.length := by rw [b.handles.length_eq]; exact hn
    have := b.handles.get hn' hn
    simp only [List.get_eq_getElem, hx, List.getElem?_eq_getElem i.2] at this
    rw [Option.some.inj this]
    exact List.getElem_mem hn'
  · intro h
    obtain ⟨n, hn, hx⟩ := List.getElem_of_mem h
    have hn' : n < hs.length := by rw [← b.handles.length_eq]; exact hn
    have := b.handles.get hn hn'
    simp only [List.get_eq_getElem, hx] at this
    have e := idx b i _ this
    refine ⟨hs[n], List.getElem_mem hn', ?_⟩
    unfold toFin
    rw [dif_pos (by rw [e]; exact i.2)]
    congr 1
    exact Fin.ext e

theorem needed_iff {S : TaskSystem T} {targets : List T} {u : Universe T} {hs : List Nat} (b : Built S targets u hs)
    (group : T → String) (prio : T → Int) (i : Fin u.tasks.length) :
    Needed (graphOf u group prio) (fun _ => false) (hs.filterMap (toFin u.tasks.length)) i := by
  obtain ⟨t, ht, hsub⟩ := b.only _ (List.getElem_mem i.2)
  have : ∀ x, SubTask S t x → ∀ j : Fin u.tasks.length, u.tasks[j.1] = x →
      Needed (graphOf u group prio) (fun _ => false) (hs.filterMap (toFin u.tasks.length)) j := by
    intro x h
    induction h with
    | refl =>
      intro j hj
      exact .target ((targets_mem b j).2 (by rw [hj]; exact ht)) rfl
    | @tail y x _ hyx ih =>
      intro j hj
      obtain ⟨k, hk⟩ := hyx
      -- `y` is registered, since `SubTask` starts from a target and universes are complete
      have hy : ∃ m : Fin u.tasks.length, u.tasks[m.1] = y := by
        have reg : ∀ z, SubTask S t z → ∃ m : Fin u.tasks.length, u.tasks[m.1] = z := by
          intro z hz
          induction hz with
          | refl =>
            obtain ⟨n, hn, hx⟩ := List.getElem_of_mem ht
            have hn' : n < hs.length := by rw [← b.handles.length_eq]; exact hn
            have := b.handles.get hn hn'
            simp only [List.get_eq_getElem, hx] at this
            have hl : hs[n] < u.tasks.length := by
              by_contra hc; rw [List.getElem?_eq_none (by omega)] at this; cases this
            rw [List.getElem?_eq_getElem hl] at this
            exact ⟨⟨_, hl⟩, Option.some.inj this⟩
          | @tail p q _ hpq ihp =>
            obtain ⟨m, hm⟩ := ihp
            obtain ⟨k, hk⟩ := hpq
            rw [← hm] at hk
            have hf := args_graph b group prio m
            obtain ⟨n, hn, hx⟩ := List.getElem_of_mem hk
            have hn' : n < ((graphOf u group prio).args m).length := by rw [← hf.length_eq]; exact hn
            have := hf.get hn hn'
            simp only [List.get_eq_getElem, hx] at this
            exact ⟨_, this.2⟩
        exact reg y ‹_›
      obtain ⟨m, hm⟩ := hy
      refine .dep (ih m hm) ((mem_deps b group prio).2 ⟨k, ?_⟩) rfl
      rw [hm, hj]
      exact hk
  exact this _ hsub i rfl

/-- **C01**, **C02** for tasks: whatever tasks are given, a run executes no task twice, only the given tasks and their (transitive)
arguments, each after all of its arguments; a run that ends without an exception executes all of them, and hands out each given task
with its value, once. -/
theorem C02_tasks [Nonempty V] (S : TaskSystem T) (group : T → String) (prio : T → Int)
    (exec : T → List (String × V) → Except E V) (pop : ∀ n, PopOracle n) (targets : List T) :
    ∃ trace o, runTasks S group prio exec pop targets = some (trace, o) ∧
      let done := executed (universeOf S targets).1 trace
      done.Nodup ∧
      (∀ x ∈ done, ∃ t ∈ targets, SubTask S t x) ∧
      (∀ p x q, done = p ++ x :: q → ∀ a ∈ S.args x, a.2 ∈ p) ∧
      (∀ t v, (t, v) ∈ handed (universeOf S targets).1 trace → t ∈ targets ∧ Value S exec t v) ∧
      (o = .finished → (∀ x, x ∈ done ↔ ∃ t ∈ targets, SubTask S t x) ∧
        ∀ t ∈ targets, ∃ v, (t, v) ∈ handed (universeOf S targets).1 trace) ∧
      (o = .finished ∨ ∃ (t : T) (e : E) (vals : T → V), (∃ r ∈ targets, SubTask S r t) ∧
        (∀ a ∈ S.args t, Value S exec a.2 (vals a.2)) ∧ exec t ((S.args t).map (fun a => (a.1, vals a.2))) = .error e) := by
  have b := built S targets
  set y := universeOf S targets with hy
  obtain ⟨s, ⟨trace, o⟩, hr, hsch, g⟩ := run_exists (graphOf y.1 group prio) (fun i as => exec (y.1.tasks[i.1]) as) (pop _)
    (y.2.filterMap (toFin y.1.tasks.length)) (fun _ => none) (acyclic b group prio _)
  have inj : Function.Injective (fun i : Fin y.1.tasks.length => y.1.tasks[i.1]) := by
    intro i j hij
    exact Fin.ext ((b.nodup.getElem_inj_iff (hi := i.2) (hj := j.2)).1 hij)
  have sub : ∀ i : Fin y.1.tasks.length, ∃ t ∈ targets, SubTask S t (y.1.tasks[i.1]) := fun i => b.only _ (List.getElem_mem i.2)
  have hmem : ∀ i, i ∈ s := fun i => (hsch.mem i).2 (needed_iff b group prio i)
  refine ⟨trace, o, hr, ?_, ?_, ?_, ?_, ?_, ?_⟩
  · exact (hsch.nodup.sublist g.execs_prefix.sublist).map inj
  · intro x hx
    obtain ⟨i, _, rfl⟩ := List.mem_map.1 hx
    exact sub i
  · intro p x q hd a ha
    obtain ⟨p', q', hpq, hp, hq⟩ := List.map_eq_append_iff.1 hd
    obtain ⟨i, q'', hq', hx, hq''⟩ := List.map_eq_cons_iff.1 hq
    subst hq'
    obtain ⟨r, hr'⟩ := g.execs_prefix
    have hs : s = p' ++ i :: (q'' ++ r) := by
      rw [← hr', hpq]
      simp
    have ho := hsch.ordered p' i _ hs
    subst hx
    obtain ⟨n, hn, hx⟩ := List.getElem_of_mem ha
    have hf := args_graph b group prio i
    have hn' : n < ((graphOf y.1 group prio).args i).length := by rw [← hf.length_eq]; exact hn
    have := hf.get hn hn'
    simp only [List.get_eq_getElem] at this
    rw [show (S.args (y.1.tasks[i.1]))[n] = a from hx] at this
    have hdep : (((graphOf y.1 group prio).args i)[n]).2 ∈ (graphOf y.1 group prio).deps i :=
      List.mem_map.2 ⟨_, List.getElem_mem hn', rfl⟩
    rcases ho _ hdep with h | h
    · rw [← hp, ← this.2]
      exact List.mem_map.2 ⟨_, h, rfl⟩
    · simp at h
  · intro t v h
    obtain ⟨⟨i, v'⟩, hi, he⟩ := List.mem_map.1 h
    cases he
    refine ⟨?_, value_of_eval b group prio exec (g.yields_eval _ _ hi)⟩
    have hm : i ∈ (yields trace).map Prod.fst := List.mem_map.2 ⟨_, hi, rfl⟩
    have := g.yields_prefix.subset hm
    rw [List.mem_filter] at this
    exact (targets_mem b i).1 (by simpa using this.2)
  · intro ho
    have hex : execs trace = s := by
      rcases g.outcome with h | ⟨t, e, vals, _, h, _⟩
      · exact h.2
      · simp only at h; rw [ho] at h; cases h
    have reg : ∀ t ∈ targets, ∃ m : Fin y.1.tasks.length, y.1.tasks[m.1] = t := by
      intro t ht
      obtain ⟨n, hn, hx⟩ := List.getElem_of_mem ht
      have hn' : n < y.2.length := by rw [← b.handles.length_eq]; exact hn
      have := b.handles.get hn hn'
      simp only [List.get_eq_getElem, hx] at this
      have hl : y.2[n] < y.1.tasks.length := by
        by_contra hc; rw [List.getElem?_eq_none (by omega)] at this; cases this
      rw [List.getElem?_eq_getElem hl] at this
      exact ⟨⟨_, hl⟩, Option.some.inj this⟩
    refine ⟨?_, ?_⟩
    · intro x
      constructor
      · intro hx
        obtain ⟨i, _, rfl⟩ := List.mem_map.1 hx
        exact sub i
      · rintro ⟨t, ht, hsub⟩
        have : ∃ m : Fin y.1.tasks.length, y.1.tasks[m.1] = x := by
          clear hr g hsch hex hmem ho
          induction hsub with
          | refl => exact reg t ht
          | @tail p q _ hpq ihp =>
            obtain ⟨m, hm⟩ := ihp
            obtain ⟨k, hk⟩ := hpq
            rw [← hm] at hk
            have hf := args_graph b group prio m
            obtain ⟨n, hn, hx⟩ := List.getElem_of_mem hk
            have hn' : n < ((graphOf y.1 group prio).args m).length := by rw [← hf.length_eq]; exact hn
            have := hf.get hn hn'
            simp only [List.get_eq_getElem, hx] at this
            exact ⟨_, this.2⟩
        obtain ⟨m, rfl⟩ := this
        exact List.mem_map.2 ⟨m, by rw [hex]; exact hmem m, rfl⟩
    · intro t ht
      obtain ⟨m, rfl⟩ := reg t ht
      have hyl := g.yields_eq ho
      have : m ∈ (yields trace).map Prod.fst := by
        simp only at hyl
        rw [hyl, List.mem_filter]
        exact ⟨hmem m, by simpa using (targets_mem b m).2 ht⟩
      obtain ⟨⟨i, v⟩, hi, rfl⟩ := List.mem_map.1 this
      exact ⟨v, List.mem_map.2 ⟨_, hi, rfl⟩⟩
  · rcases g.outcome with h | ⟨i, e, vals, _, h, hd, he⟩
    · exact Or.inl h.1
    · right
      classical
      let w : T → V := fun x => if h : y.1.tasks.idxOf x < y.1.tasks.length then vals ⟨_, h⟩ else Classical.arbitrary V
      have hw : ∀ j : Fin y.1.tasks.length, vals j = w (y.1.tasks[j.1]) := by
        intro j
        have e : y.1.tasks.idxOf (y.1.tasks[j.1]) = j.1 := b.nodup.idxOf_getElem _ j.2
        have : w (y.1.tasks[j.1]) = vals j := by
          show (if h : y.1.tasks.idxOf (y.1.tasks[j.1]) < y.1.tasks.length then vals ⟨_, h⟩ else Classical.arbitrary V) = vals j
          rw [dif_pos (by rw [e]; exact j.2)]
          congr 1
          exact Fin.ext e
        exact this.symm
      rw [args_vals b group prio i vals w (fun j _ => hw j)] at he
      refine ⟨_, e, w, sub i, ?_, he⟩
      intro a ha
      obtain ⟨n, hn, hx⟩ := List.getElem_of_mem ha
      have hf := args_graph b group prio i
      have hn' : n < ((graphOf y.1 group prio).args i).length := by rw [← hf.length_eq]; exact hn
      have := hf.get hn hn'
      simp only [List.get_eq_getElem, hx] at this
      have hdep : (((graphOf y.1 group prio).args i)[n]).2 ∈ (graphOf y.1 group prio).deps i :=
        List.mem_map.2 ⟨_, List.getElem_mem hn', rfl⟩
      have r := value_of_eval b group prio exec (hd _ hdep)
      rw [hw] at r
      rw [← this.2]
      exact r

/-- **C02** for tasks: the given tasks are handed out in the order they are executed in, none twice. -/
theorem C02_tasks_order [Nonempty V] (S : TaskSystem T) (group : T → String) (prio : T → Int)
    (exec : T → List (String × V) → Except E V) (pop : ∀ n, PopOracle n) (targets : List T)
    (trace : List (Event (universeOf S targets).1.tasks.length V)) (o : Outcome (universeOf S targets).1.tasks.length E)
    (h : runTasks S group prio exec pop targets = some (trace, o)) (ho : o = .finished) :
    List.Sublist ((handed (universeOf S targets).1 trace).map Prod.fst) (executed (universeOf S targets).1 trace) := by
  have b := built S targets
  obtain ⟨s, r, hr, hsch, g⟩ := run_exists (graphOf (universeOf S targets).1 group prio)
    (fun i as => exec ((universeOf S targets).1.tasks[i.1]) as) (pop _)
    ((universeOf S targets).2.filterMap (toFin (universeOf S targets).1.tasks.length)) (fun _ => none) (acyclic b group prio _)
  have : r = (trace, o) := by
    have h' := h
    unfold runTasks at h'
    simp only at h'
    rw [hr] at h'
    exact Option.some.inj h'
  subst this
  have hy := g.yields_eq ho
  have hex : execs trace = s := by
    rcases g.outcome with h | ⟨t, e, vals, _, h, _⟩
    · exact h.2
    · simp only at h; rw [ho] at h; cases h
  unfold handed executed
  rw [List.map_map, hex]
  have e : (Prod.fst ∘ fun e : Fin (universeOf S targets).1.tasks.length × V => ((universeOf S targets).1.tasks[e.1.1], e.2)) =
      (fun i : Fin (universeOf S targets).1.tasks.length => (universeOf S targets).1.tasks[i.1]) ∘ Prod.fst := rfl
  rw [e, ← List.map_map]
  apply List.Sublist.map
  simp only at hy
  rw [hy]
  exact List.filter_sublist

/-- Non-vacuity: the diamond-shaped system `demo` of C06, each task adding up its arguments and 1. -/
example : Value demo (fun _ as => (Except.ok ((as.map Prod.snd).sum + 1) : Except Unit Nat)) 2 4 := by
  have v0 : Value demo (fun _ as => (Except.ok ((as.map Prod.snd).sum + 1) : Except Unit Nat)) 0 1 :=
    .mk 0 1 (fun _ => 0) (by simp [demo]) (by simp [demo])
  have v1 : Value demo (fun _ as => (Except.ok ((as.map Prod.snd).sum + 1) : Except Unit Nat)) 1 2 :=
    .mk 1 2 (fun _ => 1) (by simpa [demo] using v0) (by simp [demo])
  refine .mk 2 4 (fun x => if x = 0 then 1 else 2) ?_ (by simp [demo])
  intro a ha
  simp only [demo, if_true, List.mem_cons, List.not_mem_nil, or_false] at ha
  rcases ha with rfl | rfl
  · simpa using v0
  · simpa using v1

end Verif.Pipeline
