import Verif.Proof.Executor

/-! # C01 - C05: the executor

Specification: `Needed` (what has to be computed), `Eval` (the value of a task), `NeedsDep` (dependency
between needed tasks), `execs`/`yields` (what a trace shows) from `Verif/Spec/Graph.lean`. -/

namespace Verif.Graph

variable {n : Nat} {V E : Type}

/-- The needed part of the graph has no dependency cycle. -/
def Acyclic (G : TaskGraph n) (cached : Fin n → Option V) (targets : List (Fin n)) : Prop :=
  ∀ t, ¬ Relation.TransGen (NeedsDep G (fun k => (cached k).isSome) targets) t t

/-- No needed task raises when given the values of its arguments. -/
def NeverRaises (G : TaskGraph n) (exec : Fin n → List (String × V) → Except E V)
    (cached : Fin n → Option V) (targets : List (Fin n)) : Prop :=
  ∀ t (vals : Fin n → V), Needed G (fun k => (cached k).isSome) targets t →
    (∀ d ∈ G.deps t, Eval G exec cached d (vals d)) →
    ∃ v, exec t ((G.args t).map fun a => (a.1, vals a.2)) = .ok v

theorem run_exists [Nonempty V] (G : TaskGraph n) (exec : Fin n → List (String × V) → Except E V)
    (pop : PopOracle n) (targets : List (Fin n)) (cached : Fin n → Option V)
    (h : Acyclic G cached targets) :
    ∃ s r, Executor.run G exec pop targets cached = some r ∧
      IsSchedule G (fun k => (cached k).isSome) targets s ∧
      RGood G exec cached targets s [] s r := by
  have hs := (buildSchedule_isSome_iff G (fun k => (cached k).isSome) pop targets).2 h
  obtain ⟨s, hs⟩ := Option.isSome_iff_exists.1 hs
  have hsch := buildSchedule_spec _ _ _ _ _ hs
  refine ⟨s, runLoop G exec targets (lastUseIndex G (fun k => (cached k).isSome) s) 0 s cached,
    by simp only [Executor.run, hs, Option.map_some], hsch, ?_⟩
  apply runLoop_good G exec cached targets s hsch s [] cached rfl
  refine ⟨fun k v hv => .cached hv, fun k hk => Or.inr hk, ?_⟩
  rintro k (h | h) _
  · simp at h
  · exact h

/-- **C01** The run finishes and yields, for exactly the uncached targets, exactly their value, each
once - for every exploration order `pop`, groups, priorities. -/
theorem C01_executor_value [Nonempty V] (G : TaskGraph n)
    (exec : Fin n → List (String × V) → Except E V)
    (pop : PopOracle n) (targets : List (Fin n)) (cached : Fin n → Option V)
    (hacyc : Acyclic G cached targets) (hnr : NeverRaises G exec cached targets) :
    ∃ trace, Executor.run G exec pop targets cached = some (trace, .finished) ∧
      (∀ t v, (t, v) ∈ yields trace ↔ t ∈ targets ∧ cached t = none ∧ Eval G exec cached t v) ∧
      ((yields trace).map Prod.fst).Nodup := by
  obtain ⟨s, ⟨trace, o⟩, hr, hsch, g⟩ := run_exists G exec pop targets cached hacyc
  have ho : o = .finished := by
    rcases g.outcome with h | ⟨t, e, vals, ht, ho, hv, he⟩
    · exact h.1
    · obtain ⟨v, hv'⟩ := hnr t vals ((hsch.mem t).1 ht) hv
      rw [hv'] at he; cases he
  subst ho
  have hy := g.yields_eq rfl
  refine ⟨trace, hr, ?_, by simp only at hy; rw [hy]; exact hsch.nodup.filter _⟩
  intro t v
  constructor
  · intro h
    have hm : t ∈ (yields trace).map Prod.fst := List.mem_map.2 ⟨_, h, rfl⟩
    rw [hy, List.mem_filter] at hm
    refine ⟨by simpa using hm.2, ?_, g.yields_eval t v h⟩
    have := needed_uncached ((hsch.mem t).1 hm.1)
    simpa using this
  · rintro ⟨ht, hc, hE⟩
    have hm : t ∈ (yields trace).map Prod.fst := by
      rw [hy, List.mem_filter]
      exact ⟨(hsch.mem t).2 (.target ht (by simp [hc])), by simpa using ht⟩
    obtain ⟨⟨t', v'⟩, h1, rfl⟩ := List.mem_map.1 hm
    rw [hE.det (g.yields_eval _ _ h1)]; exact h1

/-- **C01**, exceptions: whatever tasks do, every yielded pair is right, and a run ends either
normally or with the exception of a needed task run on the values of its arguments. -/
theorem C01_executor_exceptions [Nonempty V] (G : TaskGraph n)
    (exec : Fin n → List (String × V) → Except E V)
    (pop : PopOracle n) (targets : List (Fin n)) (cached : Fin n → Option V)
    (hacyc : Acyclic G cached targets) :
    ∃ trace o, Executor.run G exec pop targets cached = some (trace, o) ∧
      (∀ t v, (t, v) ∈ yields trace → t ∈ targets ∧ cached t = none ∧ Eval G exec cached t v) ∧
      (o = .finished ∨ ∃ t e, o = .raised t e ∧ Needed G (fun k => (cached k).isSome) targets t ∧
        ∃ vals : Fin n → V, (∀ d ∈ G.deps t, Eval G exec cached d (vals d)) ∧
          exec t ((G.args t).map fun a => (a.1, vals a.2)) = .error e) := by
  obtain ⟨s, ⟨trace, o⟩, hr, hsch, g⟩ := run_exists G exec pop targets cached hacyc
  refine ⟨trace, o, hr, ?_, ?_⟩
  · intro t v h
    have hm : t ∈ (yields trace).map Prod.fst := List.mem_map.2 ⟨_, h, rfl⟩
    have hm := g.yields_prefix.subset hm
    rw [List.mem_filter] at hm
    have := needed_uncached ((hsch.mem t).1 hm.1)
    exact ⟨by simpa using hm.2, by simpa using this, g.yields_eval t v h⟩
  · rcases g.outcome with h | ⟨t, e, vals, ht, ho, hv, he⟩
    · exact Or.inl h.1
    · exact Or.inr ⟨t, e, ho, (hsch.mem t).1 ht, vals, hv, he⟩

/-- The value of a task is unique, so C01 determines the yielded values. -/
theorem C01_value_unique {G : TaskGraph n} {exec : Fin n → List (String × V) → Except E V}
    {cached : Fin n → Option V} {t : Fin n} {v w : V}
    (h1 : Eval G exec cached t v) (h2 : Eval G exec cached t w) : v = w := h1.det h2

/-- **C02** No task is executed twice and only needed tasks are executed; if the run finishes, all of
them were. -/
theorem C02_exactly_once [Nonempty V] (G : TaskGraph n)
    (exec : Fin n → List (String × V) → Except E V)
    (pop : PopOracle n) (targets : List (Fin n)) (cached : Fin n → Option V)
    (hacyc : Acyclic G cached targets) :
    ∃ trace o, Executor.run G exec pop targets cached = some (trace, o) ∧
      (execs trace).Nodup ∧
      (∀ t ∈ execs trace, Needed G (fun k => (cached k).isSome) targets t) ∧
      (o = .finished → ∀ t, t ∈ execs trace ↔ Needed G (fun k => (cached k).isSome) targets t) := by
  obtain ⟨s, ⟨trace, o⟩, hr, hsch, g⟩ := run_exists G exec pop targets cached hacyc
  refine ⟨trace, o, hr, hsch.nodup.sublist g.execs_prefix.sublist, ?_, ?_⟩
  · intro t ht
    exact (hsch.mem t).1 (g.execs_prefix.subset ht)
  · rintro rfl t
    rcases g.outcome with ⟨_, h⟩ | ⟨_, _, _, _, h, _⟩
    · simp only at h; rw [h]; exact hsch.mem t
    · cases h

/-- **C03** The argument lookup and the last-use lookup never fail, and each executed task receives,
under each of its argument names, the value of that argument. -/
theorem C03_arguments_available [Nonempty V] (G : TaskGraph n)
    (exec : Fin n → List (String × V) → Except E V)
    (pop : PopOracle n) (targets : List (Fin n)) (cached : Fin n → Option V)
    (hacyc : Acyclic G cached targets) :
    ∃ trace o, Executor.run G exec pop targets cached = some (trace, o) ∧
      (∀ t name, o ≠ .missingArgument t name) ∧ o ≠ .missingLastUse ∧
      (∀ t as, Event.exec t as ∈ trace → ∃ vals : Fin n → V,
        (∀ d ∈ G.deps t, Eval G exec cached d (vals d)) ∧
          as = (G.args t).map fun a => (a.1, vals a.2)) := by
  obtain ⟨s, ⟨trace, o⟩, hr, hsch, g⟩ := run_exists G exec pop targets cached hacyc
  refine ⟨trace, o, hr, ?_, ?_, g.args_eval⟩
  · rintro t name rfl
    rcases g.outcome with ⟨h, _⟩ | ⟨_, _, _, _, h, _⟩ <;> cases h
  · rintro rfl
    rcases g.outcome with ⟨h, _⟩ | ⟨_, _, _, _, h, _⟩ <;> cases h

/-- **C04** After each executed task (unless it raised) the set of held values is reduced (`held` event) so that
whatever is still held is an argument of a needed task that has not run yet, or a supplied
cached value that no needed task uses. -/
theorem C04_memory_released [Nonempty V] (G : TaskGraph n)
    (exec : Fin n → List (String × V) → Except E V)
    (pop : PopOracle n) (targets : List (Fin n)) (cached : Fin n → Option V)
    (hacyc : Acyclic G cached targets) :
    ∃ trace o, Executor.run G exec pop targets cached = some (trace, o) ∧
      (∀ pre post t as, trace = pre ++ Event.exec t as :: post →
        (post = [] ∧ ∃ e, o = .raised t e) ∨
          ∃ mid keys post', post = mid ++ Event.held keys :: post' ∧ execs mid = []) ∧
      (∀ pre post keys, trace = pre ++ Event.held keys :: post → ∀ k, keys k = true →
        (∃ t, Needed G (fun k => (cached k).isSome) targets t ∧ t ∉ execs pre ∧ k ∈ G.deps t) ∨
          ((cached k).isSome = true ∧
            ∀ t, Needed G (fun k => (cached k).isSome) targets t → k ∉ G.deps t)) := by
  obtain ⟨s, ⟨trace, o⟩, hr, hsch, g⟩ := run_exists G exec pop targets cached hacyc
  refine ⟨trace, o, hr, g.held_after, ?_⟩
  intro pre post keys h k hk
  rcases g.retention pre post keys h k hk with ⟨t, ht, htp, hkt⟩ | ⟨hc, hall⟩
  · exact Or.inl ⟨t, (hsch.mem t).1 ht, htp, hkt⟩
  · exact Or.inr ⟨hc, fun t ht => hall t ((hsch.mem t).2 ht)⟩

/-- **C05**, first part: construction succeeds exactly when the needed tasks have no dependency cycle,
and then the schedule lists every needed task once, after its uncached arguments. -/
theorem C05_schedule_iff_acyclic (G : TaskGraph n) (cached : Fin n → Bool) (pop : PopOracle n)
    (targets : List (Fin n)) :
    ((∃ s, buildSchedule G cached pop targets = some s) ↔
      ∀ t, ¬ Relation.TransGen (NeedsDep G cached targets) t t) ∧
    ∀ s, buildSchedule G cached pop targets = some s →
      s.Nodup ∧ (∀ t, t ∈ s ↔ Needed G cached targets t) ∧
      ∀ p t q, s = p ++ t :: q → ∀ d ∈ G.deps t, d ∈ p ∨ cached d = true := by
  refine ⟨?_, ?_⟩
  · rw [← buildSchedule_isSome_iff G cached pop targets, Option.isSome_iff_exists]
  · intro s hs
    have := buildSchedule_spec _ _ _ _ _ hs
    exact ⟨this.nodup, this.mem, this.ordered⟩

/-- The sort key a user sees: group label, then descending priority. -/
def userKey (G : TaskGraph n) (t : Fin n) : String × Int := (G.group t, - G.prio t)

/-- **C05**, second part.  When `t` is picked, no task `u` still waiting with all its arguments
available comes strictly before `t` in the order (group label, descending priority).
Partial: the code orders targets behind an artificial root node with key `("", 0)` and places
cached arguments in the queue too, so for a target, or a task with cached arguments, the claim needs that these
do not sort after it.  `C05_target_priority_ignored` shows the condition is needed. -/
theorem C05_frontier_partial (G : TaskGraph n) (cached : Fin n → Bool) (pop : PopOracle n)
    (targets s p q : List (Fin n)) (t u : Fin n)
    (hs : buildSchedule G cached pop targets = some s) (hsplit : s = p ++ t :: q) (hu : u ∈ q)
    (hready : ∀ d ∈ G.deps u, d ∈ p ∨ (cached d = true ∧ ¬ KeyLt (userKey G u) (userKey G d)))
    (hroot : (u ∈ targets ∨ ∃ d ∈ G.deps u, cached d = true ∧ d ∈ targets) →
      ¬ KeyLt (userKey G u) ("", 0)) :
    ¬ KeyLt (userKey G u) (userKey G t) := by
  have hsch := buildSchedule_spec _ _ _ _ _ hs
  have hne : targets.isEmpty = false := by
    by_contra h
    have : targets = [] := by simpa using h
    subst this
    unfold buildSchedule at hs
    simp at hs
    subst hs
    simp at hsplit
  unfold buildSchedule at hs
  simp only [hne, Bool.false_eq_true, if_false, Option.map_eq_some_iff] at hs
  obtain ⟨l, hl, hls⟩ := hs
  obtain ⟨hnd, hmem, hg⟩ := sorted_data G cached pop targets l hl
  obtain ⟨P, Q, h1, h2, h3, h4⟩ := split_filterMap_keep cached l p q t (hls.trans hsplit)
  have hgt := (hg P (some t) Q h1).2
  have ntr : ∀ a b c : String × Int, ¬ KeyLt a b → ¬ KeyLt b c → ¬ KeyLt a c := by
    intro a b c hab hbc hac
    rcases keyLt_trichotomy a b with h | h | h
    · exact hab h
    · exact hbc (h ▸ hac)
    · exact hbc (keyLt_trans h hac)
  -- a node that is ready and not yet emitted is not strictly before `t`
  have nodeMin : ∀ v ∈ nodesOf (edgeTups G cached pop targets), v ∉ P →
      (∀ w, (w, v) ∈ edgeTups G cached pop targets → w ∈ P) →
      ¬ KeyLt (compareKey G v) (userKey G t) := by
    intro v hv hvP hw hlt
    have := hgt v hv hvP hw
    rw [heapLt_of_keyLt G _ v (some t) hlt] at this
    cases this
  have hus : u ∈ s := by rw [hsplit]; simp [hu]
  have hun : Needed G cached targets u := (hsch.mem u).1 hus
  have huP : some u ∉ P := by
    intro hP
    have hul : some u ∈ Q := by
      rw [← h3, mem_filterMap_keep] at hu; exact hu.1
    rw [h1, List.nodup_append] at hnd
    exact hnd.2.2 _ hP _ (List.mem_cons_of_mem _ hul) rfl
  have hunode : some u ∈ nodesOf (edgeTups G cached pop targets) :=
    (mem_nodes_iff ..).2 (Or.inr (Or.inl hun))
  -- the root
  have hrootcase : none ∉ P → ¬ KeyLt (userKey G u) ("", 0) →
      ¬ KeyLt (userKey G u) (userKey G t) := by
    intro hnP hku
    refine ntr _ _ _ hku ?_
    have : (none : Node n) ∈ nodesOf (edgeTups G cached pop targets) := by
      obtain ⟨x, hx⟩ : ∃ x, x ∈ targets := by
        cases targets with
        | nil => simp at hne
        | cons a l => exact ⟨a, List.mem_cons_self⟩
      exact (mem_nodesOf ..).2 ⟨(none, some x), (mem_edgeTups ..).2 (Or.inr ⟨x, hx, rfl⟩), Or.inl rfl⟩
    refine nodeMin none this hnP ?_
    intro w hw
    rcases (mem_edgeTups ..).1 hw with ⟨_, _, h, _⟩ | ⟨_, _, h⟩ <;> cases h
  by_cases hall : ∀ w, (w, some u) ∈ edgeTups G cached pop targets → w ∈ P
  · exact nodeMin (some u) hunode huP hall
  · push Not at hall
    obtain ⟨w, hw, hwP⟩ := hall
    rcases (mem_edgeTups ..).1 hw with ⟨d, x, he, hx, hd⟩ | ⟨x, hx, he⟩
    · cases he
      rcases hready d hd with hdp | ⟨hdc, hdk⟩
      · rw [← h2, mem_filterMap_keep] at hdp
        exact absurd hdp.1 hwP
      · by_cases hdall : ∀ w, (w, some d) ∈ edgeTups G cached pop targets → w ∈ P
        · have := nodeMin (some d) ((mem_nodes_iff ..).2 (Or.inr (Or.inr ⟨_, hx, hd⟩))) hwP hdall
          exact ntr _ _ _ hdk this
        · push Not at hdall
          obtain ⟨w', hw', hw'P⟩ := hdall
          rcases (mem_edgeTups ..).1 hw' with ⟨d', x', he, hx', hd'⟩ | ⟨x', hx', he⟩
          · cases he
            rw [needed_uncached hx'] at hdc; cases hdc
          · cases he
            exact hrootcase hw'P (hroot (Or.inr ⟨_, hd, hdc, hx'⟩))
    · cases he
      exact hrootcase hwP (hroot (Or.inl hx))

/-! ## Concrete instances -/

theorem acyclic_of_lt (G : TaskGraph n) (cached : Fin n → Bool) (targets : List (Fin n))
    (h : ∀ t, ∀ d ∈ G.deps t, d < t) : ∀ t, ¬ Relation.TransGen (NeedsDep G cached targets) t t := by
  have : ∀ a b, Relation.TransGen (NeedsDep G cached targets) a b → a < b := by
    intro a b hab
    induction hab with
    | single h' => exact h _ _ h'.2
    | tail _ h' ih => exact ih.trans (h _ _ h'.2)
  exact fun t ht => lt_irrefl _ (this t t ht)

/-- A diamond `0 → 1, 0 → 2, {1, 2} → 3`, with groups and priorities, plus an unrelated task `4`. -/
def diamond : TaskGraph 5 where
  args t := if t = 1 then [("x", 0)] else if t = 2 then [("x", 0)]
    else if t = 3 then [("a", 1), ("b", 2)] else []
  group t := if t = 1 then "shard" else ""
  prio t := if t = 2 then 3 else 0

/-- A semantics: sum of the arguments plus one; task `4` raises. -/
def sumExec : Fin 5 → List (String × Nat) → Except String Nat :=
  fun t as => if t = 4 then .error "boom" else .ok ((as.map Prod.snd).sum + 1)

theorem diamond_lt : ∀ t, ∀ d ∈ diamond.deps t, d < t := by decide

example : Acyclic diamond (fun _ => (none : Option Nat)) [3, 1, 3] :=
  acyclic_of_lt _ _ _ diamond_lt

theorem diamond_not_needed4 : ∀ t, Needed diamond (fun _ => false) [3, 1, 3] t → t ≠ 4 := by
  intro t h
  induction h with
  | target h _ => rintro rfl; revert h; decide
  | @dep t d _ hd _ _ =>
    have := diamond_lt t d hd
    rintro rfl
    omega

example : NeverRaises diamond sumExec (fun _ => (none : Option Nat)) [3, 1, 3] := by
  intro t vals hn _
  have h4 : t ≠ 4 := diamond_not_needed4 t hn
  simp [sumExec, h4]

/-- The value of the diamond: 0 ↦ 1, 1 ↦ 2, 2 ↦ 2, 3 ↦ 5. -/
example : Eval diamond sumExec (fun _ => none) 3 5 := by
  have e0 : Eval diamond sumExec (fun _ => none) 0 1 :=
    .exec (fun _ => 0) rfl (by simp [TaskGraph.deps, diamond]) rfl
  have e1 : Eval diamond sumExec (fun _ => none) 1 2 :=
    .exec (fun _ => 1) rfl (by simp [TaskGraph.deps, diamond]; exact e0) rfl
  have e2 : Eval diamond sumExec (fun _ => none) 2 2 :=
    .exec (fun _ => 1) rfl (by simp [TaskGraph.deps, diamond]; exact e0) rfl
  exact .exec (fun _ => 2) rfl (by simp [TaskGraph.deps, diamond]; exact ⟨e1, e2⟩) rfl

/-- A cyclic graph for the error branch of C05. -/
example : ¬ ∀ t, ¬ Relation.TransGen (NeedsDep (n := 2)
    ⟨fun t => [("x", 1 - t)], fun _ => "", fun _ => 0⟩ (fun _ => false) [0]) t t := by
  intro h
  apply h 0
  have n0 : Needed (n := 2) ⟨fun t => [("x", 1 - t)], fun _ => "", fun _ => 0⟩ (fun _ => false) [0] 0 :=
    .target (by simp) rfl
  have n1 : Needed (n := 2) ⟨fun t => [("x", 1 - t)], fun _ => "", fun _ => 0⟩ (fun _ => false) [0] 1 :=
    .dep n0 (by simp [TaskGraph.deps]) rfl
  exact .tail (b := 1) (.single ⟨n1, by simp [TaskGraph.deps]⟩) ⟨n0, by simp [TaskGraph.deps]⟩

/-- Task `0`: a target without arguments, priority 10.  Task `1`: no arguments, priority 5; it is the
argument of target `2`. -/
def rootDelay : TaskGraph 3 where
  args t := if t = 2 then [("x", 1)] else []
  group _ := ""
  prio t := if t = 0 then 10 else if t = 1 then 5 else 0

/-- The condition on targets in `C05_frontier_partial` is needed: task `0` is ready from the start and has
the higher priority, but task `1` is always scheduled before it. -/
theorem C05_target_priority_ignored (pop : PopOracle 3) :
    rootDelay.deps 0 = [] ∧ KeyLt (userKey rootDelay 0) (userKey rootDelay 1) ∧
    ∃ s p q, buildSchedule rootDelay (fun _ => false) pop [0, 2] = some s ∧
      s = p ++ 1 :: q ∧ 0 ∈ q := by
  refine ⟨rfl, Or.inr ⟨rfl, by decide⟩, ?_⟩
  have hac := acyclic_of_lt rootDelay (fun _ => false) [0, 2] (by decide)
  have hsome := (buildSchedule_isSome_iff rootDelay (fun _ => false) pop [0, 2]).2 hac
  obtain ⟨s, hs⟩ := Option.isSome_iff_exists.1 hsome
  have hsch := buildSchedule_spec _ _ _ _ _ hs
  have n0 : Needed rootDelay (fun _ => false) [0, 2] 0 := .target (by simp) rfl
  have n1 : Needed rootDelay (fun _ => false) [0, 2] 1 :=
    .dep (t := 2) (.target (by simp) rfl) (by simp [TaskGraph.deps, rootDelay]) rfl
  have hs' := hs
  unfold buildSchedule at hs'
  simp only [List.isEmpty_cons, Bool.false_eq_true, if_false, Option.map_eq_some_iff] at hs'
  obtain ⟨l, hl, hls⟩ := hs'
  obtain ⟨hnd, hmem, hg⟩ := sorted_data _ _ pop _ l hl
  obtain ⟨p, q, hpq⟩ := List.append_of_mem ((hsch.mem 0).2 n0)
  obtain ⟨P, Q, h1, h2, h3, h4⟩ := split_filterMap_keep _ l p q 0 (hls.trans hpq)
  -- the root precedes 0
  have hroot : (none : Node 3) ∈ P :=
    (hg P (some 0) Q h1).1 none ((mem_edgeTups ..).2 (Or.inr ⟨0, by simp, rfl⟩))
  obtain ⟨P1, P2, hP⟩ := List.append_of_mem hroot
  -- 1 precedes the root
  have h1P : some 1 ∈ P1 := by
    by_contra hno
    have := (hg P1 none (P2 ++ some 0 :: Q) (by rw [h1, hP]; simp)).2 (some 1)
      ((mem_nodes_iff ..).2 (Or.inr (Or.inl n1))) hno (by
        intro w hw
        rcases (mem_edgeTups ..).1 hw with ⟨d, t, he, _, hd⟩ | ⟨t, ht, he⟩
        · cases he; simp [TaskGraph.deps, rootDelay] at hd
        · cases he; simp at ht)
    have hk : KeyLt (compareKey rootDelay (some 1)) (compareKey rootDelay none) :=
      Or.inr ⟨rfl, by decide⟩
    rw [heapLt_of_keyLt _ _ _ _ hk] at this
    cases this
  have h1p : (1 : Fin 3) ∈ p := by
    rw [← h2, mem_filterMap_keep, hP]
    exact ⟨List.mem_append_left _ h1P, rfl⟩
  obtain ⟨p1, p2, hp⟩ := List.append_of_mem h1p
  exact ⟨s, p1, p2 ++ 0 :: q, hs, by rw [hpq, hp]; simp, by simp⟩

/-- Non-vacuity of `C05_frontier_partial`: in the diamond with target `3`, tasks `1` and `2` become ready
together, and `2` (smaller group label) is always scheduled first. -/
example (pop : PopOracle 5) : ∃ s, buildSchedule diamond (fun _ => false) pop [3] = some s ∧
    ∃ p q, s = p ++ 1 :: q ∧ 2 ∈ p := by
  have hsome := (buildSchedule_isSome_iff diamond (fun _ => false) pop [3]).2
    (acyclic_of_lt _ _ _ diamond_lt)
  obtain ⟨s, hs⟩ := Option.isSome_iff_exists.1 hsome
  have hsch := buildSchedule_spec _ _ _ _ _ hs
  have n3 : Needed diamond (fun _ => false) [3] 3 := .target (by simp) rfl
  obtain ⟨p, q, hpq⟩ := List.append_of_mem ((hsch.mem 1).2 (.dep n3 (by decide) rfl))
  refine ⟨s, hs, p, q, hpq, ?_⟩
  have h2 : (2 : Fin 5) ∈ s := (hsch.mem 2).2 (.dep n3 (by decide) rfl)
  rw [hpq, List.mem_append, List.mem_cons] at h2
  rcases h2 with h2 | h2 | h2
  · exact h2
  · cases h2
  · exfalso
    have h0 : (0 : Fin 5) ∈ p := by
      rcases hsch.ordered p 1 q hpq 0 (by decide) with h | h
      · exact h
      · cases h
    refine C05_frontier_partial diamond (fun _ => false) pop [3] s p q 1 2 hs hpq h2 ?_ ?_
      (Or.inl (by decide))
    · intro d hd
      have : d = 0 := by revert d; decide
      exact Or.inl (this ▸ h0)
    · rintro (h | ⟨d, _, h, _⟩)
      · simp at h
      · cases h

end Verif.Graph
