import Verif.Proof.MultiRun
import Mathlib.Tactic.FinCases
import Mathlib.Algebra.BigOperators.Group.Finset.Basic
import Mathlib.Algebra.Order.BigOperators.Group.Finset
import Mathlib.Tactic.Positivity

/-! # C07 - C09: multi-GPU execution

`Built` collects what a successful construction means: the universe contains only what the targets need, `ordered` is the
serial schedule, `trailing` a possible result of the exploration of trailing tasks, `islands` the
connected components.  `Leads`/`Trails` (Verif/Spec/MultiGPU.lean) say which tasks belong before / after
the parallel phase. -/

set_option linter.unusedVariables false

namespace Verif.MultiGPU
open Verif.Graph

variable {n : Nat} {G : TaskGraph n} {F : Flags n} {targets ordered : List (Fin n)}
  {trailing : Finset (Fin n)} {islands : List (List (Fin n))} {numGpus : Nat} {P : Plan n}

/-- **C08** The partition.  Every task is in one of the four parts; the parallel and the per-device part are
disjoint from everything else and contain no main-thread task; a main-thread task is leading
or trailing; leading tasks depend only on leading tasks; only trailing tasks depend on a trailing task. -/
theorem C08_partition (B : Built G F targets ordered trailing islands numGpus P) :
    (∀ t, t ∈ P.leading ∨ t ∈ P.trailing ∨ t ∈ P.perGpu ∨ t ∈ P.parallel) ∧
    (∀ t ∈ P.parallel, t ∉ P.leading ∧ t ∉ P.trailing ∧ t ∉ P.perGpu ∧ F.mainOnly t = false) ∧
    (∀ t ∈ P.perGpu, t ∉ P.leading ∧ t ∉ P.trailing ∧ F.mainOnly t = false) ∧
    (∀ t, F.mainOnly t = true ↔ t ∈ P.leading ∨ t ∈ P.trailing) ∧
    (∀ t ∈ P.leading, ∀ d ∈ G.deps t, d ∈ P.leading) ∧
    (∀ t ∈ P.trailing, ∀ u, t ∈ G.deps u → u ∈ P.trailing) := by
  obtain ⟨hL, hT, hG, hP, hPm, hGm, _, _, _⟩ := B.construct_inv
  have hLm : ∀ t, Leads G F t → F.mainOnly t = true := fun t h => by cases h; assumption
  have hTm : ∀ t, Trails G F t → F.mainOnly t = true := fun t h => by cases h; assumption
  have hcover : ∀ t, t ∈ P.leading ∨ t ∈ P.trailing ∨ t ∈ P.perGpu ∨ t ∈ P.parallel := by
    intro t
    rw [hL, hT, hG, hP]
    cases F.perGpu t <;> tauto
  refine ⟨hcover, ?_, ?_, ?_, ?_, ?_⟩
  · intro t ht
    have := (hP t).1 ht
    rw [hL, hT, hG]
    exact ⟨this.2.1, this.1, by simp [this.2.2], hPm t ht⟩
  · intro t ht
    have := hGm t ht
    rw [hL, hT]
    refine ⟨fun h => ?_, fun h => ?_, this⟩
    · rw [hLm t h] at this; cases this
    · rw [hTm t h] at this; cases this
  · intro t
    constructor
    · intro hm
      rcases hcover t with h | h | h | h
      · exact Or.inl h
      · exact Or.inr h
      · rw [hGm t h] at hm; cases hm
      · rw [hPm t h] at hm; cases hm
    · rintro (h | h)
      · exact hLm t ((hL t).1 h)
      · exact hTm t ((hT t).1 h)
  · intro t ht d hd
    rw [hL] at *
    cases ht with | mk _ h => exact h d hd
  · intro t ht u hu
    rw [hT] at *
    cases ht with | mk _ h => exact h u hu

/-- **C08**, when construction fails: it succeeds exactly when no task is both main-thread-only and per-device,
every main-thread-only task can be placed before or after the parallel phase, and there is
a device if there is anything to run in parallel. -/
theorem C08_construct_iff (hall : ∀ t, Needed G (fun _ => false) targets t)
    (hs : IsSchedule G (fun _ => false) targets ordered) (ht : IsTrailing G F ordered trailing)
    (hi : IsComponents G (parallelTasks F ordered (findLeading G F ordered) trailing) islands) :
    (∃ P, construct G F ordered trailing islands numGpus = .ok P) ↔
      (∀ t, F.mainOnly t = true → F.perGpu t = false ∧ (Leads G F t ∨ Trails G F t)) ∧
      (numGpus ≠ 0 ∨ ∀ t, Leads G F t ∨ Trails G F t ∨ F.perGpu t = true) := by
  have hmem : ∀ t, t ∈ ordered := fun t => (hs.mem t).2 (hall t)
  have topo : ∀ p t q, ordered = p ++ t :: q → ∀ d ∈ G.deps t, d ∈ p := by
    intro p t q h d hd
    rcases hs.ordered p t q h d hd with h | h
    · exact h
    · cases h
  have hlead : ∀ t, t ∈ findLeading G F ordered ↔ Leads G F t := by
    intro t
    rw [findLeading_spec G F ordered topo]
    exact ⟨fun h => h.2, fun h => ⟨hmem t, h⟩⟩
  have htrail := isTrailing_spec G F ordered hmem trailing ht
  have hpar : ∀ t, t ∈ parallelTasks F ordered (findLeading G F ordered) trailing ↔
      ¬ Trails G F t ∧ ¬ Leads G F t ∧ F.perGpu t = false := by
    intro t
    unfold parallelTasks
    rw [List.mem_filter]
    simp only [Bool.and_eq_true, decide_eq_true_eq, Bool.not_eq_true', hlead, htrail]
    exact ⟨fun h => ⟨h.2.1.1, h.2.1.2, h.2.2⟩, fun h => ⟨hmem t, ⟨h.1, h.2.1⟩, h.2.2⟩⟩
  have hassign : (∃ a, assignIslands numGpus islands (fun _ => []) = .ok a) ↔
      (numGpus ≠ 0 ∨ islands = []) := by
    have : ∀ (l : List (List (Fin n))) (a : Nat → List (Fin n)), numGpus ≠ 0 →
        ∃ b, assignIslands numGpus l a = .ok b := by
      intro l
      induction l with
      | nil => intro a _; exact ⟨a, rfl⟩
      | cons x l ih => intro a h; simp only [assignIslands, h, if_false]; exact ih _ h
    constructor
    · rintro ⟨a, ha⟩
      by_cases h0 : numGpus = 0
      · right
        cases islands with
        | nil => rfl
        | cons x l => simp [assignIslands, h0] at ha
      · exact Or.inl h0
    · rintro (h | h)
      · exact this _ _ h
      · subst h; exact ⟨_, rfl⟩
  have hisl : islands = [] ↔ ∀ t, Leads G F t ∨ Trails G F t ∨ F.perGpu t = true := by
    constructor
    · intro h t
      by_contra hn
      push Not at hn
      have : t ∈ parallelTasks F ordered (findLeading G F ordered) trailing :=
        (hpar t).2 ⟨hn.2.1, hn.1, by simpa using hn.2.2⟩
      obtain ⟨isl, hi', _⟩ := (hi.cover t).1 this
      rw [h] at hi'; cases hi'
    · intro h
      cases hl : islands with
      | nil => rfl
      | cons x l =>
        exfalso
        have hx : x ∈ islands := by rw [hl]; exact List.mem_cons_self
        obtain ⟨t, ht⟩ := List.exists_mem_of_ne_nil x (hi.nonempty x hx)
        have := (hpar t).1 ((hi.cover t).2 ⟨x, hx, ht⟩)
        rcases h t with h | h | h
        · exact this.2.1 h
        · exact this.1 h
        · rw [this.2.2] at h; cases h
  rw [← hisl, ← hassign]
  have hc1 : (parallelTasks F ordered (findLeading G F ordered) trailing).any F.mainOnly = true ↔
      ∃ t, F.mainOnly t = true ∧ ¬ Trails G F t ∧ ¬ Leads G F t ∧ F.perGpu t = false := by
    rw [List.any_eq_true]
    simp only [hpar]
    exact ⟨fun ⟨t, h1, h2⟩ => ⟨t, h2, h1⟩, fun ⟨t, h1, h2⟩ => ⟨t, h2, h1⟩⟩
  have hc2 : (ordered.filter F.perGpu).any F.mainOnly = true ↔
      ∃ t, F.mainOnly t = true ∧ F.perGpu t = true := by
    rw [List.any_eq_true]
    simp only [List.mem_filter]
    exact ⟨fun ⟨t, h1, h2⟩ => ⟨t, h2, h1.2⟩, fun ⟨t, h1, h2⟩ => ⟨t, ⟨hmem t, h2⟩, h1⟩⟩
  unfold construct
  simp only
  constructor
  · rintro ⟨P, h⟩
    split at h
    · cases h
    · rename_i n1
      split at h
      · cases h
      · rename_i n2
        split at h
        · cases h
        · rename_i a ha
          rw [hc1] at n1
          rw [hc2] at n2
          refine ⟨?_, a, ha⟩
          intro t htm
          have hper : F.perGpu t = false := by
            by_contra hp
            exact n2 ⟨t, htm, by simpa using hp⟩
          refine ⟨hper, ?_⟩
          by_contra hn
          push Not at hn
          exact n1 ⟨t, htm, hn.2, hn.1, hper⟩
  · rintro ⟨h1, a, ha⟩
    have n1 : ¬ (parallelTasks F ordered (findLeading G F ordered) trailing).any F.mainOnly = true := by
      rw [hc1]
      rintro ⟨t, htm, hT, hL, _⟩
      rcases (h1 t htm).2 with h | h
      · exact hL h
      · exact hT h
    have n2 : ¬ (ordered.filter F.perGpu).any F.mainOnly = true := by
      rw [hc2]
      rintro ⟨t, htm, hp⟩
      rw [(h1 t htm).1] at hp; cases hp
    rw [if_neg n1, if_neg n2, ha]
    exact ⟨_, rfl⟩

theorem geom_two_lt (k : Nat) : ∑ i ∈ Finset.range k, 2 ^ i < 2 ^ k := by
  induction k with
  | zero => simp
  | succ k ih => rw [Finset.sum_range_succ, pow_succ]; omega

/-- **C08** The search for trailing tasks ends, whatever the order in which the set is popped: there is no infinite
run of it, and a run can only stop with nothing left to explore. -/
theorem C08_search_terminates (hall : ∀ t, Needed G (fun _ => false) targets t)
    (hs : IsSchedule G (fun _ => false) targets ordered) :
    WellFounded (fun s' s => TrailStep G F s s') ∧
    (∀ s : TrailState n, (∀ s', ¬ TrailStep G F s s') → s.toExplore = ∅) ∧
    (∃ trailing, IsTrailing G F ordered trailing) := by
  have hmem : ∀ t, t ∈ ordered := fun t => (hs.mem t).2 (hall t)
  have hlt : ∀ t, ∀ d ∈ G.deps t, ordered.idxOf d < ordered.idxOf t := by
    intro t d hd
    obtain ⟨p, q, hpq⟩ := List.append_of_mem (hmem t)
    rcases hs.ordered p t q hpq d hd with h | h
    · have hnd := hs.nodup
      rw [hpq] at hnd ⊢
      have htp : t ∉ p := fun htp => (List.nodup_append.1 hnd).2.2 t htp t (by simp) rfl
      rw [List.idxOf_append_of_mem h, List.idxOf_append_of_notMem htp]
      have := List.idxOf_lt_length_of_mem h
      omega
    · cases h
  have hinj : ∀ a b, ordered.idxOf a = ordered.idxOf b → a = b := fun a b h =>
    (List.idxOf_inj (hmem a)).1 h
  let μ : TrailState n → Nat := fun s => ∑ x ∈ s.toExplore, 2 ^ ordered.idxOf x
  have hdec : ∀ s s', TrailStep G F s s' → μ s' < μ s := by
    have herase : ∀ (A : Finset (Fin n)) t, t ∈ A →
        ∑ x ∈ A.erase t, 2 ^ ordered.idxOf x + 2 ^ ordered.idxOf t = ∑ x ∈ A, 2 ^ ordered.idxOf x :=
      fun A t h => Finset.sum_erase_add A _ h
    have hpos : ∀ t, 0 < 2 ^ ordered.idxOf t := fun t => by positivity
    intro s s' h
    cases h with
    | @skip t ht _ => have := herase s.toExplore t ht; have := hpos t; simp only [μ]; omega
    | @blocked t ht _ _ => have := herase s.toExplore t ht; have := hpos t; simp only [μ]; omega
    | @add t ht _ _ =>
      have h1 := herase s.toExplore t ht
      have h2 : ∑ x ∈ s.toExplore.erase t ∪ (G.deps t).toFinset, 2 ^ ordered.idxOf x ≤
          ∑ x ∈ s.toExplore.erase t, 2 ^ ordered.idxOf x +
          ∑ x ∈ (G.deps t).toFinset, 2 ^ ordered.idxOf x := by
        rw [← Finset.sum_union_inter]; omega
      have h3 : ∑ x ∈ (G.deps t).toFinset, 2 ^ ordered.idxOf x ≤
          ∑ i ∈ Finset.range (ordered.idxOf t), 2 ^ i := by
        rw [← Finset.sum_image (g := fun x => ordered.idxOf x) (f := fun i => 2 ^ i)
          (fun a _ b _ h => hinj a b h)]
        apply Finset.sum_le_sum_of_subset
        intro i hi
        obtain ⟨d, hd, rfl⟩ := Finset.mem_image.1 hi
        exact Finset.mem_range.2 (hlt t d (List.mem_toFinset.1 hd))
      have h4 := geom_two_lt (ordered.idxOf t)
      simp only [μ]
      omega
  have hwf : WellFounded (fun s' s => TrailStep G F s s') :=
    Subrelation.wf (fun {a b} h => hdec b a h) (measure μ).wf
  have hprog : ∀ s : TrailState n, (∀ s', ¬ TrailStep G F s s') → s.toExplore = ∅ := by
    intro s hstuck
    by_contra hne
    obtain ⟨t, ht⟩ := Finset.nonempty_iff_ne_empty.2 hne
    cases hm : F.mainOnly t with
    | false => exact hstuck _ (.skip ht hm)
    | true =>
      by_cases hd : dependants G t ⊆ s.trailing
      · exact hstuck _ (.add ht hm hd)
      · exact hstuck _ (.blocked ht hm hd)
  refine ⟨hwf, hprog, ?_⟩
  have : ∀ s : TrailState n, ∃ tr, Relation.ReflTransGen (TrailStep G F) s ⟨tr, ∅⟩ := by
    intro s
    induction s using hwf.induction with
    | _ s ih =>
      by_cases h : ∃ s', TrailStep G F s s'
      · obtain ⟨s', h⟩ := h
        obtain ⟨tr, hr⟩ := ih s' h
        exact ⟨tr, .head h hr⟩
      · have := hprog s (fun s' h' => h ⟨s', h'⟩)
        exact ⟨s.trailing, by cases s; simp only at this; subst this; exact .refl⟩
  exact this _

/-- **C09** Every parallel task is on exactly one device (and occurs once), two parallel tasks that depend on each
other are on the same device, and no device has more than `M` tasks more than another,
where `M` bounds the size of a connected group. -/
theorem C09_assignment (B : Built G F targets ordered trailing islands numGpus P) :
    (∀ t, t ∈ P.parallel → ∃ d, d < numGpus ∧ t ∈ P.assigned d ∧ ∀ d', t ∈ P.assigned d' → d' = d) ∧
    (∀ d t, t ∈ P.assigned d → t ∈ P.parallel ∧ d < numGpus) ∧
    (∀ d, (P.assigned d).Nodup) ∧
    (∀ a b d, a ∈ P.assigned d → b ∈ P.parallel → (a ∈ G.deps b ∨ b ∈ G.deps a) → b ∈ P.assigned d) ∧
    (∀ M, (∀ isl ∈ islands, isl.length ≤ M) → ∀ i j, i < numGpus → j < numGpus →
      (P.assigned i).length ≤ (P.assigned j).length + M) := by
  obtain ⟨_, _, _, _, _, _, hpar, _, ha⟩ := B.construct_inv
  obtain ⟨hex, hmem⟩ := B.assigned_iff
  have hperm := sum_update_perm numGpus islands _ _ ha
  have hempty : ∀ k : Nat, ((List.range k).map (fun _ => ([] : List (Fin n)))).flatten = [] := by
    intro k; simp
  rw [hempty, List.nil_append] at hperm
  have hnd : ((List.range numGpus).map P.assigned).flatten.Nodup := hperm.nodup_iff.2 B.comps.nodup
  have hpw := List.nodup_flatten.1 hnd
  have uniq : ∀ d d' t, t ∈ P.assigned d → t ∈ P.assigned d' → d = d' := by
    intro d d' t h1 h2
    have l1 := (hmem d t h1).2
    have l2 := (hmem d' t h2).2
    have hp := hpw.2
    rw [List.pairwise_map, List.pairwise_iff_getElem] at hp
    rcases lt_trichotomy d d' with h | h | h
    · have := hp d d' (by simpa using l1) (by simpa using l2) h
      simp only [List.getElem_range] at this
      exact absurd h2 (this h1)
    · exact h
    · have := hp d' d (by simpa using l2) (by simpa using l1) h
      simp only [List.getElem_range] at this
      exact absurd h1 (this h2)
  have hndd : ∀ d, (P.assigned d).Nodup := by
    intro d
    by_cases hd : d < numGpus
    · exact hpw.1 _ (List.mem_map.2 ⟨d, List.mem_range.2 hd, rfl⟩)
    · have : P.assigned d = [] := by
        apply List.eq_nil_iff_forall_not_mem.2
        intro t ht
        exact hd (hmem d t ht).2
      rw [this]; exact List.nodup_nil
  refine ⟨?_, hmem, hndd, ?_, ?_⟩
  · intro t ht
    obtain ⟨d, hd, htd⟩ := hex t ht
    exact ⟨d, hd, htd, fun d' h => uniq d' d t h htd⟩
  · intro a b d had hb hlink
    obtain ⟨_, _, h3⟩ := assign_mem numGpus islands _ _ ha
    rcases h3 d a had with h | ⟨_, isl, hi, hai, hall⟩
    · simp at h
    · apply hall b
      rw [B.comps.connected isl hi a hai b, ← hpar]
      exact ⟨hb, .rel _ _ ⟨(hmem d a had).1, hb, hlink⟩⟩
  · intro M hM
    exact assign_balance numGpus islands _ _ M hM (by simp) ha

section Run
variable {V E : Type} {exec : Fin n → List (String × V) → Except E V}

theorem snapshot_spec (lead : List (Event n V)) (L : List (Fin n))
    (h : ∀ t v, (t, v) ∈ yields lead ↔ t ∈ L ∧ (fun _ => none : Fin n → Option V) t = none ∧
      Eval G exec (fun _ => none) t v)
    (hex : ∀ t, ∃ v, Eval G exec (fun _ => none) t v) (t : Fin n) (v : V) :
    collect (fun _ => none) (yields lead) t = some v ↔ t ∈ L ∧ Eval G exec (fun _ => none) t v := by
  constructor
  · intro hc
    rcases collect_some _ _ _ _ hc with h' | ⟨h', _⟩
    · have := (h t v).1 h'; exact ⟨this.1, this.2.2⟩
    · cases h'
  · rintro ⟨h1, h2⟩
    obtain ⟨w, hw⟩ := collect_isSome (fun _ => none) (yields lead) t v ((h t v).2 ⟨h1, rfl, h2⟩)
    rw [hw]
    rcases collect_some _ _ _ _ hw with h' | ⟨h', _⟩
    · rw [h2.det ((h t w).1 h').2.2]
    · cases h'

/-- **C07** If the queue is emptied before the completion signal stops the draining thread (and per-device targets
come with at least one parallel task), the multi-GPU run finishes and yields for every target exactly the
value of the target - for every pop order in every executor, every assignment and every
interleaving of the workers.  Partial: the hypothesis that *all* of `queue` is collected is not guaranteed by the
code (`C07_result_lost`, `C07_wrong_value`), nor is the one on per-device targets (`C07_per_device_target_lost`). -/
theorem C07_equals_single_partial [Nonempty V]
    (B : Built G F targets ordered trailing islands numGpus P)
    (hnr : NeverRaises G exec (fun _ => none) targets) (pyNone : V)
    (hdup : P.parallel ≠ [] ∨ ∀ t ∈ targets, F.perGpu t = false)
    (popL popT : PopOracle n) (popW : Nat → PopOracle n) :
    ∃ lead, leadingRun P G exec popL = some (lead, .finished) ∧
    ∃ work : Nat → List (Event n V),
      (∀ d, workerRun P G exec (popW d) (collect (fun _ => none) (yields lead)) d =
        some (work d, .finished)) ∧
      (∀ d, ∀ t ∈ execs (work d), F.mainOnly t = false) ∧
    ∀ queue, Interleave ((List.range numGpus).map
        (fun d => workerMessages P G targets pyNone (work d))) queue →
    ∃ trail, trailingRun P G exec popT (collect (collect (fun _ => none) (yields lead)) queue) =
        some (trail, .finished) ∧
      ∀ t v, Yielded targets (finalResults targets
          (collect (collect (fun _ => none) (yields lead)) queue) trail) t v ↔
        t ∈ targets ∧ Eval G exec (fun _ => none) t v := by
  obtain ⟨hL, hT, hG, hP, hPm, hGm, hparEq, _, _⟩ := B.construct_inv
  obtain ⟨hasg, hasgmem⟩ := B.assigned_iff
  have hLm : ∀ t, Leads G F t → F.mainOnly t = true := fun t h => by cases h; assumption
  have hTm : ∀ t, Trails G F t → F.mainOnly t = true := fun t h => by cases h; assumption
  have hval : ∀ t, ∃ v, Eval G exec (fun _ => none) t v :=
    fun t => eval_exists (fun _ => none) targets (B.acyclic _ _) hnr t (B.all t)
  -- leading phase
  obtain ⟨lead, hlead, hleadY, _⟩ := phase_spec B hnr popL P.leading P.leading.isEmpty (by simp)
    (fun _ => none) (fun _ => True) (fun _ _ => trivial) (fun _ _ _ _ _ => trivial)
    (fun t v _ h => by cases h)
  refine ⟨lead, hlead, ?_⟩
  have hsnap := snapshot_spec (G := G) (exec := exec) lead P.leading hleadY hval
  set snap : Fin n → Option V := collect (fun _ => none) (yields lead) with hsnapdef
  have snap_none : ∀ t, ¬ Leads G F t → snap t = none := by
    intro t ht
    cases h : snap t with
    | none => rfl
    | some v => exact absurd ((hL t).1 ((hsnap t v).1 h).1) ht
  -- workers
  have hper_main : ∀ t, F.perGpu t = true → F.mainOnly t = false := fun t h => hGm t ((hG t).2 h)
  have hper_nl : ∀ t, F.perGpu t = true → ¬ Leads G F t := by
    intro t h hl; have := hper_main t h; rw [hLm t hl] at this; cases this
  have hper_nt : ∀ t, F.perGpu t = true → ¬ Trails G F t := by
    intro t h hl; have := hper_main t h; rw [hTm t hl] at this; cases this
  have hwork : ∀ d, ∃ trace, workerRun P G exec (popW d) snap d = some (trace, .finished) ∧
      (∀ t v, (t, v) ∈ yields trace ↔ P.assigned d ≠ [] ∧ t ∈ P.perGpu ++ P.assigned d ∧
        Eval G exec (fun _ => none) t v) ∧
      (∀ t ∈ execs trace, F.mainOnly t = false) := by
    intro d
    by_cases hd : P.assigned d = []
    · exact ⟨[], by simp [workerRun, phaseRun, hd], by simp [yields, hd], by simp [execs]⟩
    · obtain ⟨trace, h1, h2, h3⟩ := phase_spec B hnr (popW d) (P.perGpu ++ P.assigned d) false (by simp)
        snap (fun t => ¬ Trails G F t) (by
          intro t ht
          rcases List.mem_append.1 ht with h | h
          · exact hper_nt t ((hG t).1 h)
          · exact ((hP t).1 (hasgmem d t h).1).1)
        (by
          intro t ht _ x hx hT'
          cases hT' with | mk _ h => exact ht (h t hx))
        (fun t v _ h => ((hsnap t v).1 h).2)
      refine ⟨trace, ?_, ?_, ?_⟩
      · have : (P.assigned d).isEmpty = false := by simpa using hd
        simp only [workerRun, this]; exact h1
      · intro t v
        rw [h2 t v]
        constructor
        · rintro ⟨a, _, c⟩; exact ⟨hd, a, c⟩
        · rintro ⟨_, a, c⟩
          refine ⟨a, snap_none t ?_, c⟩
          rcases List.mem_append.1 a with h | h
          · exact hper_nl t ((hG t).1 h)
          · exact ((hP t).1 (hasgmem d t h).1).2.1
      · intro t ht
        obtain ⟨hnt, hs, _⟩ := h3 t ht
        have hnl : ¬ Leads G F t := by
          intro hl
          obtain ⟨v, hv⟩ := hval t
          rw [(hsnap t v).2 ⟨(hL t).2 hl, hv⟩] at hs; cases hs
        cases hp : F.perGpu t with
        | true => exact hper_main t hp
        | false => exact hPm t ((hP t).2 ⟨hnt, hnl, hp⟩)
  choose work hwork1 hwork2 hwork3 using hwork
  refine ⟨work, hwork1, hwork3, ?_⟩
  intro queue hq
  -- facts about the queue
  have hqmem : ∀ t v, (t, v) ∈ queue ↔ ∃ d, d < numGpus ∧
      (t, v) ∈ workerMessages P G targets pyNone (work d) := by
    intro t v
    rw [hq.mem]
    simp only [List.mem_map, List.mem_range]
    constructor
    · rintro ⟨l, ⟨d, hd, rfl⟩, h⟩; exact ⟨d, hd, h⟩
    · rintro ⟨d, hd, h⟩; exact ⟨_, ⟨d, hd, rfl⟩, h⟩
  have hmsg : ∀ d t v, (t, v) ∈ workerMessages P G targets pyNone (work d) →
      (t ∈ P.perGpu ++ P.assigned d) ∧ P.parallel ≠ [] ∧
      ((t ∈ targets ∨ ∃ u ∈ P.trailing, t ∈ G.deps u) → Eval G exec (fun _ => none) t v) := by
    intro d t v h
    unfold workerMessages at h
    obtain ⟨⟨t', v'⟩, hy, he⟩ := List.mem_map.1 h
    obtain ⟨hd, ht', hv'⟩ := (hwork2 d t' v').1 hy
    have hpne : P.parallel ≠ [] := by
      obtain ⟨x, hx⟩ := List.exists_mem_of_ne_nil _ hd
      exact List.ne_nil_of_mem (hasgmem d x hx).1
    simp only at he
    split at he
    · cases he
      exact ⟨ht', hpne, fun _ => hv'⟩
    · rename_i hcond
      have e1 : t' = t := congrArg Prod.fst he
      subst e1
      exact ⟨ht', hpne, fun h => absurd h hcond⟩
  have hmsg_ex : ∀ d t, d < numGpus → P.assigned d ≠ [] → t ∈ P.perGpu ++ P.assigned d →
      ∃ v, (t, v) ∈ queue := by
    intro d t hd hne ht
    obtain ⟨v, hv⟩ := hval t
    have hy := (hwork2 d t v).2 ⟨hne, ht, hv⟩
    refine ⟨(if t ∈ targets ∨ ∃ u ∈ P.trailing, t ∈ G.deps u then v else pyNone), ?_⟩
    rw [hqmem]
    refine ⟨d, hd, ?_⟩
    unfold workerMessages
    refine List.mem_map.2 ⟨(t, v), hy, ?_⟩
    split <;> rfl
  have hq_part : ∀ t v, (t, v) ∈ queue → ¬ Leads G F t ∧ ¬ Trails G F t := by
    intro t v h
    obtain ⟨d, _, hm⟩ := (hqmem t v).1 h
    rcases List.mem_append.1 (hmsg d t v hm).1 with h | h
    · exact ⟨hper_nl t ((hG t).1 h), hper_nt t ((hG t).1 h)⟩
    · have := (hP t).1 (hasgmem d t h).1
      exact ⟨this.2.1, this.1⟩
  have hq_val : ∀ t v, (t, v) ∈ queue → (t ∈ targets ∨ ∃ u ∈ P.trailing, t ∈ G.deps u) →
      Eval G exec (fun _ => none) t v := by
    intro t v h hw
    obtain ⟨d, _, hm⟩ := (hqmem t v).1 h
    exact (hmsg d t v hm).2.2 hw
  have hq_ex : ∀ t, P.parallel ≠ [] → ¬ Leads G F t → ¬ Trails G F t → ∃ v, (t, v) ∈ queue := by
    intro t hpne hnl hnt
    cases hp : F.perGpu t with
    | false =>
      obtain ⟨d, hd, htd⟩ := hasg t ((hP t).2 ⟨hnt, hnl, hp⟩)
      exact hmsg_ex d t hd (List.ne_nil_of_mem htd) (List.mem_append_right _ htd)
    | true =>
      obtain ⟨x, hx⟩ := List.exists_mem_of_ne_nil _ hpne
      obtain ⟨d, hd, hxd⟩ := hasg x hx
      exact hmsg_ex d t hd (List.ne_nil_of_mem hxd) (List.mem_append_left _ ((hG t).2 hp))
  set res : Fin n → Option V := collect snap queue with hres
  have hres_lead : ∀ t, Leads G F t → res t = snap t := by
    intro t hl
    exact collect_of_not_mem _ _ _ (fun v hv => (hq_part t v hv).1 hl)
  have hres_trail : ∀ t, Trails G F t → res t = snap t := by
    intro t hl
    exact collect_of_not_mem _ _ _ (fun v hv => (hq_part t v hv).2 hl)
  have hres_val : ∀ t v, (t ∈ targets ∨ ∃ u ∈ P.trailing, t ∈ G.deps u) → res t = some v →
      Eval G exec (fun _ => none) t v := by
    intro t v hw h
    rcases collect_some _ _ _ _ h with h | ⟨h, _⟩
    · exact hq_val t v h hw
    · exact ((hsnap t v).1 h).2
  have hq_nil : P.parallel = [] → ∀ t, res t = snap t := by
    intro hp t
    refine collect_of_not_mem _ _ _ (fun v hv => ?_)
    obtain ⟨d, _, hm⟩ := (hqmem t v).1 hv
    exact (hmsg d t v hm).2.1 hp
  -- trailing phase
  have htrail : ∃ trail, trailingRun P G exec popT res = some (trail, .finished) ∧
      (∀ t v, (t, v) ∈ yields trail ↔ t ∈ P.trailing ∧ res t = none ∧
        Eval G exec (fun _ => none) t v) := by
    by_cases hp : P.parallel = []
    · obtain ⟨trail, h1, h2, _⟩ := phase_spec B hnr popT P.trailing P.trailing.isEmpty (by simp)
        res (fun _ => True) (fun _ _ => trivial) (fun _ _ _ _ _ => trivial) (by
          intro t v _ h
          rw [hq_nil hp t] at h
          exact ((hsnap t v).1 h).2)
      exact ⟨trail, h1, h2⟩
    · obtain ⟨trail, h1, h2, _⟩ := phase_spec B hnr popT P.trailing P.trailing.isEmpty (by simp)
        res (fun t => Trails G F t ∨ ∃ u ∈ P.trailing, t ∈ G.deps u)
        (fun t ht => Or.inl ((hT t).1 ht))
        (by
          rintro t (ht | ⟨u, hu, htu⟩) hnone d hd
          · exact Or.inr ⟨t, (hT t).2 ht, hd⟩
          · by_cases htr : Trails G F t
            · exact Or.inr ⟨t, (hT t).2 htr, hd⟩
            · exfalso
              by_cases hl : Leads G F t
              · obtain ⟨v, hv⟩ := hval t
                rw [hres_lead t hl, (hsnap t v).2 ⟨(hL t).2 hl, hv⟩] at hnone
                cases hnone
              · obtain ⟨v, hv⟩ := hq_ex t hp hl htr
                obtain ⟨w, hw⟩ := collect_isSome snap queue t v hv
                rw [← hres, hnone] at hw; cases hw)
        (by
          rintro t v (ht | hdep) h
          · rw [hres_trail t ht] at h
            exact ((hsnap t v).1 h).2
          · exact hres_val t v (Or.inr hdep) h)
      exact ⟨trail, h1, h2⟩
  obtain ⟨trail, htr1, htr2⟩ := htrail
  refine ⟨trail, htr1, ?_⟩
  -- final results
  have hyf : ∀ t v, (t, v) ∈ (yields trail).filter (fun y => y.1 ∈ targets) ↔
      t ∈ targets ∧ t ∈ P.trailing ∧ res t = none ∧ Eval G exec (fun _ => none) t v := by
    intro t v
    rw [List.mem_filter, htr2]
    simp only [decide_eq_true_eq]
    tauto
  have sound : ∀ t v, t ∈ targets → finalResults targets res trail t = some v →
      Eval G exec (fun _ => none) t v := by
    intro t v ht h
    rcases collect_some _ _ _ _ h with h | ⟨h, _⟩
    · exact ((hyf t v).1 h).2.2.2
    · exact hres_val t v (Or.inl ht) h
  have isSome : ∀ t ∈ targets, ∃ v, finalResults targets res trail t = some v := by
    intro t ht
    obtain ⟨v, hv⟩ := hval t
    cases hr : res t with
    | some w =>
      by_cases hy : ∃ x, (t, x) ∈ (yields trail).filter (fun y => y.1 ∈ targets)
      · obtain ⟨x, hx⟩ := hy
        exact collect_isSome _ _ _ _ hx
      · push Not at hy
        exact ⟨w, by rw [finalResults, collect_of_not_mem _ _ _ hy, hr]⟩
    | none =>
      have htrl : Trails G F t := by
        by_contra hnt
        by_cases hl : Leads G F t
        · rw [hres_lead t hl, (hsnap t v).2 ⟨(hL t).2 hl, hv⟩] at hr
          cases hr
        · by_cases hp : P.parallel = []
          · have : t ∉ P.parallel := by rw [hp]; simp
            have hper : F.perGpu t = true := by
              by_contra hper
              exact this ((hP t).2 ⟨hnt, hl, by simpa using hper⟩)
            rcases hdup with h | h
            · exact h hp
            · rw [h t ht] at hper; cases hper
          · obtain ⟨x, hx⟩ := hq_ex t hp hl hnt
            obtain ⟨w, hw⟩ := collect_isSome snap queue t x hx
            rw [← hres, hr] at hw; cases hw
      exact collect_isSome _ _ _ _ ((hyf t v).2 ⟨ht, (hT t).2 htrl, hr, hv⟩)
  intro t v
  constructor
  · rintro ⟨ht, h⟩
    exact ⟨ht, sound t v ht h⟩
  · rintro ⟨ht, hv⟩
    obtain ⟨w, hw⟩ := isSome t ht
    refine ⟨ht, ?_⟩
    rw [hw, (sound t w ht hw).det hv]

/-- **C07**, compared with the single-threaded executor: same hypotheses, the pairs yielded are those of
`Executor(targets).run()`. -/
theorem C07_same_as_executor_partial [Nonempty V]
    (B : Built G F targets ordered trailing islands numGpus P)
    (hnr : NeverRaises G exec (fun _ => none) targets) (pyNone : V)
    (hdup : P.parallel ≠ [] ∨ ∀ t ∈ targets, F.perGpu t = false)
    (pop popL popT : PopOracle n) (popW : Nat → PopOracle n) :
    ∃ single, Executor.run G exec pop targets (fun _ => none) = some (single, .finished) ∧
    ∃ lead, leadingRun P G exec popL = some (lead, .finished) ∧
    ∃ work : Nat → List (Event n V),
      (∀ d, workerRun P G exec (popW d) (collect (fun _ => none) (yields lead)) d =
        some (work d, .finished)) ∧
    ∀ queue, Interleave ((List.range numGpus).map
        (fun d => workerMessages P G targets pyNone (work d))) queue →
    ∃ trail, trailingRun P G exec popT (collect (collect (fun _ => none) (yields lead)) queue) =
        some (trail, .finished) ∧
      ∀ t v, Yielded targets (finalResults targets
          (collect (collect (fun _ => none) (yields lead)) queue) trail) t v ↔
        (t, v) ∈ yields single := by
  obtain ⟨single, hs, hy, _⟩ := C01_executor_value G exec pop targets (fun _ => none)
    (B.acyclic _ _) hnr
  obtain ⟨lead, h1, work, h2, _, h3⟩ := C07_equals_single_partial B hnr pyNone hdup popL popT popW
  refine ⟨single, hs, lead, h1, work, h2, ?_⟩
  intro queue hq
  obtain ⟨trail, h4, h5⟩ := h3 queue hq
  refine ⟨trail, h4, ?_⟩
  intro t v
  rw [h5, hy]
  simp

/-- A task that is neither leading nor trailing and whose result is not collected is not in the final results. -/
theorem not_yielded [Nonempty V]
    (B : Built G F targets ordered trailing islands numGpus P) (popL popT : PopOracle n)
    (lead : List (Event n V)) (ol ot : Outcome n E) (hl : leadingRun P G exec popL = some (lead, ol))
    (consumed : List (Fin n × V)) (trail : List (Event n V))
    (htr : trailingRun P G exec popT (collect (collect (fun _ => none) (yields lead)) consumed) =
      some (trail, ot))
    (t : Fin n) (hnl : ¬ Leads G F t) (hnt : ¬ Trails G F t) (hlost : ∀ v, (t, v) ∉ consumed) :
    ∀ v, ¬ Yielded targets (finalResults targets
      (collect (collect (fun _ => none) (yields lead)) consumed) trail) t v := by
  obtain ⟨hL, hT, hG, hP, _⟩ := B.construct_inv
  rintro v ⟨_, h⟩
  rcases collect_some _ _ _ _ h with h | ⟨h, _⟩
  · have hy : (t, v) ∈ yields trail := (List.mem_filter.1 h).1
    unfold trailingRun phaseRun at htr
    split at htr
    · cases htr; simp [yields] at hy
    · obtain ⟨tr', o, hr, hyy, _⟩ := C01_executor_exceptions G exec popT P.trailing
        (collect (collect (fun _ => none) (yields lead)) consumed) (B.acyclic _ _)
      rw [htr] at hr
      cases hr
      exact hnt ((hT t).1 (hyy t v hy).1)
  · rw [collect_of_not_mem _ _ _ hlost] at h
    rcases collect_some _ _ _ _ h with h | ⟨h, _⟩
    · unfold leadingRun phaseRun at hl
      split at hl
      · cases hl; simp [yields] at h
      · obtain ⟨tr', o, hr, hyy, _⟩ := C01_executor_exceptions G exec popL P.leading
          (fun _ => none) (B.acyclic _ _)
        rw [hl] at hr
        cases hr
        exact hnl ((hL t).1 (hyy t v h).1)
    · cases h

/-- The draining loop (multigpu_executor.py:153-161) stops as soon as it sees the completion signal, so
only a prefix of the queue need be collected.  A target of the parallel phase whose message is not in that prefix
is not yielded at all. -/
theorem C07_result_lost [Nonempty V]
    (B : Built G F targets ordered trailing islands numGpus P) (popL popT : PopOracle n)
    (lead : List (Event n V)) (ol ot : Outcome n E) (hl : leadingRun P G exec popL = some (lead, ol))
    (consumed : List (Fin n × V)) (trail : List (Event n V))
    (htr : trailingRun P G exec popT (collect (collect (fun _ => none) (yields lead)) consumed) =
      some (trail, ot))
    (t : Fin n) (ht : t ∈ P.parallel) (hlost : ∀ v, (t, v) ∉ consumed) :
    ∀ v, ¬ Yielded targets (finalResults targets
      (collect (collect (fun _ => none) (yields lead)) consumed) trail) t v := by
  obtain ⟨hL, hT, hG, hP, _⟩ := B.construct_inv
  have hpt := (hP t).1 ht
  exact not_yielded B popL popT lead ol ot hl consumed trail htr t hpt.2.1 hpt.1 hlost

/-- With no parallel task there are no workers, so a per-device task that is a target is never run and never
yielded. -/
theorem C07_per_device_target_lost [Nonempty V]
    (B : Built G F targets ordered trailing islands numGpus P) (hp : P.parallel = [])
    (t : Fin n) (ht : F.perGpu t = true) :
    (∀ d popW snap, workerRun P G exec popW snap d = some ([], .finished)) ∧
    ∀ (popL popT : PopOracle n) (lead trail : List (Event n V)) (ol ot : Outcome n E),
      leadingRun P G exec popL = some (lead, ol) →
      trailingRun P G exec popT (collect (collect (fun _ => none) (yields lead)) []) = some (trail, ot) →
      ∀ v, ¬ Yielded targets (finalResults targets
        (collect (collect (fun _ => none) (yields lead)) []) trail) t v := by
  obtain ⟨hL, hT, hG, hP, hPm, hGm, _⟩ := B.construct_inv
  obtain ⟨_, hasgmem⟩ := B.assigned_iff
  have hm := hGm t ((hG t).2 ht)
  refine ⟨?_, ?_⟩
  · intro d popW snap
    have : P.assigned d = [] := by
      apply List.eq_nil_iff_forall_not_mem.2
      intro x hx
      have := (hasgmem d x hx).1
      rw [hp] at this; cases this
    simp [workerRun, phaseRun, this]
  · intro popL popT lead trail ol ot hl htr
    refine not_yielded B popL popT lead ol ot hl [] trail htr t ?_ ?_ (by simp)
    · intro h; cases h with | mk h _ => rw [h] at hm; cases hm
    · intro h; cases h with | mk h _ => rw [h] at hm; cases hm

end Run

/-! ## Concrete cases -/

/-- A merge in small: `0` (load, main thread) feeds `1` and `2` (merges), `3` (save, main thread) uses both;
`4` is a per-device task used by `1`. -/
def pipeline : TaskGraph 5 where
  args t := if t = 1 then [("x", 0), ("p", 4)] else if t = 2 then [("x", 0)]
    else if t = 3 then [("a", 1), ("b", 2)] else []
  group _ := ""
  prio _ := 0

def pipelineFlags : Flags 5 where
  mainOnly t := t = 0 || t = 3
  perGpu t := t = 4

def pipelinePlan : Plan 5 where
  leading := [0]
  trailing := [3]
  perGpu := [4]
  parallel := [1, 2]
  assigned d := if d = 0 then [1] else if d = 1 then [2] else []
  numGpus := 2

theorem eqvGen_empty {α : Type} {r : α → α → Prop} (h : ∀ a b, ¬ r a b) {a b : α}
    (e : Relation.EqvGen r a b) : a = b := by
  induction e with
  | rel _ _ h' => exact absurd h' (h _ _)
  | refl _ => rfl
  | symm _ _ _ ih => exact ih.symm
  | trans _ _ _ _ _ ih1 ih2 => exact ih1.trans ih2

/-- Building a schedule from a checkable criterion. -/
theorem isSchedule_of_check (s : List (Fin n)) (targets : List (Fin n)) (hn : s.Nodup)
    (hall : ∀ t, Needed G (fun _ => false) targets t) (hmem : ∀ t, t ∈ s)
    (hord : ∀ i : Fin s.length, ∀ d ∈ G.deps s[i], d ∈ s.take i) :
    IsSchedule G (fun _ => false) targets s := by
  refine ⟨hn, fun t => ⟨fun _ => hall t, fun _ => hmem t⟩, ?_⟩
  rintro p t q rfl d hd
  left
  have := hord ⟨p.length, by simp⟩ d (by simpa using hd)
  simpa using this

theorem trailStep_eq {s s' s'' : TrailState n} (h : TrailStep G F s s') (h1 : s'.trailing = s''.trailing)
    (h2 : s'.toExplore = s''.toExplore) : TrailStep G F s s'' := by
  have : s' = s'' := by cases s'; cases s''; simp_all
  exact this ▸ h

theorem pipeline_needed (t : Fin 5) : Needed pipeline (fun _ => false) [3, 2] t := by
  have n3 : Needed pipeline (fun _ => false) [3, 2] 3 := .target (by simp) rfl
  have n1 : Needed pipeline (fun _ => false) [3, 2] 1 := .dep n3 (by decide) rfl
  have n2 : Needed pipeline (fun _ => false) [3, 2] 2 := .dep n3 (by decide) rfl
  have n0 : Needed pipeline (fun _ => false) [3, 2] 0 := .dep n1 (by decide) rfl
  have n4 : Needed pipeline (fun _ => false) [3, 2] 4 := .dep n1 (by decide) rfl
  fin_cases t <;> assumption

/-- The pipeline on two devices, targets `3` and `2`. -/
theorem pipeline_built : Built pipeline pipelineFlags [3, 2] [0, 4, 1, 2, 3] {3} [[1], [2]] 2 pipelinePlan where
  all := pipeline_needed
  sched := isSchedule_of_check _ _ (by decide) pipeline_needed (by decide) (by decide)
  trail := by
    unfold IsTrailing
    refine .head (b := ⟨{3}, {1, 2}⟩) (trailStep_eq (.add (t := 3) (by decide) (by decide) (by decide))
      (by decide) (by decide)) ?_
    refine .head (b := ⟨{3}, {2}⟩) (trailStep_eq (.skip (t := 1) (by decide) (by decide))
      (by decide) (by decide)) ?_
    exact .single (trailStep_eq (.skip (t := 2) (by decide) (by decide)) (by decide) (by decide))
  comps := by
    have hp : parallelTasks pipelineFlags [0, 4, 1, 2, 3] (findLeading pipeline pipelineFlags [0, 4, 1, 2, 3]) {3}
        = [1, 2] := by decide
    rw [hp]
    refine ⟨by decide, by decide, by decide, ?_⟩
    have hl : ∀ a b, ¬ Linked pipeline [1, 2] a b := by unfold Linked; decide
    intro isl hi a ha b
    have hs : ∀ isl ∈ [[1], [(2 : Fin 5)]], ∀ a ∈ isl, isl = [a] ∧ a ∈ [1, (2 : Fin 5)] := by decide
    obtain ⟨rfl, h2⟩ := hs isl hi a ha
    constructor
    · intro hb
      rw [List.mem_singleton] at hb
      subst hb
      exact ⟨h2, .refl _⟩
    · rintro ⟨_, e⟩
      rw [eqvGen_empty hl e]
      exact List.mem_singleton.2 rfl
  ok := by
    have hf : findLeading pipeline pipelineFlags [0, 4, 1, 2, 3] = {0} := by decide
    simp only [construct, hf]
    rw [if_neg (by decide), if_neg (by decide)]
    have ha : assignIslands 2 [[1], [2]] (fun _ => ([] : List (Fin 5))) =
        .ok pipelinePlan.assigned := by
      have e : pipelinePlan.assigned =
          Function.update (Function.update (fun _ : Nat => ([] : List (Fin 5))) 0 [1]) 1 [2] := by
        funext d
        by_cases h0 : d = 0
        · subst h0; rfl
        · by_cases h1 : d = 1
          · subst h1; rfl
          · simp [Function.update, h0, h1, pipelinePlan]
      rw [e]; rfl
    rw [ha]
    rfl

/-- Semantics for the pipeline: sum of the arguments plus one. -/
def pipelineExec : Fin 5 → List (String × Nat) → Except String Nat :=
  fun _ as => .ok ((as.map Prod.snd).sum + 1)

/-- Non-vacuity of C07: the hypotheses hold of the pipeline (which has all four kinds of tasks). -/
example : NeverRaises pipeline pipelineExec (fun _ => none) [3, 2] ∧
    pipelinePlan.parallel ≠ [] := ⟨fun t vals _ _ => ⟨_, rfl⟩, by decide⟩

example (popL popT : PopOracle 5) (popW : Nat → PopOracle 5) := C07_equals_single_partial pipeline_built
  (exec := pipelineExec) (fun t vals _ _ => ⟨_, rfl⟩) 0 (Or.inl (by decide)) popL popT popW

/-- A main-thread task between two parallel ones cannot be placed: construction fails. -/
example : ∃ (G : TaskGraph 3) (F : Flags 3), (∀ t, Needed G (fun _ => false) [2] t) ∧
    ∃ t, F.mainOnly t = true ∧ ¬ Leads G F t ∧ ¬ Trails G F t := by
  let G : TaskGraph 3 := ⟨fun t => if t = 1 then [("x", 0)] else if t = 2 then [("x", 1)] else [],
    fun _ => "", fun _ => 0⟩
  have n2 : Needed G (fun _ => false) [2] 2 := .target (by simp) rfl
  have n1 : Needed G (fun _ => false) [2] 1 := .dep n2 (by decide) rfl
  have n0 : Needed G (fun _ => false) [2] 0 := .dep n1 (by decide) rfl
  refine ⟨G, ⟨fun t => t = 1, fun _ => false⟩, ?_, 1, rfl, ?_, ?_⟩
  · intro t; fin_cases t <;> assumption
  · intro h
    cases h with
    | mk _ h =>
      have := h 0 (by decide)
      cases this with | mk h _ => cases h
  · intro h
    cases h with
    | mk _ h =>
      have := h 2 (by decide)
      cases this with | mk h _ => cases h

/-- **C08**: the two main-thread phases may overlap - an isolated main-thread task is leading and trailing. -/
theorem C08_overlap_possible : ∃ (G : TaskGraph 1) (F : Flags 1) (P : Plan 1),
    Built G F [0] [0] {0} [] 1 P ∧ (0 : Fin 1) ∈ P.leading ∧ (0 : Fin 1) ∈ P.trailing := by
  let G : TaskGraph 1 := ⟨fun _ => [], fun _ => "", fun _ => 0⟩
  let F : Flags 1 := ⟨fun _ => true, fun _ => false⟩
  have hn : ∀ t, Needed G (fun _ => false) [0] t := by
    intro t; fin_cases t; exact .target (by simp) rfl
  refine ⟨G, F, ⟨[0], [0], [], [], fun _ => [], 1⟩, ⟨hn, ?_, ?_, ?_, ?_⟩, by simp, by simp⟩
  · exact isSchedule_of_check _ _ (by decide) hn (by decide) (by decide)
  · exact .single (trailStep_eq (.add (t := 0) (by decide) (by decide) (by decide)) (by decide) (by decide))
  · have : parallelTasks F [0] (findLeading G F [0]) {0} = [] := by decide
    rw [this]
    exact ⟨by simp, by simp, by simp, by simp⟩
  · rfl

/-- A chain `0 → 1 → 2` whose last task runs on the main thread. -/
def chain : TaskGraph 3 where
  args t := if t = 1 then [("x", 0)] else if t = 2 then [("x", 1)] else []
  group _ := ""
  prio _ := 0

def chainPlan : Plan 3 where
  leading := []
  trailing := [2]
  perGpu := []
  parallel := [0, 1]
  assigned d := if d = 0 then [0, 1] else []
  numGpus := 1

theorem chain_needed (t : Fin 3) : Needed chain (fun _ => false) [2] t := by
  have n2 : Needed chain (fun _ => false) [2] 2 := .target (by simp) rfl
  have n1 : Needed chain (fun _ => false) [2] 1 := .dep n2 (by decide) rfl
  have n0 : Needed chain (fun _ => false) [2] 0 := .dep n1 (by decide) rfl
  fin_cases t <;> assumption

theorem chain_built : Built chain ⟨fun t => t = 2, fun _ => false⟩ [2] [0, 1, 2] {2} [[0, 1]] 1 chainPlan where
  all := chain_needed
  sched := isSchedule_of_check _ _ (by decide) chain_needed (by decide) (by decide)
  trail := by
    unfold IsTrailing
    refine .head (b := ⟨{2}, {1}⟩) (trailStep_eq (.add (t := 2) (by decide) (by decide) (by decide))
      (by decide) (by decide)) ?_
    exact .single (trailStep_eq (.skip (t := 1) (by decide) (by decide)) (by decide) (by decide))
  comps := by
    have hp : parallelTasks (n := 3) ⟨fun t => t = 2, fun _ => false⟩ [0, 1, 2]
        (findLeading chain ⟨fun t => t = 2, fun _ => false⟩ [0, 1, 2]) {2} = [0, 1] := by decide
    rw [hp]
    refine ⟨by decide, by decide, by decide, ?_⟩
    have h01 : Linked chain [0, 1] 0 1 := by unfold Linked; decide
    intro isl hi a ha b
    rw [List.mem_singleton] at hi
    subst hi
    refine ⟨fun hb => ⟨hb, ?_⟩, fun h => h.1⟩
    simp only [List.mem_cons, List.not_mem_nil, or_false] at ha hb
    rcases ha with rfl | rfl <;> rcases hb with rfl | rfl
    · exact .refl _
    · exact .rel _ _ h01
    · exact .symm _ _ (.rel _ _ h01)
    · exact .refl _
  ok := by
    have hf : findLeading chain ⟨fun t => t = 2, fun _ => false⟩ [0, 1, 2] = ∅ := by decide
    simp only [construct, hf]
    rw [if_neg (by decide), if_neg (by decide)]
    have ha : assignIslands 1 [[0, 1]] (fun _ => ([] : List (Fin 3))) =
        .ok chainPlan.assigned := by
      have e : chainPlan.assigned =
          Function.update (fun _ : Nat => ([] : List (Fin 3))) 0 [0, 1] := by
        funext d
        by_cases h0 : d = 0
        · subst h0; rfl
        · simp [Function.update, h0, chainPlan]
      rw [e]; rfl
    rw [ha]
    rfl

/-- `0 ↦ 1`, `1 ↦ x + 1`, `2 ↦ x`. -/
def chainExec : Fin 3 → List (String × Nat) → Except String Nat :=
  fun t as => if t = 2 then .ok (as.map Prod.snd).sum else .ok ((as.map Prod.snd).sum + 1)

theorem chain_lt : ∀ t, ∀ d ∈ chain.deps t, d < t := by decide

theorem chain_eval : Eval chain chainExec (fun _ => none) 0 1 ∧ Eval chain chainExec (fun _ => none) 1 2 ∧
    Eval chain chainExec (fun _ => none) 2 2 := by
  have e0 : Eval chain chainExec (fun _ => none) 0 1 :=
    .exec (fun _ => 0) rfl (by simp [TaskGraph.deps, chain]) rfl
  have e1 : Eval chain chainExec (fun _ => none) 1 2 :=
    .exec (fun _ => 1) rfl (by simp [TaskGraph.deps, chain]; exact e0) rfl
  exact ⟨e0, e1, .exec (fun _ => 2) rfl (by simp [TaskGraph.deps, chain]; exact e1) rfl⟩

theorem chain_nr (cached : Fin 3 → Option Nat) (ts : List (Fin 3)) : NeverRaises chain chainExec cached ts := by
  intro t vals _ _
  unfold chainExec
  split <;> exact ⟨_, rfl⟩

/-- **C07**, the race: worker 0 has put `(0, None)` and `(1, 2)` on the queue, the completion signal comes
when only `(0, None)` has been collected.  The trailing executor then recomputes task `1` from `None` (here `0`) and
the run yields `1` for target `2`, whose value is `2`. -/
theorem C07_wrong_value (popW popT : PopOracle 3) : ∃ work : List (Event 3 Nat),
    workerRun chainPlan chain chainExec popW (fun _ => none) 0 = some (work, .finished) ∧
    ∃ consumed, consumed <+: workerMessages chainPlan chain [2] 0 work ∧
    ∃ trail, trailingRun chainPlan chain chainExec popT (collect (fun _ => none) consumed) =
        some (trail, .finished) ∧
      Yielded [2] (finalResults [2] (collect (fun _ => none) consumed) trail) 2 1 ∧
      Eval chain chainExec (fun _ => none) 2 2 := by
  obtain ⟨s, ⟨work, o⟩, hr, hsch, g⟩ := run_exists chain chainExec popW [0, 1] (fun _ => none)
    (acyclic_of_lt _ _ _ chain_lt)
  have ho : o = .finished := by
    rcases g.outcome with h | ⟨t, e, vals, ht, ho, hv, he⟩
    · exact h.1
    · obtain ⟨v, hv'⟩ := chain_nr _ _ t vals ((hsch.mem t).1 ht) hv
      rw [hv'] at he; cases he
  subst ho
  have hmem : ∀ t, t ∈ s ↔ t ∈ [0, (1 : Fin 3)] := by
    intro t
    rw [hsch.mem]
    constructor
    · intro h
      induction h with
      | target h _ => exact h
      | @dep t d _ hd _ ih =>
        have key : ∀ t d, d ∈ chain.deps t → t ∈ [0, (1 : Fin 3)] → d ∈ [0, (1 : Fin 3)] := by decide
        exact key t d hd ih
    · intro h; exact .target h rfl
  have hs : s = [0, 1] := by
    have hp : s.Perm [0, 1] := (List.perm_ext_iff_of_nodup hsch.nodup (by decide)).2 hmem
    have hall : s = [0, 1] ∨ s = [1, 0] := by
      have hlen := hp.length_eq
      match s, hlen, hmem, hsch.nodup with
      | [a, b], _, hm, hn =>
        have key : ∀ a b : Fin 3, a ∈ [0, (1 : Fin 3)] → b ∈ [0, (1 : Fin 3)] → [a, b].Nodup →
            [a, b] = [0, 1] ∨ [a, b] = [1, 0] := by decide
        exact key a b ((hm a).1 (by simp)) ((hm b).1 (by simp)) hn
    rcases hall with h | h
    · exact h
    · exfalso
      have := hsch.ordered [] 1 [0] h 0 (by decide)
      simp at this
  have hy := g.yields_eq rfl
  obtain ⟨e0, e1, e2⟩ := chain_eval
  have hw : yields work = [(0, 1), (1, 2)] := by
    rw [hs] at hy
    have hf : [0, (1 : Fin 3)].filter (· ∈ [0, (1 : Fin 3)]) = [0, 1] := by decide
    rw [hf] at hy
    have hev := g.yields_eval
    match hyw : yields work with
    | [] => rw [hyw] at hy; cases hy
    | [_] => rw [hyw] at hy; simp at hy
    | _ :: _ :: _ :: _ => rw [hyw] at hy; simp at hy
    | [(a, x), (b, y)] =>
      rw [hyw] at hy
      simp only [List.map_cons, List.map_nil, List.cons.injEq, and_true] at hy
      obtain ⟨rfl, rfl⟩ := hy
      rw [(hev 0 x (by simp [hyw])).det e0, (hev 1 y (by simp [hyw])).det e1]
  refine ⟨work, hr, [(0, 0)], ?_, ?_⟩
  · unfold workerMessages
    rw [hw]
    exact ⟨[(1, 2)], by decide⟩
  · obtain ⟨trail, h1, h2, _⟩ := C01_executor_value chain chainExec popT [2]
      (collect (fun _ => none) [(0, 0)]) (acyclic_of_lt _ _ _ chain_lt) (chain_nr _ _)
    refine ⟨trail, h1, ⟨by simp, ?_⟩, e2⟩
    have c0 : Eval chain chainExec (collect (fun _ => none) [(0, 0)]) 0 0 := .cached rfl
    have c1 : Eval chain chainExec (collect (fun _ => none) [(0, 0)]) 1 1 :=
      .exec (fun _ => 0) rfl (by simp [TaskGraph.deps, chain]; exact c0) rfl
    have c2 : Eval chain chainExec (collect (fun _ => none) [(0, 0)]) 2 1 :=
      .exec (fun _ => 1) rfl (by simp [TaskGraph.deps, chain]; exact c1) rfl
    have hin : (2, 1) ∈ (yields trail).filter (fun y => y.1 ∈ [(2 : Fin 3)]) :=
      List.mem_filter.2 ⟨(h2 2 1).2 ⟨by simp, rfl, c2⟩, by simp⟩
    obtain ⟨w, hw'⟩ := collect_isSome (collect (fun _ => none) [(0, 0)]) _ _ _ hin
    rw [finalResults, hw']
    rcases collect_some _ _ _ _ hw' with h | ⟨h, _⟩
    · rw [((h2 2 w).1 (List.mem_filter.1 h).1).2.2.det c2]
    · simp [collect] at h

end Verif.MultiGPU
