import Verif.Model.WholeMulti
import Verif.Props.MultiGPU

/-! # What a multi-GPU run executes, and in which order -/

set_option linter.unusedSectionVars false
set_option linter.unusedVariables false

namespace Verif.WholeMulti
open Verif.Graph Verif.MultiGPU

variable {n : Nat}

/-! ## Interleavings -/

theorem Interleave.perm {α : Type} {ls : List (List α)} {q : List α} (h : Interleave ls q) : q.Perm ls.flatten := by
  induction h with
  | done h =>
    have : ∀ ls : List (List α), (∀ l ∈ ls, l = []) → ls.flatten = [] := by
      intro ls h
      simpa [List.flatten_eq_nil_iff] using h
    rw [this _ h]
  | @step ls i a rest q hi _ ih =>
    have : ∀ (ls : List (List α)) (i : Nat), ls[i]? = some (a :: rest) → (a :: (ls.set i rest).flatten).Perm ls.flatten := by
      intro ls
      induction ls with
      | nil => intro i h; simp at h
      | cons l ls ih =>
        intro i h
        cases i with
        | zero =>
          simp only [List.getElem?_cons_zero, Option.some.injEq] at h
          subst h
          simp
        | succ i =>
          simp only [List.getElem?_cons_succ] at h
          simp only [List.set_cons_succ, List.flatten_cons]
          refine (List.perm_middle (l₁ := l) (a := a)).symm.trans ?_
          exact (ih i h).append_left l
    exact (ih.cons a).trans (this ls i hi)

/-- A thread's messages keep their order. -/
theorem Interleave.sublist {α : Type} {ls : List (List α)} {q : List α} (h : Interleave ls q) : ∀ l ∈ ls, l.Sublist q := by
  induction h with
  | done h => intro l hl; rw [h l hl]
  | @step ls i a rest q hi _ ih =>
    intro l hl
    obtain ⟨j, hj⟩ := List.getElem?_of_mem hl
    have hil : i < ls.length := by
      by_contra hn; rw [List.getElem?_eq_none (by omega)] at hi; cases hi
    by_cases hji : j = i
    · subst hji
      rw [hi] at hj
      cases hj
      exact (ih rest (List.mem_iff_getElem?.2 ⟨j, by simp [hil]⟩)).cons_cons a
    · exact (ih l (List.mem_iff_getElem?.2 ⟨j, by rw [List.getElem?_set_ne (fun h => hji h.symm)]; exact hj⟩)).cons a

/-- Messages can always be interleaved. -/
theorem Interleave.exists {α : Type} (ls : List (List α)) : ∃ q, Interleave ls q := by
  suffices h : ∀ k (ls : List (List α)), ls.flatten.length = k → ∃ q, Interleave ls q from h _ ls rfl
  intro k
  induction k with
  | zero =>
    intro ls h
    refine ⟨[], .done ?_⟩
    have : ls.flatten = [] := List.length_eq_zero_iff.1 h
    simpa [List.flatten_eq_nil_iff] using this
  | succ k ih =>
    intro ls h
    have hne : ls.flatten ≠ [] := by intro h0; rw [h0] at h; simp at h
    have : ∃ l ∈ ls, l ≠ [] := by
      by_contra hn
      push Not at hn
      exact hne (by simpa [List.flatten_eq_nil_iff] using hn)
    obtain ⟨l, hl, hne⟩ := this
    obtain ⟨i, hi⟩ := List.getElem?_of_mem hl
    cases l with
    | nil => exact absurd rfl hne
    | cons a rest =>
      have hlen : (ls.set i rest).flatten.length = k := by
        have : ∀ (ls : List (List α)) (i : Nat), ls[i]? = some (a :: rest) →
            (ls.set i rest).flatten.length + 1 = ls.flatten.length := by
          intro ls
          induction ls with
          | nil => intro i h; simp at h
          | cons l ls ih =>
            intro i h
            cases i with
            | zero =>
              simp only [List.getElem?_cons_zero, Option.some.injEq] at h
              subst h
              simp
            | succ i =>
              simp only [List.getElem?_cons_succ] at h
              have := ih i h
              simp only [List.set_cons_succ, List.flatten_cons, List.length_append]
              omega
        have := this ls i hi
        omega
      obtain ⟨q, hq⟩ := ih _ hlen
      exact ⟨a :: q, .step hi hq⟩

/-! ## Components exist -/

theorem components_exist (G : TaskGraph n) (parallel : List (Fin n)) (hn : parallel.Nodup) :
    ∃ islands, IsComponents G parallel islands := by
  classical
  let R := Relation.EqvGen (Linked G parallel)
  let cls : Fin n → List (Fin n) := fun a => parallel.filter (fun b => decide (R a b))
  have heq : ∀ a b, R a b → cls a = cls b := by
    intro a b h
    apply List.filter_congr
    intro x _
    have : R a x ↔ R b x := ⟨fun hx => .trans _ _ _ (.symm _ _ h) hx, fun hx => .trans _ _ _ h hx⟩
    simp [this]
  have hself : ∀ a ∈ parallel, a ∈ cls a := fun a ha => List.mem_filter.2 ⟨ha, by simpa using .refl a⟩
  have hmem : ∀ a b, b ∈ cls a ↔ b ∈ parallel ∧ R a b := by
    intro a b
    simp [cls, List.mem_filter]
  refine ⟨(parallel.map cls).dedup, ?_, ?_, ?_, ?_⟩
  · intro t
    constructor
    · intro ht
      exact ⟨cls t, List.mem_dedup.2 (List.mem_map.2 ⟨t, ht, rfl⟩), hself t ht⟩
    · rintro ⟨isl, hi, ht⟩
      obtain ⟨a, _, rfl⟩ := List.mem_map.1 (List.mem_dedup.1 hi)
      exact ((hmem a t).1 ht).1
  · intro isl hi
    obtain ⟨a, ha, rfl⟩ := List.mem_map.1 (List.mem_dedup.1 hi)
    exact List.ne_nil_of_mem (hself a ha)
  · rw [List.nodup_flatten]
    refine ⟨?_, ?_⟩
    · intro isl hi
      obtain ⟨a, ha, rfl⟩ := List.mem_map.1 (List.mem_dedup.1 hi)
      exact hn.filter _
    · refine (List.nodup_dedup (parallel.map cls)).imp_of_mem ?_
      intro x y hx hy hne
      obtain ⟨a, ha, rfl⟩ := List.mem_map.1 (List.mem_dedup.1 hx)
      obtain ⟨b, hb, rfl⟩ := List.mem_map.1 (List.mem_dedup.1 hy)
      intro z hz hz'
      apply hne
      exact heq a b (.trans _ _ _ ((hmem a z).1 hz).2 (.symm _ _ ((hmem b z).1 hz').2))
  · intro isl hi a ha b
    obtain ⟨c, hc, rfl⟩ := List.mem_map.1 (List.mem_dedup.1 hi)
    rw [heq c a ((hmem c a).1 ha).2]
    exact hmem a b

/-! ## Effects of a phase -/

section
variable {G : TaskGraph n} {F : Flags n} {targets ordered : List (Fin n)}
  {trailing : Finset (Fin n)} {islands : List (List (Fin n))} {numGpus : Nat} {P : Plan n}
  {V E : Type} {exec : Fin n → List (String × V) → Except E V}

theorem effects_mem (trace : List (Event n V)) (t : Fin n) (v : V) :
    (t, v) ∈ effects exec trace ↔ ∃ as, Event.exec t as ∈ trace ∧ exec t as = .ok v := by
  induction trace with
  | nil => simp [effects]
  | cons e l ih =>
    cases e with
    | exec u as =>
      simp only [effects]
      cases hx : exec u as with
      | ok w =>
        simp only [List.mem_cons, ih, Prod.mk.injEq, Event.exec.injEq]
        constructor
        · rintro (⟨rfl, rfl⟩ | ⟨as', h1, h2⟩)
          · exact ⟨as, Or.inl ⟨rfl, rfl⟩, hx⟩
          · exact ⟨as', Or.inr h1, h2⟩
        · rintro ⟨as', (⟨rfl, rfl⟩ | h1), h2⟩
          · rw [hx] at h2; cases h2; exact Or.inl ⟨rfl, rfl⟩
          · exact Or.inr ⟨as', h1, h2⟩
      | error w =>
        simp only [ih, List.mem_cons, Event.exec.injEq]
        constructor
        · rintro ⟨as', h1, h2⟩; exact ⟨as', Or.inr h1, h2⟩
        · rintro ⟨as', (⟨rfl, rfl⟩ | h1), h2⟩
          · rw [hx] at h2; cases h2
          · exact ⟨as', h1, h2⟩
    | yielded u w => simp [effects, ih]
    | held k => simp [effects, ih]

theorem execs_mem (trace : List (Event n V)) (t : Fin n) : t ∈ execs trace ↔ ∃ as, Event.exec t as ∈ trace := by
  induction trace with
  | nil => simp [execs]
  | cons e l ih =>
    cases e with
    | exec u as =>
      simp only [execs, List.mem_cons, ih, Event.exec.injEq]
      constructor
      · rintro (rfl | ⟨as', h⟩)
        · exact ⟨as, Or.inl ⟨rfl, rfl⟩⟩
        · exact ⟨as', Or.inr h⟩
      · rintro ⟨as', (⟨rfl, rfl⟩ | h)⟩
        · exact Or.inl rfl
        · exact Or.inr ⟨as', h⟩
    | yielded u w => simp [execs, ih]
    | held k => simp [execs, ih]

theorem effects_execs (trace : List (Event n V)) (h : ∀ t as, Event.exec t as ∈ trace → ∃ v, exec t as = .ok v) :
    (effects exec trace).map Prod.fst = execs trace := by
  induction trace with
  | nil => rfl
  | cons e l ih =>
    have ih := ih (fun t as hm => h t as (List.mem_cons_of_mem _ hm))
    cases e with
    | exec u as =>
      obtain ⟨v, hv⟩ := h u as List.mem_cons_self
      simp [effects, execs, hv, ih]
    | yielded u w => simpa [effects, execs] using ih
    | held k => simpa [effects, execs] using ih

/-- The executions of one phase started from cached values that are correct on everything it can reach. -/
theorem phase_effects [Nonempty V] (B : Built G F targets ordered trailing islands numGpus P)
    (hnr : NeverRaises G exec (fun _ => none) targets)
    (pop : PopOracle n) (handles : List (Fin n)) (skip : Bool) (hskip : skip = true → handles = [])
    (c : Fin n → Option V) (S : Fin n → Prop) (hin : ∀ t ∈ handles, S t)
    (hS : ∀ t, S t → c t = none → ∀ d ∈ G.deps t, S d)
    (hc : ∀ t v, S t → c t = some v → Eval G exec (fun _ => none) t v)
    (trace : List (Event n V)) (hrun : phaseRun G exec pop handles skip c = some (trace, .finished)) :
    (effects exec trace).map Prod.fst = execs trace ∧ (execs trace).Nodup ∧
      (∀ t, t ∈ execs trace ↔ Needed G (fun k => (c k).isSome) handles t) ∧
      ∀ t v, (t, v) ∈ effects exec trace → Eval G exec (fun _ => none) t v := by
  have hnone : ∀ (t : Fin n), ¬ Needed G (fun k => (c k).isSome) [] t := by
    intro t h
    induction h with
    | target h _ => cases h
    | dep _ _ _ ih => exact ih
  by_cases hs : skip = true
  · have hh := hskip hs
    subst hh
    simp only [phaseRun, hs, if_true, Option.some.injEq, Prod.mk.injEq] at hrun
    rw [← hrun.1]
    refine ⟨rfl, by simp [execs], ?_, by simp [effects]⟩
    intro t
    simp [execs, hnone t]
  · simp only [phaseRun, hs] at hrun
    obtain ⟨s, r, hr, hsch, g⟩ := run_exists G exec pop handles c (B.acyclic _ _)
    have hrun : Executor.run G exec pop handles c = some (trace, .finished) := hrun
    rw [hrun] at hr
    cases hr
    have hex : execs trace = s := by
      rcases g.outcome with h | ⟨t, e, vals, _, h, _⟩
      · exact h.2
      · cases h
    have hSneed : ∀ t, Needed G (fun k => (c k).isSome) handles t → S t := by
      intro t ht
      induction ht with
      | target h _ => exact hin _ h
      | @dep t d ht hd _ ih =>
        have := needed_uncached ht
        exact hS t ih (by simpa using this) d hd
    have key : ∀ t as, Event.exec t as ∈ trace → ∃ v, exec t as = .ok v ∧ Eval G exec (fun _ => none) t v := by
      intro t as hm
      have ht : Needed G (fun k => (c k).isSome) handles t := (hsch.mem t).1 (hex ▸ (execs_mem trace t).2 ⟨as, hm⟩)
      have hct : c t = none := by
        have := needed_uncached ht
        simpa using this
      obtain ⟨vals, hv, rfl⟩ := g.args_eval t as hm
      have hv' : ∀ d ∈ G.deps t, Eval G exec (fun _ => none) d (vals d) :=
        fun d hd => eval_of_cached c S hS hc (hS t (hSneed t ht) hct d hd) (hv d hd)
      obtain ⟨v, hv2⟩ := hnr t vals (B.all t) hv'
      exact ⟨v, hv2, .exec vals rfl hv' hv2⟩
    refine ⟨effects_execs trace (fun t as hm => (key t as hm).imp fun _ h => h.1), hex ▸ hsch.nodup,
      fun t => hex ▸ hsch.mem t, ?_⟩
    intro t v h
    obtain ⟨as, hm, he⟩ := (effects_mem trace t v).1 h
    obtain ⟨w, hw, hev⟩ := key t as hm
    rw [hw] at he
    cases he
    exact hev

/-- Everything a drained run executes: leading tasks first, then the parallel ones in whatever order the threads take, then the trailing ones; every task
exactly once, and each with its value. -/
theorem drained_effects [Nonempty V] (B : Built G F targets ordered trailing islands numGpus P)
    (hnr : NeverRaises G exec (fun _ => none) targets) (none' : V) (hper : ∀ t, F.perGpu t = false)
    (popL popT : PopOracle n) (popW : Nat → PopOracle n) :
    ∃ lead, leadingRun P G exec popL = some (lead, .finished) ∧
    ∃ work : Nat → List (Event n V),
      (∀ d, workerRun P G exec (popW d) (collect (fun _ => none) (yields lead)) d = some (work d, .finished)) ∧
    ∀ queue, Interleave ((List.range numGpus).map (fun d => workerMessages P G targets none' (work d))) queue →
    ∀ writes, Interleave ((List.range numGpus).map (fun d => effects exec (work d))) writes →
    ∃ trail, trailingRun P G exec popT (collect (collect (fun _ => none) (yields lead)) queue) = some (trail, .finished) ∧
      (∀ t v, Yielded targets (finalResults targets (collect (collect (fun _ => none) (yields lead)) queue) trail) t v ↔
        t ∈ targets ∧ Eval G exec (fun _ => none) t v) ∧
      ((effects exec lead ++ writes ++ effects exec trail).map Prod.fst).Nodup ∧
      (∀ t, t ∈ (effects exec lead ++ writes ++ effects exec trail).map Prod.fst) ∧
      (∀ t v, (t, v) ∈ effects exec lead ++ writes ++ effects exec trail → Eval G exec (fun _ => none) t v) ∧
      (∀ t ∈ (effects exec lead).map Prod.fst, t ∈ P.leading) ∧
      (∀ t ∈ writes.map Prod.fst, t ∈ P.parallel) ∧
      (∀ t ∈ (effects exec trail).map Prod.fst, t ∈ P.trailing) := by
  obtain ⟨lead, hlead, work, hwork, hmain, hrest⟩ := C07_equals_single_partial B hnr none' (Or.inr (fun t _ => hper t)) popL popT popW
  obtain ⟨hL, hT, hG, hP, hPm, hGm, hparEq, _, _⟩ := B.construct_inv
  obtain ⟨hasg, hasgmem, hasgnd, hasgclosed, _⟩ := C09_assignment B
  have hGnil : P.perGpu = [] := by
    apply List.eq_nil_iff_forall_not_mem.2
    intro t ht
    have := (hG t).1 ht
    rw [hper t] at this
    cases this
  have hval : ∀ t, ∃ v, Eval G exec (fun _ => none) t v :=
    fun t => eval_exists (fun _ => none) targets (B.acyclic _ _) hnr t (B.all t)
  -- the leading phase
  obtain ⟨lead', hl1, hleadY, _⟩ := phase_spec B hnr popL P.leading P.leading.isEmpty (by simp)
    (fun _ => none) (fun _ => True) (fun _ _ => trivial) (fun _ _ _ _ _ => trivial) (fun t v _ h => by cases h)
  have hll : lead' = lead := by
    have h : phaseRun G exec popL P.leading P.leading.isEmpty (fun _ => none) = some (lead, .finished) := hlead
    rw [hl1] at h
    simpa using h
  subst hll
  have hsnap := snapshot_spec (G := G) (exec := exec) lead' P.leading hleadY hval
  obtain ⟨le1, le2, le3, le4⟩ := phase_effects B hnr popL P.leading P.leading.isEmpty (by simp)
    (fun _ => none) (fun _ => True) (fun _ _ => trivial) (fun _ _ _ _ _ => trivial) (fun t v _ h => by cases h) lead' hlead
  have le5 : ∀ t, t ∈ execs lead' ↔ t ∈ P.leading := by
    intro t
    rw [le3]
    constructor
    · intro h
      induction h with
      | target h _ => exact h
      | @dep t d _ hd _ ih =>
        rw [hL] at ih ⊢
        cases ih with | mk _ h => exact h d hd
    · intro h; exact .target h rfl
  set snap : Fin n → Option V := collect (fun _ => none) (yields lead') with hsnapdef
  have snap_none : ∀ t, ¬ Leads G F t → snap t = none := by
    intro t ht
    cases h : snap t with
    | none => rfl
    | some v => exact absurd ((hL t).1 ((hsnap t v).1 h).1) ht
  have snap_some : ∀ t, Leads G F t → (snap t).isSome = true := by
    intro t ht
    obtain ⟨v, hv⟩ := hval t
    rw [(hsnap t v).2 ⟨(hL t).2 ht, hv⟩]
    rfl
  -- the workers
  have hw : ∀ d, (effects exec (work d)).map Prod.fst = execs (work d) ∧ (execs (work d)).Nodup ∧
      (∀ t, t ∈ execs (work d) ↔ t ∈ P.assigned d) ∧
      (∀ t v, (t, v) ∈ effects exec (work d) → Eval G exec (fun _ => none) t v) ∧
      (∀ t ∈ P.assigned d, ∃ v, (t, v) ∈ yields (work d)) := by
    intro d
    have hrun : phaseRun G exec (popW d) (P.assigned d) (P.assigned d).isEmpty snap = some (work d, .finished) := by
      have := hwork d
      rw [workerRun, hGnil] at this
      exact this
    have a1 : ∀ t ∈ P.assigned d, ¬ Trails G F t := fun t h => ((hP t).1 (hasgmem d t h).1).1
    have a2 : ∀ t, ¬ Trails G F t → snap t = none → ∀ x ∈ G.deps t, ¬ Trails G F x := by
      intro t ht _ x hx hT'
      cases hT' with | mk _ h => exact ht (h t hx)
    have a3 : ∀ t v, ¬ Trails G F t → snap t = some v → Eval G exec (fun _ => none) t v := fun t v _ h => ((hsnap t v).1 h).2
    obtain ⟨w1, w2, w3, w4⟩ := phase_effects B hnr (popW d) (P.assigned d) (P.assigned d).isEmpty (by simp) snap
      (fun t => ¬ Trails G F t) a1 a2 a3 (work d) hrun
    obtain ⟨tr, hr, hy, _⟩ := phase_spec B hnr (popW d) (P.assigned d) (P.assigned d).isEmpty (by simp) snap
      (fun t => ¬ Trails G F t) a1 a2 a3
    rw [hrun] at hr
    cases hr
    refine ⟨w1, w2, ?_, w4, ?_⟩
    · intro t
      rw [w3]
      constructor
      · intro h
        induction h with
        | target h _ => exact h
        | @dep t x _ hx hcx ih =>
          have hnl : ¬ Leads G F x := by
            intro hl
            rw [snap_some x hl] at hcx
            cases hcx
          have hnt : ¬ Trails G F x := a2 t (a1 t ih) (snap_none t ((hP t).1 (hasgmem d t ih).1).2.1) x hx
          exact hasgclosed t x d ih ((hP x).2 ⟨hnt, hnl, hper x⟩) (Or.inr hx)
      · intro h
        refine .target h ?_
        rw [snap_none t ((hP t).1 (hasgmem d t h).1).2.1]
        rfl
    · intro t ht
      obtain ⟨v, hv⟩ := hval t
      exact ⟨v, (hy t v).2 ⟨ht, snap_none t ((hP t).1 (hasgmem d t ht).1).2.1, hv⟩⟩
  refine ⟨lead', hlead, work, hwork, ?_⟩
  intro queue hq writes hwr
  obtain ⟨trail, htr, hyield⟩ := hrest queue hq
  refine ⟨trail, htr, hyield, ?_⟩
  -- what is known after the parallel phase
  set res : Fin n → Option V := collect snap queue with hres
  have hqmem : ∀ t v, (t, v) ∈ queue ↔ ∃ d, d < numGpus ∧ (t, v) ∈ workerMessages P G targets none' (work d) := by
    intro t v
    rw [hq.mem]
    simp only [List.mem_map, List.mem_range]
    constructor
    · rintro ⟨l, ⟨d, hd, rfl⟩, h⟩; exact ⟨d, hd, h⟩
    · rintro ⟨d, hd, h⟩; exact ⟨_, ⟨d, hd, rfl⟩, h⟩
  have hyw : ∀ d t v, (t, v) ∈ yields (work d) → t ∈ P.assigned d ∧ Eval G exec (fun _ => none) t v := by
    intro d t v h
    have hrun : phaseRun G exec (popW d) (P.assigned d) (P.assigned d).isEmpty snap = some (work d, .finished) := by
      have := hwork d
      rw [workerRun, hGnil] at this
      exact this
    obtain ⟨tr, hr, hy, _⟩ := phase_spec B hnr (popW d) (P.assigned d) (P.assigned d).isEmpty (by simp) snap
      (fun t => ¬ Trails G F t) (fun t h => ((hP t).1 (hasgmem d t h).1).1)
      (by
        intro t ht _ x hx hT'
        cases hT' with | mk _ h => exact ht (h t hx))
      (fun t v _ h => ((hsnap t v).1 h).2)
    rw [hrun] at hr
    cases hr
    have := (hy t v).1 h
    exact ⟨this.1, this.2.2⟩
  have hq_par : ∀ t v, (t, v) ∈ queue → t ∈ P.parallel ∧
      ((t ∈ targets ∨ ∃ u ∈ P.trailing, t ∈ G.deps u) → Eval G exec (fun _ => none) t v) := by
    intro t v h
    obtain ⟨d, _, hm⟩ := (hqmem t v).1 h
    unfold workerMessages at hm
    obtain ⟨⟨t', v'⟩, hy, he⟩ := List.mem_map.1 hm
    obtain ⟨ht', hv'⟩ := hyw d t' v' hy
    simp only at he
    split at he
    · cases he
      exact ⟨(hasgmem d _ ht').1, fun _ => hv'⟩
    · rename_i hcond
      have e1 : t' = t := congrArg Prod.fst he
      subst e1
      exact ⟨(hasgmem d _ ht').1, fun h => absurd h hcond⟩
  have hq_ex : ∀ t ∈ P.parallel, ∃ v, (t, v) ∈ queue := by
    intro t ht
    obtain ⟨d, hd, htd, _⟩ := hasg t ht
    obtain ⟨v, hv⟩ := (hw d).2.2.2.2 t htd
    refine ⟨(if t ∈ targets ∨ ∃ u ∈ P.trailing, t ∈ G.deps u then v else none'), ?_⟩
    rw [hqmem]
    refine ⟨d, hd, ?_⟩
    unfold workerMessages
    refine List.mem_map.2 ⟨(t, v), hv, ?_⟩
    split <;> rfl
  have hres_lead : ∀ t, ¬ t ∈ P.parallel → res t = snap t :=
    fun t hl => collect_of_not_mem _ _ _ (fun v hv => hl (hq_par t v hv).1)
  have hres_par : ∀ t ∈ P.parallel, (res t).isSome = true := by
    intro t ht
    obtain ⟨v, hv⟩ := hq_ex t ht
    obtain ⟨w, hw⟩ := collect_isSome snap queue t v hv
    rw [← hres] at hw
    rw [hw]
    rfl
  -- the trailing phase
  have b1 : ∀ t ∈ P.trailing, Trails G F t ∨ ∃ u ∈ P.trailing, t ∈ G.deps u := fun t ht => Or.inl ((hT t).1 ht)
  have b2 : ∀ t, (Trails G F t ∨ ∃ u ∈ P.trailing, t ∈ G.deps u) → res t = none → ∀ d ∈ G.deps t,
      (Trails G F d ∨ ∃ u ∈ P.trailing, d ∈ G.deps u) := by
    rintro t (ht | ⟨u, hu, htu⟩) hnone d hd
    · exact Or.inr ⟨t, (hT t).2 ht, hd⟩
    · by_cases htr : Trails G F t
      · exact Or.inr ⟨t, (hT t).2 htr, hd⟩
      · exfalso
        by_cases hl : Leads G F t
        · have hnp : ¬ t ∈ P.parallel := fun h => ((hP t).1 h).2.1 hl
          have := snap_some t hl
          rw [← hres_lead t hnp, hnone] at this
          cases this
        · have := hres_par t ((hP t).2 ⟨htr, hl, hper t⟩)
          rw [hnone] at this
          cases this
  have b3 : ∀ t v, (Trails G F t ∨ ∃ u ∈ P.trailing, t ∈ G.deps u) → res t = some v → Eval G exec (fun _ => none) t v := by
    rintro t v ht h
    rcases collect_some _ _ _ _ h with h | ⟨h, _⟩
    · obtain ⟨hp, hv⟩ := hq_par t v h
      rcases ht with ht | hdep
      · exact absurd ht ((hP t).1 hp).1
      · exact hv (Or.inr hdep)
    · exact ((hsnap t v).1 h).2
  obtain ⟨t1, t2, t3, t4⟩ := phase_effects B hnr popT P.trailing P.trailing.isEmpty (by simp) res _ b1 b2 b3 trail htr
  have t5 : ∀ t, t ∈ execs trail ↔ t ∈ P.trailing ∧ ¬ t ∈ P.leading := by
    intro t
    rw [t3]
    constructor
    · intro h
      have hun := needed_uncached h
      refine ⟨?_, ?_⟩
      · induction h with
        | target h _ => exact h
        | @dep t x ht hx hcx ih =>
          have ih := ih (needed_uncached ht)
          rw [hT]
          by_contra hnt
          by_cases hl : Leads G F x
          · have hnp : ¬ x ∈ P.parallel := fun h => ((hP x).1 h).2.1 hl
            have := snap_some x hl
            rw [← hres_lead x hnp] at this
            rw [this] at hcx
            cases hcx
          · rw [hres_par x ((hP x).2 ⟨hnt, hl, hper x⟩)] at hcx
            cases hcx
      · intro hl
        rw [hL] at hl
        have hnp : ¬ t ∈ P.parallel := fun h => ((hP t).1 h).2.1 hl
        have := snap_some t hl
        rw [← hres_lead t hnp] at this
        rw [this] at hun
        cases hun
    · rintro ⟨h1, h2⟩
      refine .target h1 ?_
      have hnp : ¬ t ∈ P.parallel := fun h => ((hP t).1 h).1 ((hT t).1 h1)
      have hnl : ¬ Leads G F t := fun h => h2 ((hL t).2 h)
      rw [hres_lead t hnp, snap_none t hnl]
      rfl
  -- everything together
  have hwmem : ∀ t v, (t, v) ∈ writes ↔ ∃ d, d < numGpus ∧ (t, v) ∈ effects exec (work d) := by
    intro t v
    rw [hwr.mem]
    simp only [List.mem_map, List.mem_range]
    constructor
    · rintro ⟨l, ⟨d, hd, rfl⟩, h⟩; exact ⟨d, hd, h⟩
    · rintro ⟨d, hd, h⟩; exact ⟨_, ⟨d, hd, rfl⟩, h⟩
  have hwfst : ∀ t, t ∈ writes.map Prod.fst ↔ t ∈ P.parallel := by
    intro t
    constructor
    · intro h
      obtain ⟨⟨t', v⟩, hm, rfl⟩ := List.mem_map.1 h
      obtain ⟨d, hd, hm⟩ := (hwmem _ v).1 hm
      have : t' ∈ (effects exec (work d)).map Prod.fst := List.mem_map.2 ⟨_, hm, rfl⟩
      rw [(hw d).1] at this
      exact (hasgmem d t' (((hw d).2.2.1 t').1 this)).1
    · intro h
      obtain ⟨d, hd, htd, _⟩ := hasg t h
      have : t ∈ execs (work d) := ((hw d).2.2.1 t).2 htd
      rw [← (hw d).1] at this
      obtain ⟨⟨t', v⟩, hm, rfl⟩ := List.mem_map.1 this
      exact List.mem_map.2 ⟨(t', v), (hwmem t' v).2 ⟨d, hd, hm⟩, rfl⟩
  have hwnd : (writes.map Prod.fst).Nodup := by
    have hp := (Interleave.perm hwr).map Prod.fst
    rw [List.Perm.nodup_iff hp, List.map_flatten, List.map_map, List.nodup_flatten]
    refine ⟨?_, ?_⟩
    · intro l hl
      obtain ⟨d, _, rfl⟩ := List.mem_map.1 hl
      simp only [Function.comp_apply, (hw d).1]
      exact (hw d).2.1
    · rw [List.pairwise_map]
      refine List.nodup_range.imp ?_
      intro d d' hne t h1 h2
      simp only [Function.comp_apply, (hw d).1, (hw d').1] at h1 h2
      have e1 := ((hw d).2.2.1 t).1 h1
      have e2 := ((hw d').2.2.1 t).1 h2
      obtain ⟨x, _, _, hu⟩ := hasg t (hasgmem d t e1).1
      exact hne ((hu d e1).trans (hu d' e2).symm)
  refine ⟨?_, ?_, ?_, ?_, ?_, ?_⟩
  · rw [List.map_append, List.map_append, le1, t1, List.nodup_append, List.nodup_append]
    refine ⟨⟨le2, hwnd, ?_⟩, t2, ?_⟩
    · intro a ha b hb hab
      subst hab
      exact ((hP a).1 ((hwfst a).1 hb)).2.1 ((hL a).1 ((le5 a).1 ha))
    · intro a ha b hb hab
      subst hab
      have hb := (t5 a).1 hb
      rcases List.mem_append.1 ha with h | h
      · exact hb.2 ((le5 a).1 h)
      · exact ((hP a).1 ((hwfst a).1 h)).1 ((hT a).1 hb.1)
  · intro t
    rw [List.map_append, List.map_append, le1, t1]
    by_cases hl : t ∈ P.leading
    · exact List.mem_append_left _ (List.mem_append_left _ ((le5 t).2 hl))
    · by_cases ht : t ∈ P.trailing
      · exact List.mem_append_right _ ((t5 t).2 ⟨ht, hl⟩)
      · refine List.mem_append_left _ (List.mem_append_right _ ((hwfst t).2 ((hP t).2 ⟨?_, ?_, hper t⟩)))
        · exact fun h => ht ((hT t).2 h)
        · exact fun h => hl ((hL t).2 h)
  · intro t v h
    rcases List.mem_append.1 h with h | h
    · rcases List.mem_append.1 h with h | h
      · exact le4 t v h
      · obtain ⟨d, _, hm⟩ := (hwmem t v).1 h
        exact (hw d).2.2.2.1 t v hm
    · exact t4 t v h
  · intro t h
    rw [le1] at h
    exact (le5 t).1 h
  · intro t h
    exact (hwfst t).1 h
  · intro t h
    rw [t1] at h
    exact ((t5 t).1 h).1

end
end Verif.WholeMulti
