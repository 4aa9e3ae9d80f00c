import Verif.Proof.MultiGPU

set_option linter.unusedSectionVars false
set_option linter.unusedSimpArgs false
set_option linter.unusedVariables false

namespace Verif.MultiGPU
open Verif.Graph

variable {n : Nat}

/-- The situation after a successful construction. -/
structure Built (G : TaskGraph n) (F : Flags n) (targets ordered : List (Fin n))
    (trailing : Finset (Fin n)) (islands : List (List (Fin n))) (numGpus : Nat) (P : Plan n) : Prop where
  /-- the universe contains only what the targets need -/
  all : ∀ t, Needed G (fun _ => false) targets t
  sched : IsSchedule G (fun _ => false) targets ordered
  trail : IsTrailing G F ordered trailing
  comps : IsComponents G (parallelTasks F ordered (findLeading G F ordered) trailing) islands
  ok : construct G F ordered trailing islands numGpus = .ok P

section
variable {G : TaskGraph n} {F : Flags n} {targets ordered : List (Fin n)}
  {trailing : Finset (Fin n)} {islands : List (List (Fin n))} {numGpus : Nat} {P : Plan n}

theorem Built.memOrdered (B : Built G F targets ordered trailing islands numGpus P) (t : Fin n) :
    t ∈ ordered := (B.sched.mem t).2 (B.all t)

theorem Built.topo (B : Built G F targets ordered trailing islands numGpus P) :
    ∀ p t q, ordered = p ++ t :: q → ∀ d ∈ G.deps t, d ∈ p := by
  intro p t q h d hd
  rcases B.sched.ordered p t q h d hd with h | h
  · exact h
  · cases h

theorem Built.acyclic (B : Built G F targets ordered trailing islands numGpus P)
    (c : Fin n → Bool) (ts : List (Fin n)) : ∀ t, ¬ Relation.TransGen (NeedsDep G c ts) t t := by
  have one : ∀ d t, d ∈ G.deps t → ordered.idxOf d < ordered.idxOf t := by
    intro d t hd
    obtain ⟨p, q, hpq⟩ := List.append_of_mem (B.memOrdered t)
    have hdp := B.topo p t q hpq d hd
    have htp : t ∉ p := by
      intro h
      have hnd := B.sched.nodup
      rw [hpq, List.nodup_append] at hnd
      exact hnd.2.2 t h t List.mem_cons_self rfl
    rw [hpq, List.idxOf_append_of_mem hdp, List.idxOf_append_of_notMem htp]
    have := List.idxOf_lt_length_of_mem hdp
    omega
  have : ∀ a b, Relation.TransGen (NeedsDep G c ts) a b → ordered.idxOf a < ordered.idxOf b := by
    intro a b hab
    induction hab with
    | single h => exact one _ _ h.2
    | tail _ h ih => exact ih.trans (one _ _ h.2)
  exact fun t ht => lt_irrefl _ (this t t ht)

theorem Built.construct_inv (B : Built G F targets ordered trailing islands numGpus P) :
    (∀ t, t ∈ P.leading ↔ Leads G F t) ∧ (∀ t, t ∈ P.trailing ↔ Trails G F t) ∧
    (∀ t, t ∈ P.perGpu ↔ F.perGpu t = true) ∧
    (∀ t, t ∈ P.parallel ↔ ¬ Trails G F t ∧ ¬ Leads G F t ∧ F.perGpu t = false) ∧
    (∀ t ∈ P.parallel, F.mainOnly t = false) ∧ (∀ t ∈ P.perGpu, F.mainOnly t = false) ∧
    P.parallel = parallelTasks F ordered (findLeading G F ordered) trailing ∧
    P.numGpus = numGpus ∧
    assignIslands numGpus islands (fun _ => []) = .ok P.assigned := by
  have h := B.ok
  unfold construct at h
  simp only at h
  split at h
  · cases h
  · rename_i hpar
    split at h
    · cases h
    · rename_i hper
      split at h
      · cases h
      · rename_i a ha
        cases h
        have hlead : ∀ t, t ∈ findLeading G F ordered ↔ Leads G F t := by
          intro t
          rw [findLeading_spec G F ordered B.topo]
          exact ⟨fun h => h.2, fun h => ⟨B.memOrdered t, h⟩⟩
        have htrail := isTrailing_spec G F ordered B.memOrdered trailing B.trail
        have hparmem : ∀ t, t ∈ parallelTasks F ordered (findLeading G F ordered) trailing ↔
            ¬ Trails G F t ∧ ¬ Leads G F t ∧ F.perGpu t = false := by
          intro t
          unfold parallelTasks
          rw [List.mem_filter]
          simp only [Bool.and_eq_true, decide_eq_true_eq, Bool.not_eq_true', hlead, htrail]
          exact ⟨fun h => ⟨h.2.1.1, h.2.1.2, h.2.2⟩, fun h => ⟨B.memOrdered t, ⟨h.1, h.2.1⟩, h.2.2⟩⟩
        refine ⟨?_, ?_, ?_, hparmem, ?_, ?_, rfl, rfl, ha⟩
        · intro t
          rw [List.mem_filter]
          simp only [decide_eq_true_eq, hlead]
          exact ⟨fun h => h.2, fun h => ⟨B.memOrdered t, h⟩⟩
        · intro t
          rw [List.mem_filter]
          simp only [decide_eq_true_eq, htrail]
          exact ⟨fun h => h.2, fun h => ⟨B.memOrdered t, h⟩⟩
        · intro t
          rw [List.mem_filter]
          exact ⟨fun h => h.2, fun h => ⟨B.memOrdered t, h⟩⟩
        · intro t ht
          by_contra hm
          apply hpar
          rw [List.any_eq_true]
          exact ⟨t, ht, by simpa using hm⟩
        · intro t ht
          by_contra hm
          apply hper
          rw [List.any_eq_true]
          exact ⟨t, ht, by simpa using hm⟩

theorem Built.assigned_iff (B : Built G F targets ordered trailing islands numGpus P) :
    (∀ t ∈ P.parallel, ∃ d, d < numGpus ∧ t ∈ P.assigned d) ∧
    (∀ d, ∀ t ∈ P.assigned d, t ∈ P.parallel ∧ d < numGpus) := by
  obtain ⟨_, _, _, _, _, _, hpar, _, ha⟩ := B.construct_inv
  obtain ⟨_, h2, h3⟩ := assign_mem numGpus islands _ _ ha
  have hcov := B.comps.cover
  rw [← hpar] at hcov
  refine ⟨?_, ?_⟩
  · intro t ht
    obtain ⟨isl, hi, hti⟩ := (hcov t).1 ht
    obtain ⟨d, hd, hall⟩ := h2 isl hi
    exact ⟨d, hd, hall t hti⟩
  · intro d t ht
    rcases h3 d t ht with h | ⟨hd, isl, hi, hti, _⟩
    · simp at h
    · exact ⟨(hcov t).2 ⟨isl, hi, hti⟩, hd⟩

variable {V E : Type} {exec : Fin n → List (String × V) → Except E V}

/-- Values computed from correct cached values are correct. -/
theorem eval_of_cached (c : Fin n → Option V) (S : Fin n → Prop)
    (hS : ∀ t, S t → c t = none → ∀ d ∈ G.deps t, S d)
    (hc : ∀ t v, S t → c t = some v → Eval G exec (fun _ => none) t v) {t : Fin n} {v : V}
    (ht : S t) (h : Eval G exec c t v) : Eval G exec (fun _ => none) t v := by
  induction h with
  | cached h => exact hc _ _ ht h
  | exec vals h hd he ih =>
    exact .exec vals rfl (fun d hdd => ih d hdd (hS _ ht h d hdd)) he

theorem eval_exists [Nonempty V] (c : Fin n → Option V) (ts : List (Fin n))
    (hac : ∀ t, ¬ Relation.TransGen (NeedsDep G (fun k => (c k).isSome) ts) t t)
    (hnr : NeverRaises G exec c ts) (t : Fin n) (ht : Needed G (fun k => (c k).isSome) ts t) :
    ∃ v, Eval G exec c t v := by
  obtain ⟨v0⟩ := ‹Nonempty V›
  let R : Fin n → Fin n → Prop := Relation.TransGen (NeedsDep G (fun k => (c k).isSome) ts)
  have : Std.Irrefl R := ⟨hac⟩
  have : IsTrans (Fin n) R := ⟨fun a b c => Relation.TransGen.trans⟩
  have wf : WellFounded R := Finite.wellFounded_of_trans_of_irrefl R
  induction t using wf.induction with
  | _ t ih =>
    have hd : ∀ d ∈ G.deps t, ∃ v, Eval G exec c d v := by
      intro d hd
      cases hcd : c d with
      | some v => exact ⟨v, .cached hcd⟩
      | none => exact ih d (.single ⟨ht, hd⟩) (ht.dep hd (by simp [hcd]))
    classical
    let vals : Fin n → V := fun d => if h : ∃ v, Eval G exec c d v then h.choose else v0
    have hv : ∀ d ∈ G.deps t, Eval G exec c d (vals d) := by
      intro d hdd
      have h := hd d hdd
      simp only [vals, h, dite_true]
      exact h.choose_spec
    obtain ⟨v, hv'⟩ := hnr t vals ht hv
    have hct : c t = none := by
      have := needed_uncached ht
      simpa using this
    exact ⟨v, .exec vals hct hv hv'⟩

/-- One executor phase started from cached values that are correct on everything it can reach. -/
theorem phase_spec [Nonempty V] (B : Built G F targets ordered trailing islands numGpus P)
    (hnr : NeverRaises G exec (fun _ => none) targets)
    (pop : PopOracle n) (handles : List (Fin n)) (skip : Bool) (hskip : skip = true → handles = [])
    (c : Fin n → Option V) (S : Fin n → Prop)
    (hin : ∀ t ∈ handles, S t)
    (hS : ∀ t, S t → c t = none → ∀ d ∈ G.deps t, S d)
    (hc : ∀ t v, S t → c t = some v → Eval G exec (fun _ => none) t v) :
    ∃ trace, phaseRun G exec pop handles skip c = some (trace, .finished) ∧
      (∀ t v, (t, v) ∈ yields trace ↔ t ∈ handles ∧ c t = none ∧ Eval G exec (fun _ => none) t v) ∧
      (∀ t ∈ execs trace, S t ∧ c t = none ∧ Needed G (fun k => (c k).isSome) handles t) := by
  have hSneed : ∀ t, Needed G (fun k => (c k).isSome) handles t → S t := by
    intro t ht
    induction ht with
    | target h _ => exact hin _ h
    | @dep t d ht hd _ ih =>
      have := needed_uncached ht
      exact hS t ih (by simpa using this) d hd
  have hnr' : NeverRaises G exec c handles := by
    intro t vals ht hv
    have hct : c t = none := by
      have := needed_uncached ht
      simpa using this
    refine hnr t vals (B.all t) ?_
    intro d hd
    exact eval_of_cached c S hS hc (hS t (hSneed t ht) hct d hd) (hv d hd)
  by_cases hs : skip = true
  · have hh := hskip hs
    subst hh
    exact ⟨[], by simp [phaseRun, hs], by simp [yields], by simp [execs]⟩
  · simp only [phaseRun, hs]
    obtain ⟨trace, hr, hy, _⟩ := C01_executor_value G exec pop handles c (B.acyclic _ _) hnr'
    obtain ⟨trace', o, hr', _, he, _⟩ := C02_exactly_once G exec pop handles c (B.acyclic _ _)
    rw [hr] at hr'
    cases hr'
    refine ⟨trace, hr, ?_, ?_⟩
    · intro t v
      rw [hy t v]
      constructor
      · rintro ⟨h1, h2, h3⟩
        exact ⟨h1, h2, eval_of_cached c S hS hc (hin t h1) h3⟩
      · rintro ⟨h1, h2, h3⟩
        refine ⟨h1, h2, ?_⟩
        obtain ⟨w, hw⟩ := eval_exists c handles (B.acyclic _ _) hnr' t (.target h1 (by simp [h2]))
        rw [h3.det (eval_of_cached c S hS hc (hin t h1) hw)]
        exact hw
    · intro t ht
      have hn := he t ht
      have := needed_uncached hn
      exact ⟨hSneed t hn, by simpa using this, hn⟩

end
end Verif.MultiGPU
