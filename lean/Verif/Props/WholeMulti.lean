import Verif.Proof.MultiEffects
import Verif.Props.WholeTok
import Verif.Props.WholeSample

/-! # C116: a merge to disk on several devices -/

set_option linter.unusedSectionVars false
set_option linter.unusedVariables false

namespace Verif.WholeMulti

open Verif.Graph Verif.MultiGPU
open Verif.Universe (Universe SubTask)
open Verif.Pipeline (graphOf universeOf toFin Value)
open Verif.WholeMerge (RunErr Told kwarg plainA plainB)
open Verif.Plan (Planned refA refB)
open Verif.WholeTok

section
variable {K T E I : Type} [DecidableEq K]

/-! ## The tasks of the graph -/

section graph
variable (dtype : Option String) (ps : List (Planned K)) (group : Job K → String) (prio : Job K → Int)

theorem pbuilt : Pipeline.Built (jobs K dtype) (targets ps) (uni dtype ps) (universeOf (jobs K dtype) (targets ps)).2 :=
  Pipeline.built (jobs K dtype) (targets ps)

variable {dtype ps}

theorem job_belongs (j : Fin (uni dtype ps).tasks.length) : Belongs dtype ps ((uni dtype ps).tasks[j.1]) := by
  obtain ⟨t, ht, hs⟩ := (pbuilt dtype ps).only _ (List.getElem_mem j.2)
  exact belongs_sub ht hs

theorem job_inj {j k : Fin (uni dtype ps).tasks.length} (h : (uni dtype ps).tasks[j.1] = (uni dtype ps).tasks[k.1]) : j = k :=
  Fin.ext (((pbuilt dtype ps).nodup.getElem_inj_iff (hi := j.2) (hj := k.2)).1 h)

theorem mem_handles (j : Fin (uni dtype ps).tasks.length) : j ∈ handles dtype ps ↔ (uni dtype ps).tasks[j.1] ∈ targets ps :=
  Pipeline.targets_mem (pbuilt dtype ps) j

theorem mem_graph_deps {i j : Fin (uni dtype ps).tasks.length} :
    j ∈ (graph dtype ps group prio).deps i ↔ ∃ k, (k, (uni dtype ps).tasks[j.1]) ∈ (jobs K dtype).args ((uni dtype ps).tasks[i.1]) :=
  Pipeline.mem_deps (pbuilt dtype ps) group prio

theorem target_exists {t : Job K} (ht : t ∈ targets ps) : ∃ j : Fin (uni dtype ps).tasks.length, (uni dtype ps).tasks[j.1] = t := by
  obtain ⟨k, hk, hx⟩ := List.getElem_of_mem ht
  have b := pbuilt dtype ps
  have hk' : k < (universeOf (jobs K dtype) (targets ps)).2.length := by rw [← b.handles.length_eq]; exact hk
  have := b.handles.get hk hk'
  simp only [List.get_eq_getElem, hx] at this
  have hl : (universeOf (jobs K dtype) (targets ps)).2[k] < (uni dtype ps).tasks.length := by
    by_contra hc; rw [List.getElem?_eq_none (by omega)] at this; cases this
  rw [List.getElem?_eq_getElem hl] at this
  exact ⟨⟨_, hl⟩, Option.some.inj this⟩

theorem arg_exists {i : Fin (uni dtype ps).tasks.length} {k : String} {x : Job K}
    (h : (k, x) ∈ (jobs K dtype).args ((uni dtype ps).tasks[i.1])) : ∃ j : Fin (uni dtype ps).tasks.length, (uni dtype ps).tasks[j.1] = x := by
  have hf := Pipeline.args_graph (pbuilt dtype ps) (fun _ => "") (fun _ => 0) i
  obtain ⟨m, hm, hx⟩ := List.getElem_of_mem h
  have hm' : m < ((graphOf (uni dtype ps) (fun _ => "") (fun _ => 0)).args i).length := by rw [← hf.length_eq]; exact hm
  have := hf.get hm hm'
  simp only [List.get_eq_getElem, hx] at this
  exact ⟨_, this.2⟩

theorem not_arg_finalize (t : Job K) (k : String) (qs : List (Planned K)) : (k, Job.finalize qs) ∉ (jobs K dtype).args t := by
  intro h
  cases t with
  | load _ _ => cases h
  | writer => cases h
  | tokenizer => cases h
  | gather ws =>
    obtain ⟨e, _, he⟩ := List.mem_map.1 h
    cases he
  | permuted ws b => simp [jobs, Job.args] at h
  | merge p =>
    simp only [jobs, Job.args, List.mem_singleton, Prod.mk.injEq, inputTask] at h
    have := h.2
    split at this <;> cases this
  | save p => simp [jobs, Job.args] at h
  | finalize qs =>
    rcases List.mem_cons.1 h with h | h
    · cases h
    · obtain ⟨e, _, he⟩ := List.mem_map.1 h
      cases he

/-- Only the writer and the finalization are for the main thread, the one before and the other after everything else. -/
theorem leads_trails (j : Fin (uni dtype ps).tasks.length) (h : (flags (uni dtype ps)).mainOnly j = true) :
    Leads (graph dtype ps group prio) (flags (uni dtype ps)) j ∨ Trails (graph dtype ps group prio) (flags (uni dtype ps)) j := by
  simp only [flags] at h
  cases hj : (uni dtype ps).tasks[j.1] with
  | writer =>
    left
    refine .mk (by simp [flags, hj, mainOnly]) ?_
    intro d hd
    obtain ⟨k, hk⟩ := (mem_graph_deps group prio).1 hd
    rw [hj] at hk
    cases hk
  | finalize qs =>
    right
    refine .mk (by simp [flags, hj, mainOnly]) ?_
    intro u hu
    obtain ⟨k, hk⟩ := (mem_graph_deps group prio).1 hu
    rw [hj] at hk
    exact absurd hk (not_arg_finalize _ _ _)
  | _ => rw [hj] at h; simp [mainOnly] at h

end graph

/-- **C116** The planner's tasks can always be divided among the devices: with at least one device the executor can be constructed, whatever the plan, the
order the tasks are listed in and the order the sets are gone through. -/
theorem C116_constructs (dtype : Option String) (ps : List (Planned K)) (group : Job K → String) (prio : Job K → Int)
    (numGpus : Nat) (hg : numGpus ≠ 0) :
    (∀ ordered trailing islands, IsSchedule (graph dtype ps group prio) (fun _ => false) (handles dtype ps) ordered →
      IsTrailing (graph dtype ps group prio) (flags (uni dtype ps)) ordered trailing →
      IsComponents (graph dtype ps group prio) (parallelTasks (flags (uni dtype ps)) ordered
        (findLeading (graph dtype ps group prio) (flags (uni dtype ps)) ordered) trailing) islands →
      ∃ P, construct (graph dtype ps group prio) (flags (uni dtype ps)) ordered trailing islands numGpus = .ok P) ∧
    ∃ ordered trailing islands P,
      Built (graph dtype ps group prio) (flags (uni dtype ps)) (handles dtype ps) ordered trailing islands numGpus P := by
  have hall : ∀ t, Needed (graph dtype ps group prio) (fun _ => false) (handles dtype ps) t :=
    fun t => Pipeline.needed_iff (pbuilt dtype ps) group prio t
  have key : ∀ ordered trailing islands, IsSchedule (graph dtype ps group prio) (fun _ => false) (handles dtype ps) ordered →
      IsTrailing (graph dtype ps group prio) (flags (uni dtype ps)) ordered trailing →
      IsComponents (graph dtype ps group prio) (parallelTasks (flags (uni dtype ps)) ordered
        (findLeading (graph dtype ps group prio) (flags (uni dtype ps)) ordered) trailing) islands →
      ∃ P, construct (graph dtype ps group prio) (flags (uni dtype ps)) ordered trailing islands numGpus = .ok P := by
    intro ordered trailing islands h1 h2 h3
    refine (C08_construct_iff hall h1 h2 h3).2 ⟨?_, Or.inl hg⟩
    intro t ht
    exact ⟨rfl, leads_trails group prio t ht⟩
  refine ⟨key, ?_⟩
  obtain ⟨ordered, _, _, hs, _⟩ := run_exists (V := Unit) (E := Unit) (graph dtype ps group prio) (fun _ _ => .ok ())
    (fun _ s h => ⟨h.choose, h.choose_spec⟩) (handles dtype ps) (fun _ => none) (Pipeline.acyclic (pbuilt dtype ps) group prio _)
  have hs : IsSchedule (graph dtype ps group prio) (fun _ => false) (handles dtype ps) ordered := hs
  obtain ⟨_, _, trailing, ht⟩ := C08_search_terminates (F := flags (uni dtype ps)) hall hs
  obtain ⟨islands, hi⟩ := components_exist (graph dtype ps group prio) (parallelTasks (flags (uni dtype ps)) ordered
    (findLeading (graph dtype ps group prio) (flags (uni dtype ps)) ordered) trailing) (hs.nodup.filter _)
  obtain ⟨P, hP⟩ := key ordered trailing islands hs ht hi
  exact ⟨ordered, trailing, islands, P, hall, hs, ht, hi, hP⟩

/-! ## What the writer is told -/

/-- Saves and the finalization. -/
def writing : Job K → Bool
  | .save _ => true
  | .finalize _ => true
  | _ => false

theorem writerRun_writing (conf : Writer.Conf) (size : T → Nat) (w : Writer.Writer T) (l : List (Job K × Val T I)) :
    writerRun conf size w l = writerRun conf size w (l.filter (fun e => writing e.1)) := by
  induction l generalizing w with
  | nil => rfl
  | cons e l ih =>
    obtain ⟨t, v⟩ := e
    cases t with
    | save p =>
      rw [List.filter_cons_of_pos (by rfl)]
      cases v with
      | saved x =>
        cases x with
        | none => simpa [writerRun] using ih w
        | some x => simp only [writerRun]; rw [ih]
      | _ => simpa [writerRun] using ih w
    | finalize ps =>
      rw [List.filter_cons_of_pos (by rfl)]
      simp only [writerRun]
      rw [ih]
    | _ =>
      rw [List.filter_cons_of_neg (by simp [writing])]
      simpa [writerRun] using ih w

theorem value_of (s : TokSetup K T E I) (ps : List (Planned K)) (group : Job K → String) (prio : Job K → Int)
    {j : Fin (uni s.dtype ps).tasks.length} {v : Val T I} (h : Eval (graph s.dtype ps group prio) (exec s ps) (fun _ => none) j v) :
    Value (jobs K s.dtype) (execJob s) ((uni s.dtype ps).tasks[j.1]) v :=
  Pipeline.value_of_eval (pbuilt s.dtype ps) group prio (execJob s) h

/-- Values by handle are values by task. -/
theorem by_task {V : Type} [Nonempty V] (dtype : Option String) (ps : List (Planned K)) (vals : Fin (uni dtype ps).tasks.length → V) :
    ∃ w : Job K → V, ∀ j, vals j = w ((uni dtype ps).tasks[j.1]) := by
  classical
  refine ⟨fun x => if h : (uni dtype ps).tasks.idxOf x < (uni dtype ps).tasks.length then vals ⟨_, h⟩ else Classical.arbitrary V, ?_⟩
  intro j
  have e : (uni dtype ps).tasks.idxOf ((uni dtype ps).tasks[j.1]) = j.1 := (pbuilt dtype ps).nodup.idxOf_getElem _ j.2
  simp only
  rw [dif_pos (by rw [e]; exact j.2)]
  congr 1
  exact (Fin.ext e).symm

theorem exec_args (s : TokSetup K T E I) (ps : List (Planned K)) (group : Job K → String) (prio : Job K → Int)
    (j : Fin (uni s.dtype ps).tasks.length) (vals : Fin (uni s.dtype ps).tasks.length → Val T I) (w : Job K → Val T I)
    (hw : ∀ j, vals j = w ((uni s.dtype ps).tasks[j.1])) :
    exec s ps j (((graph s.dtype ps group prio).args j).map (fun a => (a.1, vals a.2))) =
      execJob s ((uni s.dtype ps).tasks[j.1]) (((jobs K s.dtype).args ((uni s.dtype ps).tasks[j.1])).map (fun a => (a.1, w a.2))) := by
  unfold exec graph
  rw [Pipeline.args_vals (pbuilt s.dtype ps) group prio j vals w (fun j _ => hw j)]

theorem never_raises (s : TokSetup K T E I) (ps : List (Planned K)) (htold : ∀ p ∈ ps, Told p) (group : Job K → String) (prio : Job K → Int)
    {i : I} (hi : s.build = .ok i) (hall : ∀ p ∈ ps, ∃ r, Expected s i p r) :
    NeverRaises (graph s.dtype ps group prio) (exec s ps) (fun _ => none) (handles s.dtype ps) := by
  intro t vals _ hv
  obtain ⟨w, hw⟩ := by_task s.dtype ps vals
  rw [exec_args s ps group prio t vals w hw]
  cases hx : execJob s ((uni s.dtype ps).tasks[t.1]) (((jobs K s.dtype).args ((uni s.dtype ps).tasks[t.1])).map (fun a => (a.1, w a.2))) with
  | ok v => exact ⟨v, rfl⟩
  | error e =>
    exfalso
    refine no_error htold hi hall (job_belongs t) ?_ hx
    rintro ⟨k, x⟩ ha
    obtain ⟨j, rfl⟩ := arg_exists ha
    simp only
    rw [← hw j]
    exact value_of s ps group prio (hv j ((mem_graph_deps group prio).2 ⟨k, ha⟩))

section
variable {s : TokSetup K T E I} {ps : List (Planned K)} {group : Job K → String} {prio : Job K → Int}
  {ordered : List (Fin (uni s.dtype ps).tasks.length)} {trailing : Finset (Fin (uni s.dtype ps).tasks.length)}
  {islands : List (List (Fin (uni s.dtype ps).tasks.length))} {numGpus : Nat} {P : MultiGPU.Plan (uni s.dtype ps).tasks.length}

theorem save_arg {p : Planned K} (hp : p ∈ ps) : ∃ k, (k, Job.save p) ∈ (jobs K s.dtype).args (.finalize ps) := by
  obtain ⟨i, hi, hpi⟩ := List.getElem_of_mem hp
  refine ⟨"_unused_" ++ Nat.repr i, List.mem_cons_of_mem _ (List.mem_map.2 ⟨(p, i), ?_, rfl⟩)⟩
  rw [List.mem_zipIdx_iff_getElem?]
  rw [List.getElem?_eq_getElem hi, hpi]

/-- With something to save, exactly the finalization comes after the parallel phase, and it does not come before. -/
theorem trailing_only (B : Built (graph s.dtype ps group prio) (flags (uni s.dtype ps)) (handles s.dtype ps) ordered trailing islands numGpus P)
    {p : Planned K} (hp : p ∈ ps) :
    (∀ j, j ∈ P.trailing ↔ (uni s.dtype ps).tasks[j.1] = .finalize ps) ∧ (∀ j, j ∈ P.leading ↔ (uni s.dtype ps).tasks[j.1] = .writer) := by
  obtain ⟨hL, hT, hG, hP, hPm, hGm, _⟩ := B.construct_inv
  obtain ⟨js, hjs⟩ := target_exists (dtype := s.dtype) (ps := ps) (t := .save p) (mem_targets.2 (Or.inl ⟨p, hp, rfl⟩))
  obtain ⟨jf, hjf⟩ := target_exists (dtype := s.dtype) (ps := ps) (t := .finalize ps) (mem_targets.2 (Or.inr (Or.inl rfl)))
  have hsm : (flags (uni s.dtype ps)).mainOnly js = false := by simp [flags, hjs, mainOnly]
  have hsf : js ∈ (graph s.dtype ps group prio).deps jf := by
    rw [mem_graph_deps, hjs, hjf]
    exact save_arg hp
  have hwj : ∀ j : Fin (uni s.dtype ps).tasks.length, (uni s.dtype ps).tasks[j.1] = .writer → j ∈ (graph s.dtype ps group prio).deps js := by
    intro j hj
    rw [mem_graph_deps, hjs, hj]
    exact ⟨"writer", by simp [jobs, Job.args]⟩
  have main : ∀ j, (flags (uni s.dtype ps)).mainOnly j = true →
      (uni s.dtype ps).tasks[j.1] = .writer ∨ (uni s.dtype ps).tasks[j.1] = .finalize ps := by
    intro j h
    have hb := job_belongs j
    simp only [flags] at h
    cases hj : (uni s.dtype ps).tasks[j.1] with
    | writer => exact Or.inl rfl
    | finalize qs =>
      rw [hj] at hb
      have : qs = ps := hb
      exact Or.inr (by rw [this])
    | _ => rw [hj] at h; simp [mainOnly] at h
  have hwt : ∀ j : Fin (uni s.dtype ps).tasks.length, (uni s.dtype ps).tasks[j.1] = .writer → ¬ Trails (graph s.dtype ps group prio) (flags (uni s.dtype ps)) j := by
    intro j hj ht
    cases ht with
    | mk _ h =>
      cases h js (hwj j hj) with
      | mk h' _ => rw [hsm] at h'; cases h'
  have hfl : ∀ j : Fin (uni s.dtype ps).tasks.length, (uni s.dtype ps).tasks[j.1] = .finalize ps → ¬ Leads (graph s.dtype ps group prio) (flags (uni s.dtype ps)) j := by
    intro j hj ht
    have : j = jf := job_inj (hj.trans hjf.symm)
    subst this
    cases ht with
    | mk _ h =>
      cases h js hsf with
      | mk h' _ => rw [hsm] at h'; cases h'
  constructor
  · intro j
    rw [hT]
    constructor
    · intro h
      have hm : (flags (uni s.dtype ps)).mainOnly j = true := by cases h; assumption
      rcases main j hm with h' | h'
      · exact absurd h (hwt j h')
      · exact h'
    · intro h
      rcases leads_trails group prio j (by simp [flags, h, mainOnly]) with h' | h'
      · exact absurd h' (hfl j h)
      · exact h'
  · intro j
    rw [hL]
    constructor
    · intro h
      have hm : (flags (uni s.dtype ps)).mainOnly j = true := by cases h; assumption
      rcases main j hm with h' | h'
      · exact h'
      · exact absurd h (hfl j h')
    · intro h
      rcases leads_trails group prio j (by simp [flags, h, mainOnly]) with h' | h'
      · exact h'
      · exact absurd h' (hwt j h)

/-- **C116** A merge to disk on several devices, provided the draining thread collects the whole queue: the same output as on one device.  Whatever the plan,
the division among devices, the order each executor chooses, the order the results arrive in and the order in which the threads get to
the writer: no phase raises, the tokenizer kept is the one that was built, and the output directory delivers exactly what is expected of each planned
weight (`Delivered`, as in `C115_merge_to_disk`).  Partial: that the whole queue is collected is not guaranteed by the code (`C116_lost`). -/
theorem C116_files_partial (htold : ∀ p ∈ ps, Told p)
    (hnames : ∀ p ∈ ps, ∀ q ∈ ps, p.weight.name = q.weight.name → p = q)
    (B : Built (graph s.dtype ps group prio) (flags (uni s.dtype ps)) (handles s.dtype ps) ordered trailing islands numGpus P)
    {i : I} (hi : s.build = .ok i) (hall : ∀ p ∈ ps, ∃ r, Expected s i p r)
    (popL popT : PopOracle (uni s.dtype ps).tasks.length) (popW : Nat → PopOracle (uni s.dtype ps).tasks.length)
    (conf : Writer.Conf) (hstd : conf.Standard) (size : T → Nat) :
    ∃ lead, leadingRun P (graph s.dtype ps group prio) (exec s ps) popL = some (lead, .finished) ∧
    ∃ work : Nat → List (Event (uni s.dtype ps).tasks.length (Val T I)),
      (∀ d, workerRun P (graph s.dtype ps group prio) (exec s ps) (popW d) (collect (fun _ => none) (yields lead)) d =
        some (work d, .finished)) ∧
    ∀ queue, Interleave ((List.range numGpus).map
        (fun d => workerMessages P (graph s.dtype ps group prio) (handles s.dtype ps) pyNone (work d))) queue →
    ∀ writes, Interleave ((List.range numGpus).map (fun d => effects (exec s ps) (work d))) writes →
    ∃ trail, trailingRun P (graph s.dtype ps group prio) (exec s ps) popT (collect (collect (fun _ => none) (yields lead)) queue) =
        some (trail, .finished) ∧
      (∀ ys, (∀ t v, (t, v) ∈ ys ↔ ∃ j, (uni s.dtype ps).tasks[j.1] = t ∧
          Yielded (handles s.dtype ps) (finalResults (handles s.dtype ps) (collect (collect (fun _ => none) (yields lead)) queue) trail) j v) →
        keptInfo ys = some i) ∧
      ((∃ p ∈ ps, ∃ z, Expected s i p (some z)) →
        Delivered s i ps (writerRun conf size {}
          (named (uni s.dtype ps) (effects (exec s ps) lead ++ writes ++ effects (exec s ps) trail)))) := by
  have hnr := never_raises s ps htold group prio hi hall
  obtain ⟨lead, h1, work, h2, h3⟩ := drained_effects B hnr pyNone (fun _ => rfl) popL popT popW
  refine ⟨lead, h1, work, h2, ?_⟩
  intro queue hq writes hwr
  obtain ⟨trail, t1, t2, t3, t4, t5, t6, t7, t8⟩ := h3 queue hq writes hwr
  refine ⟨trail, t1, ?_, ?_⟩
  · intro ys hys
    apply keptInfo_eq
    · intro e he k hk
      obtain ⟨j, hj, hy⟩ := (hys e.1 e.2).1 he
      obtain ⟨hjt, hev⟩ := (t2 j e.2).1 hy
      have hv := value_of s ps group prio hev
      rcases mem_targets.1 ((mem_handles j).1 hjt) with ⟨p, hp, h⟩ | h | h
      · rw [h] at hv
        obtain ⟨r, _, hv⟩ := value_save (htold p hp) hi hv
        rw [hk] at hv
        cases hv
      · rw [h] at hv
        cases hv with
        | mk _ _ _ _ he =>
          simp only [execJob] at he
          rw [← Except.ok.inj he] at hk
          cases hk
      · rw [h] at hv
        obtain ⟨i', hv, hi'⟩ := value_tokenizer hv
        rw [hi] at hi'
        cases hi'
        rw [hk] at hv
        cases hv
        rfl
    · obtain ⟨j, hj⟩ := target_exists (dtype := s.dtype) (ps := ps) (t := .tokenizer) (mem_targets.2 (Or.inr (Or.inr rfl)))
      obtain ⟨⟨j', v⟩, hm, rfl⟩ := List.mem_map.1 (t4 j)
      have hev := t5 _ _ hm
      have hv := value_of s ps group prio hev
      simp only at hj
      rw [hj] at hv
      obtain ⟨i', hv, hi'⟩ := value_tokenizer hv
      rw [hi] at hi'
      cases hi'
      subst hv
      refine ⟨(.tokenizer, .info i), (hys _ _).2 ⟨j', hj, (t2 j' _).2 ⟨?_, hev⟩⟩, rfl⟩
      rw [mem_handles, hj]
      exact mem_targets.2 (Or.inr (Or.inr rfl))
  · intro hsome
    obtain ⟨p0, hp0, _⟩ := id hsome
    obtain ⟨htrail, hlead⟩ := trailing_only B hp0
    obtain ⟨hcov, hpar, _⟩ := C08_partition B
    obtain ⟨jf, hjf⟩ := target_exists (dtype := s.dtype) (ps := ps) (t := .finalize ps) (mem_targets.2 (Or.inr (Or.inl rfl)))
    -- the trailing phase executes the finalization, and only that
    have hnotrail : ∀ j ∈ (effects (exec s ps) lead ++ writes).map Prod.fst, (uni s.dtype ps).tasks[j.1] ≠ .finalize ps := by
      intro j hj hf
      have hjt := (htrail j).2 hf
      rw [List.map_append] at hj
      rcases List.mem_append.1 hj with h | h
      · have := (hlead j).1 (t6 j h)
        rw [hf] at this
        cases this
      · exact (hpar j (t7 j h)).2.1 hjt
    have htr : ∃ v, effects (exec s ps) trail = [(jf, v)] := by
      have hin : jf ∈ (effects (exec s ps) trail).map Prod.fst := by
        have := t4 jf
        rw [List.map_append] at this
        rcases List.mem_append.1 this with h | h
        · exact absurd hjf (hnotrail jf h)
        · exact h
      have hone : ∀ j ∈ (effects (exec s ps) trail).map Prod.fst, j = jf :=
        fun j hj => job_inj (((htrail j).1 (t8 j hj)).trans hjf.symm)
      rw [List.map_append, List.nodup_append] at t3
      have hnd := t3.2.1
      cases he : effects (exec s ps) trail with
      | nil => rw [he] at hin; cases hin
      | cons a l =>
        rw [he] at hone hnd
        cases l with
        | nil =>
          obtain ⟨j, v⟩ := a
          have := hone j (by simp)
          subst this
          exact ⟨v, rfl⟩
        | cons b l =>
          exfalso
          have e1 := hone a.1 (by simp)
          have e2 := hone b.1 (by simp)
          simp [e1, e2] at hnd
    obtain ⟨v, hv⟩ := htr
    have hsplit : (named (uni s.dtype ps) (effects (exec s ps) lead ++ writes ++ effects (exec s ps) trail)).filter (fun e => writing e.1) =
        (named (uni s.dtype ps) (effects (exec s ps) lead ++ writes)).filter (fun e => writing e.1) ++ [(.finalize ps, v)] := by
      rw [hv, named, List.map_append, List.filter_append]
      simp [named, hjf, writing]
    rw [writerRun_writing, hsplit]
    have hmem : ∀ e, e ∈ (named (uni s.dtype ps) (effects (exec s ps) lead ++ writes)).filter (fun e => writing e.1) ↔
        ∃ j, (j, e.2) ∈ effects (exec s ps) lead ++ writes ∧ (uni s.dtype ps).tasks[j.1] = e.1 ∧ writing e.1 = true := by
      rintro ⟨t, v⟩
      simp only [named, List.mem_filter, List.mem_map]
      constructor
      · rintro ⟨⟨⟨j, v'⟩, hm, he⟩, hw⟩
        cases he
        exact ⟨j, hm, rfl, hw⟩
      · rintro ⟨j, hm, he, hw⟩
        exact ⟨⟨(j, v), hm, by simp [he]⟩, hw⟩
    refine files_of_saves s ps i hnames conf hstd size _ v ?_ ?_ ?_ hsome
    · intro e he
      obtain ⟨j, hm, hje, hw⟩ := (hmem e).1 he
      have hval := value_of s ps group prio (t5 _ _ (List.mem_append_left _ hm))
      have hb := job_belongs j
      rw [hje] at hval hb
      obtain ⟨t, x⟩ := e
      cases t with
      | save p =>
        obtain ⟨r, hr, hx⟩ := value_save (htold p hb) hi hval
        simp only at hx
        exact ⟨p, hb, r, hr, by rw [← hx]⟩
      | finalize qs =>
        have : qs = ps := hb
        subst this
        exact absurd hje (hnotrail j (List.mem_map.2 ⟨_, hm, rfl⟩))
      | _ => simp [writing] at hw
    · have hsub : (((named (uni s.dtype ps) (effects (exec s ps) lead ++ writes)).filter (fun e => writing e.1)).map Prod.fst).Sublist
          ((named (uni s.dtype ps) (effects (exec s ps) lead ++ writes)).map Prod.fst) := List.filter_sublist.map _
      refine List.Nodup.sublist hsub ?_
      rw [List.map_append, List.nodup_append] at t3
      have := t3.1.map (f := fun j : Fin (uni s.dtype ps).tasks.length => (uni s.dtype ps).tasks[j.1]) (fun a b h => job_inj h)
      simpa [named, Function.comp_def] using this
    · intro p hp
      obtain ⟨js, hjs⟩ := target_exists (dtype := s.dtype) (ps := ps) (t := .save p) (mem_targets.2 (Or.inl ⟨p, hp, rfl⟩))
      obtain ⟨⟨j', x⟩, hm, hj'⟩ := List.mem_map.1 (t4 js)
      simp only at hj'
      subst hj'
      refine ⟨x, (hmem _).2 ⟨j', ?_, hjs, rfl⟩⟩
      rcases List.mem_append.1 hm with h | h
      · exact h
      · have := (htrail j').1 (t8 j' (List.mem_map.2 ⟨_, h, rfl⟩))
        rw [hjs] at this
        cases this

/-- **C116** The queue need not be collected completely: whatever the plan, as long as it has a required weight, the division among devices and the
orders chosen, some prefix of the queue - all that may have been collected when the workers' completion stops the draining thread
(multigpu_executor.py:153-161, 187-188) - makes the run raise after every tensor was merged and saved, and the model is never finalized: the last phase saves
the weight once more, and is given `None` for its tensor. -/
theorem C116_lost
    (B : Built (graph s.dtype ps group prio) (flags (uni s.dtype ps)) (handles s.dtype ps) ordered trailing islands numGpus P)
    {p : Planned K} (hp : p ∈ ps) (hreq : p.weight.optional = false)
    (popL popT : PopOracle (uni s.dtype ps).tasks.length) (popW : Nat → PopOracle (uni s.dtype ps).tasks.length)
    (lead : List (Event (uni s.dtype ps).tasks.length (Val T I)))
    (hl : leadingRun P (graph s.dtype ps group prio) (exec s ps) popL = some (lead, .finished))
    (work : Nat → List (Event (uni s.dtype ps).tasks.length (Val T I)))
    (hw : ∀ d, workerRun P (graph s.dtype ps group prio) (exec s ps) (popW d) (collect (fun _ => none) (yields lead)) d =
      some (work d, .finished))
    (queue : List (Fin (uni s.dtype ps).tasks.length × Val T I))
    (hq : Interleave ((List.range numGpus).map
      (fun d => workerMessages P (graph s.dtype ps group prio) (handles s.dtype ps) pyNone (work d))) queue) :
    ∃ consumed, consumed <+: queue ∧
      ∃ trail t e, trailingRun P (graph s.dtype ps group prio) (exec s ps) popT
          (collect (collect (fun _ => none) (yields lead)) consumed) = some (trail, .raised t e) ∧
        ∀ v, (.finalize ps, v) ∉ named (uni s.dtype ps) (effects (exec s ps) trail) := by
  obtain ⟨htrail, hlead⟩ := trailing_only B hp
  obtain ⟨hL, hT, hG, hP, hPm, hGm, _⟩ := B.construct_inv
  obtain ⟨hcov, hpar, _⟩ := C08_partition B
  obtain ⟨hasg, hasgmem, hasgnd, hasgclosed, _⟩ := C09_assignment B
  obtain ⟨js, hjs⟩ := target_exists (dtype := s.dtype) (ps := ps) (t := .save p) (mem_targets.2 (Or.inl ⟨p, hp, rfl⟩))
  obtain ⟨jf, hjf⟩ := target_exists (dtype := s.dtype) (ps := ps) (t := .finalize ps) (mem_targets.2 (Or.inr (Or.inl rfl)))
  have harg : ("tensor", Job.merge p) ∈ (jobs K s.dtype).args ((uni s.dtype ps).tasks[js.1]) := by rw [hjs]; simp [jobs, Job.args]
  obtain ⟨jm, hjm⟩ := arg_exists harg
  have hms : jm ∈ (graph s.dtype ps group prio).deps js := by
    rw [mem_graph_deps, hjm]
    exact ⟨_, harg⟩
  have hsf : js ∈ (graph s.dtype ps group prio).deps jf := by
    rw [mem_graph_deps, hjs, hjf]
    exact save_arg hp
  have hsP : js ∈ P.parallel := by
    rw [hP]
    refine ⟨fun h => ?_, fun h => ?_, rfl⟩
    · have := (htrail js).1 ((hT js).2 h); rw [hjs] at this; cases this
    · have := (hlead js).1 ((hL js).2 h); rw [hjs] at this; cases this
  have hmP : jm ∈ P.parallel := by
    rw [hP]
    refine ⟨fun h => ?_, fun h => ?_, rfl⟩
    · have := (htrail jm).1 ((hT jm).2 h); rw [hjm] at this; cases this
    · have := (hlead jm).1 ((hL jm).2 h); rw [hjm] at this; cases this
  have hmT : ¬ (jm ∈ handles s.dtype ps ∨ ∃ u ∈ P.trailing, jm ∈ (graph s.dtype ps group prio).deps u) := by
    rintro (h | ⟨u, hu, h⟩)
    · rw [mem_handles, hjm] at h
      rcases mem_targets.1 h with ⟨_, _, h⟩ | h | h <;> cases h
    · obtain ⟨k, hk⟩ := (mem_graph_deps group prio).1 h
      rw [(htrail u).1 hu, hjm] at hk
      rcases List.mem_cons.1 hk with h | h
      · cases h
      · obtain ⟨e, _, he⟩ := List.mem_map.1 h
        cases he
  have hGnil : P.perGpu = [] := by
    apply List.eq_nil_iff_forall_not_mem.2
    intro t ht
    have := (hG t).1 ht
    cases this
  set snap : Fin (uni s.dtype ps).tasks.length → Option (Val T I) := collect (fun _ => none) (yields lead) with hsnapdef
  have snap_none : ∀ t, t ∉ P.leading → snap t = none := by
    intro t ht
    cases h : snap t with
    | none => rfl
    | some v =>
      exfalso
      rcases collect_some _ _ _ _ h with h | ⟨h, _⟩
      · unfold leadingRun phaseRun at hl
        split at hl
        · cases hl; simp [yields] at h
        · obtain ⟨tr', o, hr, hyy, _⟩ := C01_executor_exceptions (graph s.dtype ps group prio) (exec s ps) popL P.leading
            (fun _ => none) (B.acyclic _ _)
          rw [hl] at hr
          cases hr
          exact ht (hyy t v h).1
      · cases h
  -- what a worker sends
  have hyw : ∀ d, ((yields (work d)).map Prod.fst).Nodup ∧ (∀ t ∈ (yields (work d)).map Prod.fst, t ∈ P.assigned d) ∧
      (js ∈ P.assigned d → ∃ a b, (yields (work d)).map Prod.fst = a ++ js :: b ∧ jm ∈ a) := by
    intro d
    have hrun := hw d
    rw [workerRun, hGnil, phaseRun] at hrun
    split at hrun
    · rename_i he
      have hnil : work d = [] := ((Prod.mk.injEq .. ▸ Option.some.inj hrun).1).symm
      rw [hnil]
      refine ⟨by simp [yields], by simp [yields], ?_⟩
      intro h
      rw [List.isEmpty_iff.1 he] at h
      cases h
    · obtain ⟨sch, r, hr, hsch, g⟩ := run_exists (graph s.dtype ps group prio) (exec s ps) (popW d) ([] ++ P.assigned d) snap (B.acyclic _ _)
      rw [hrun] at hr
      cases hr
      have hy := g.yields_eq rfl
      simp only at hy
      refine ⟨?_, ?_, ?_⟩
      · rw [hy]; exact hsch.nodup.filter _
      · intro t ht
        rw [hy, List.mem_filter] at ht
        simpa using ht.2
      · intro hjsd
        have hin : js ∈ sch := (hsch.mem js).2 (.target (by simpa using hjsd) (by rw [snap_none js (hpar js hsP).1]; rfl))
        obtain ⟨a, b, hab⟩ := List.append_of_mem hin
        refine ⟨a.filter (· ∈ [] ++ P.assigned d), b.filter (· ∈ [] ++ P.assigned d), ?_, ?_⟩
        · rw [hy, hab, List.filter_append, List.filter_cons_of_pos (by simpa using hjsd)]
        · rw [List.mem_filter]
          refine ⟨?_, by simpa using hasgclosed js jm d hjsd hmP (Or.inr hms)⟩
          rcases hsch.ordered a js b hab jm hms with h | h
          · exact h
          · simp only [snap_none jm (hpar jm hmP).1] at h
            cases h
  have hfst : ∀ d, (workerMessages P (graph s.dtype ps group prio) (handles s.dtype ps) pyNone (work d)).map Prod.fst = (yields (work d)).map Prod.fst := by
    intro d
    unfold workerMessages
    rw [List.map_map]
    apply List.map_congr_left
    intro y _
    simp only [Function.comp_apply]
    split <;> rfl
  have hqnd : (queue.map Prod.fst).Nodup := by
    have hp := (Interleave.perm hq).map Prod.fst
    rw [List.Perm.nodup_iff hp, List.map_flatten, List.map_map, List.nodup_flatten]
    refine ⟨?_, ?_⟩
    · intro l hl
      obtain ⟨d, _, rfl⟩ := List.mem_map.1 hl
      simp only [Function.comp_apply, hfst]
      exact (hyw d).1
    · rw [List.pairwise_map]
      refine List.nodup_range.imp ?_
      intro d d' hne t h1 h2
      simp only [Function.comp_apply, hfst] at h1 h2
      have e1 := (hyw d).2.1 t h1
      have e2 := (hyw d').2.1 t h2
      obtain ⟨x, _, _, hu⟩ := hasg t (hasgmem d t e1).1
      exact hne ((hu d e1).trans (hu d' e2).symm)
  -- the prefix
  obtain ⟨d, hd, hjsd, _⟩ := hasg js hsP
  obtain ⟨a, b, hab, hjma⟩ := (hyw d).2.2 hjsd
  rw [← hfst] at hab
  obtain ⟨l1, l2, hl12, hl1, hl2⟩ := List.map_eq_append_iff.1 hab
  obtain ⟨⟨j', x⟩, l3, hl3, hjx, _⟩ := List.map_eq_cons_iff.1 hl2
  simp only at hjx
  subst hjx
  subst hl3
  have hsubl := Interleave.sublist hq _ (List.mem_map.2 ⟨d, List.mem_range.2 hd, rfl⟩)
  rw [hl12] at hsubl
  obtain ⟨q1, q2, hq12, hs1, hs2⟩ := List.append_sublist_iff.1 hsubl
  have hjs2 : (j', x) ∈ q2 := hs2.subset List.mem_cons_self
  have hjs1 : ∀ v, (j', v) ∉ q1 := by
    intro v hv
    rw [hq12, List.map_append, List.nodup_append] at hqnd
    exact hqnd.2.2 j' (List.mem_map.2 ⟨_, hv, rfl⟩) j' (List.mem_map.2 ⟨_, hjs2, rfl⟩) rfl
  have hjm1 : ∃ v, (jm, v) ∈ q1 := by
    rw [← hl1] at hjma
    obtain ⟨⟨m, v⟩, hm, rfl⟩ := List.mem_map.1 hjma
    exact ⟨v, hs1.subset hm⟩
  have hmsg : ∀ t v, (t, v) ∈ queue → t ∈ P.parallel ∧ (t = jm → v = pyNone) := by
    intro t v h
    obtain ⟨l, hl, hm⟩ := (hq.mem (t, v)).1 h
    obtain ⟨d', _, rfl⟩ := List.mem_map.1 hl
    refine ⟨?_, ?_⟩
    · have : t ∈ (yields (work d')).map Prod.fst := by
        rw [← hfst]; exact List.mem_map.2 ⟨_, hm, rfl⟩
      exact (hasgmem d' t ((hyw d').2.1 t this)).1
    · rintro rfl
      unfold workerMessages at hm
      obtain ⟨⟨t', v'⟩, _, he⟩ := List.mem_map.1 hm
      simp only at he
      split at he
      · rename_i hc
        cases he
        exact absurd hc hmT
      · exact (congrArg Prod.snd he).symm
  refine ⟨q1, ⟨q2, hq12.symm⟩, ?_⟩
  set c := collect snap q1 with hc
  have cjs : c j' = none := by
    rw [hc, collect_of_not_mem _ _ _ hjs1]
    exact snap_none _ (hpar j' hsP).1
  have cjm : c jm = some pyNone := by
    obtain ⟨v, hv⟩ := hjm1
    obtain ⟨w, hw⟩ := collect_isSome snap q1 jm v hv
    rw [← hc] at hw
    rw [hw]
    rcases collect_some _ _ _ _ hw with h | ⟨_, h⟩
    · rw [(hmsg jm w (by rw [hq12]; exact List.mem_append_left _ h)).2 rfl]
    · exact absurd hv (h v)
  have cjf : c jf = none := by
    rw [hc, collect_of_not_mem]
    · refine snap_none _ (fun h => ?_)
      have := (hlead jf).1 h
      rw [hjf] at this
      cases this
    · intro v hv
      exact (hpar jf (hmsg jf v (by rw [hq12]; exact List.mem_append_left _ hv)).1).2.1 ((htrail jf).2 hjf)
  -- the weight has no value
  have nosave : ∀ v, ¬ Eval (graph s.dtype ps group prio) (exec s ps) c j' v := by
    intro v h
    cases h with
    | cached h => rw [cjs] at h; cases h
    | exec vals _ hd he =>
      obtain ⟨w, hwv⟩ := by_task s.dtype ps vals
      rw [exec_args s ps group prio j' vals w hwv, hjs] at he
      have hm := hd jm hms
      have : vals jm = pyNone := by
        cases hm with
        | cached h => rw [cjm] at h; exact (Option.some.inj h).symm
        | exec _ h _ _ => rw [cjm] at h; cases h
      rw [hwv jm, hjm] at this
      have hne : ("writer" = "tensor") = False := by decide
      simp only [execJob, jobs, Job.args, List.map_cons, List.map_nil, kwarg, List.find?_cons, hne, decide_false, decide_true,
        Option.map_some, this, pyNone, LoadTask.saveExecute, hreq] at he
      cases he
  have hft : jf ∈ P.trailing := (htrail jf).2 hjf
  have hne : P.trailing.isEmpty = false := by
    cases h : P.trailing with
    | nil => rw [h] at hft; cases hft
    | cons _ _ => rfl
  obtain ⟨sch, ⟨trail, o⟩, hr, hsch, g⟩ := run_exists (graph s.dtype ps group prio) (exec s ps) popT P.trailing c (B.acyclic _ _)
  have noexec : ∀ as, Event.exec jf as ∉ trail := by
    intro as h
    obtain ⟨vals, hv, _⟩ := g.args_eval jf as h
    exact nosave _ (hv j' hsf)
  have hrun : trailingRun P (graph s.dtype ps group prio) (exec s ps) popT c = some (trail, o) := by
    unfold trailingRun phaseRun
    rw [hne]
    exact hr
  rcases g.outcome with ⟨ho, hex⟩ | ⟨t, e, vals, _, ho, _⟩
  · exfalso
    have : jf ∈ execs trail := by
      simp only at hex
      rw [hex]
      exact (hsch.mem jf).2 (.target hft (by rw [cjf]; rfl))
    obtain ⟨as, h⟩ := (execs_mem trail jf).1 this
    exact noexec as h
  · simp only at ho
    subst ho
    refine ⟨trail, t, e, hrun, ?_⟩
    intro v hv
    obtain ⟨⟨j, v'⟩, hm, he⟩ := List.mem_map.1 hv
    simp only [Prod.mk.injEq] at he
    have : j = jf := job_inj (he.1.trans hjf.symm)
    subst this
    obtain ⟨as, h, _⟩ := (effects_mem trail j v').1 hm
    exact noexec as h

/-- **C116** A tokenizer whose message is not collected is not kept, whatever the last phase does. -/
theorem C116_tokenizer_lost
    (B : Built (graph s.dtype ps group prio) (flags (uni s.dtype ps)) (handles s.dtype ps) ordered trailing islands numGpus P)
    (popL popT : PopOracle (uni s.dtype ps).tasks.length)
    (lead trail : List (Event (uni s.dtype ps).tasks.length (Val T I))) (ol ot : Outcome (uni s.dtype ps).tasks.length (RunErr E))
    (hl : leadingRun P (graph s.dtype ps group prio) (exec s ps) popL = some (lead, ol))
    (consumed : List (Fin (uni s.dtype ps).tasks.length × Val T I))
    (hlost : ∀ j v, (uni s.dtype ps).tasks[j.1] = .tokenizer → (j, v) ∉ consumed)
    (ht : trailingRun P (graph s.dtype ps group prio) (exec s ps) popT (collect (collect (fun _ => none) (yields lead)) consumed) = some (trail, ot))
    (v : Val T I) (j : Fin (uni s.dtype ps).tasks.length) (hj : (uni s.dtype ps).tasks[j.1] = .tokenizer) :
    ¬ Yielded (handles s.dtype ps) (finalResults (handles s.dtype ps) (collect (collect (fun _ => none) (yields lead)) consumed) trail) j v := by
  obtain ⟨hL, hT, hG, hP, _⟩ := B.construct_inv
  refine C07_result_lost B popL popT lead ol ot hl consumed trail ht j ((hP j).2 ⟨?_, ?_, rfl⟩) (fun v => hlost j v hj) v
  · intro h
    cases h with | mk h _ => simp [flags, hj, mainOnly] at h
  · intro h
    cases h with | mk h _ => simp [flags, hj, mainOnly] at h

end

end

/-! ## A concrete case -/

/-- Two weights of two models: an embedding and a norm; tensors are numbers. -/
def duoWeights : List (Planned ℚ) :=
  [⟨{ name := ['e'], isEmbed := true }, [(refA, { name := ['e'] }), (refB, { name := ['e'] })], [], [], none⟩,
   ⟨{ name := ['n'] }, [(refA, { name := ['n'] }), (refB, { name := ['n'] })], [], [], none⟩]

/-- "a" has 1 everywhere, "b" 10; embeddings are shifted by the tokenizer's number; merging adds. -/
def duo : TokSetup ℚ Nat Unit Nat where
  casts := ⟨fun _ => .float32, fun _ x => x⟩
  loaders := fun m => { names := ["e", "n"], fetch := fun _ => .ok (if m = refA then 1 else 10), convert := fun _ => .ok none }
  dtype := none
  outDtype := none
  method := fun _ ts => .ok (some (ts.map Prod.snd).sum)
  build := .ok 100
  reindex := fun _ i ts => .ok (ts.map (fun e => (e.1, e.2 + i)))

theorem duo_told : ∀ p ∈ duoWeights, Told p := by
  intro p hp
  simp only [duoWeights, List.mem_cons, List.not_mem_nil, or_false] at hp
  rcases hp with rfl | rfl <;>
  · refine ⟨by decide, ?_, ?_⟩
    · intro e he
      simp only [List.mem_cons, List.not_mem_nil, or_false] at he
      rcases he with rfl | rfl
      · exact plainA
      · exact plainB
    · intro e he
      simp only [List.mem_cons, List.not_mem_nil, or_false] at he
      rcases he with rfl | rfl <;> decide

theorem duo_expected : ∀ p ∈ duoWeights, Expected duo 100 p (some (if p.weight.isEmbed then 211 else 11)) := by
  intro p hp
  simp only [duoWeights, List.mem_cons, List.not_mem_nil, or_false] at hp
  rcases hp with rfl | rfl
  · exact ⟨_, ⟨_, rfl, fun h => (by cases h), fun _ => rfl⟩, Or.inl ⟨_, _, rfl, .unchanged (Or.inl rfl), rfl⟩⟩
  · exact ⟨_, ⟨_, rfl, fun _ => rfl, fun h => (by cases h)⟩, Or.inl ⟨_, _, rfl, .unchanged (Or.inl rfl), rfl⟩⟩

theorem duo_names : ∀ p ∈ duoWeights, ∀ q ∈ duoWeights, p.weight.name = q.weight.name → p = q := by
  intro p hp q hq h
  simp only [duoWeights, List.mem_cons, List.not_mem_nil, or_false] at hp hq
  rcases hp with rfl | rfl <;> rcases hq with rfl | rfl <;> first | rfl | (exact absurd h (by decide))

/-- On three devices, whatever the orders: there is a run; with the whole queue collected, "e" is written as 211, with some prefix of it the merge
raises. -/
example (popL popT : PopOracle (uni duo.dtype duoWeights).tasks.length) (popW : Nat → PopOracle (uni duo.dtype duoWeights).tasks.length) :
    ∃ P lead, ∃ work : Nat → List (Event (uni duo.dtype duoWeights).tasks.length (Val Nat Nat)),
      ∃ queue writes, leadingRun P (graph duo.dtype duoWeights (fun _ => "") (fun _ => 0)) (exec duo duoWeights) popL = some (lead, .finished) ∧
      (∃ trail, trailingRun P (graph duo.dtype duoWeights (fun _ => "") (fun _ => 0)) (exec duo duoWeights) popT
          (collect (collect (fun _ => none) (yields lead)) queue) = some (trail, .finished) ∧
        ∃ fs idx, Writer.applyOps (fun _ => none) (Writer.syncOps (writerRun ⟨100, true, none⟩ (fun _ => 4) {}
            (named (uni duo.dtype duoWeights) (effects (exec duo duoWeights) lead ++ writes ++ effects (exec duo duoWeights) trail)))) = some fs ∧
          (Writer.getTensor fs idx (Writer.afterHistory fs idx none []) "e" [] true).1 = .ok (some 211)) ∧
      ∃ consumed, consumed <+: queue ∧ ∃ trail t e, trailingRun P (graph duo.dtype duoWeights (fun _ => "") (fun _ => 0)) (exec duo duoWeights) popT
          (collect (collect (fun _ => none) (yields lead)) consumed) = some (trail, .raised t e) := by
  obtain ⟨_, ordered, trailing, islands, P, B⟩ := C116_constructs duo.dtype duoWeights (fun _ => "") (fun _ => 0) 3 (by decide)
  obtain ⟨lead, h1, work, h2, h3⟩ := C116_files_partial (s := duo) duo_told duo_names B (i := 100) rfl (fun p hp => ⟨_, duo_expected p hp⟩)
    popL popT popW ⟨100, true, none⟩ (by constructor <;> rfl) (fun _ => 4)
  obtain ⟨queue, hq⟩ := Interleave.exists ((List.range 3).map
    (fun d => workerMessages P (graph duo.dtype duoWeights (fun _ => "") (fun _ => 0)) (handles duo.dtype duoWeights) pyNone (work d)))
  obtain ⟨writes, hw⟩ := Interleave.exists ((List.range 3).map (fun d => effects (exec duo duoWeights) (work d)))
  obtain ⟨trail, t1, _, t2⟩ := h3 queue hq writes hw
  have hmem : duoWeights[0] ∈ duoWeights := by simp [duoWeights]
  obtain ⟨fs, f1, _, idx, _, _, f2⟩ := t2 ⟨_, hmem, _, duo_expected _ hmem⟩
  obtain ⟨consumed, c1, tr, t, e, c2, _⟩ := C116_lost B hmem rfl popL popT popW lead h1 work h2 queue hq
  exact ⟨P, lead, work, queue, writes, h1, ⟨trail, t1, fs, idx, f1, f2 _ hmem _ (duo_expected _ hmem) [] [] true⟩, consumed, c1, tr, t, e, c2⟩

end Verif.WholeMulti
