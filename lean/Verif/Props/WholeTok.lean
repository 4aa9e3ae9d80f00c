import Verif.Model.WholeTok
import Verif.Props.WholeMerge

/-! # C115: a merge to disk that also builds a tokenizer -/

set_option linter.unusedSectionVars false

namespace Verif.WholeTok

open Verif.ModelRef (Str Ref)
open Verif.LoadTask (LoadTensor WeightInfo Casts Loader gatherArguments gatherExecute saveExecute ownTensors wanted typeNames
  gather evalArguments C18_type_names loadOf_eq)
open Verif.Plan (Planned)
open Verif.Universe (TaskSystem SubTask Universe)
open Verif.Pipeline
open Verif.WholeMerge (Setup RunErr kwarg saveDtype Stored Told told_gather save_some ownTensors_loads dictOf_mem)

section
variable {K T E I : Type} [DecidableEq K]

/-! ## Specification -/

/-- What the merge of a weight is given: for embeddings, the models' own tensors re-indexed for the tokenizer that was built; for anything
else the models' own tensors. -/
def Given (s : TokSetup K T E I) (i : I) (p : Planned K) (ts : List (Ref × T)) : Prop :=
  ∃ own, ownTensors s.casts s.loaders s.dtype p.inputs = .ok own ∧
    (p.weight.isEmbed = false → ts = own) ∧ (p.weight.isEmbed = true → s.reindex p.baseModel i own = .ok ts)

/-- What the output should have for a planned weight: what is given, merged by the method, in the type asked for;
nothing only if the method returns nothing and the weight is optional. -/
def Expected (s : TokSetup K T E I) (i : I) (p : Planned K) (r : Option T) : Prop :=
  ∃ ts, Given s i p ts ∧
    ((∃ y z, s.method p ts = .ok (some y) ∧ Stored s.toSetup p.weight y z ∧ r = some z) ∨
     (s.method p ts = .ok none ∧ p.weight.optional = true ∧ r = none))

/-! ## Values of the tasks -/

theorem value_load {s : TokSetup K T E I} {m : Ref} {t : LoadTensor} {v : Val T I}
    (h : Value (jobs K s.dtype) (execJob s) (.load m t) v) :
    ∃ x, v = .tensor x ∧ t.execute s.casts (s.loaders m) = .ok x := by
  cases h with
  | mk _ _ vals _ he =>
    simp only [execJob] at he
    split at he
    · cases he
    · rename_i x hx
      exact ⟨x, (Except.ok.inj he).symm, hx⟩

theorem eval_of_vals (s : TokSetup K T E I) (vals : Job K → Val T I) (l : List (Str × (Ref × LoadTensor)))
    (h : ∀ e ∈ l, Value (jobs K s.dtype) (execJob s) (.load e.2.1 e.2.2) (vals (.load e.2.1 e.2.2))) :
    evalArguments s.casts s.loaders l =
      .ok (tensorArgs (l.map (fun e => (String.ofList e.1, vals (.load e.2.1 e.2.2))))) := by
  induction l with
  | nil => rfl
  | cons e l ih =>
    obtain ⟨k, m, t⟩ := e
    obtain ⟨x, hx, he⟩ := value_load (h (k, m, t) List.mem_cons_self)
    simp only [evalArguments, he]
    rw [ih (fun e he => h e (List.mem_cons_of_mem _ he))]
    simp only at hx
    simp [tensorArgs, hx]

theorem value_gather {s : TokSetup K T E I} {p : Planned K} (ht : Told p) {v : Val T I}
    (h : Value (jobs K s.dtype) (execJob s) (.gather p.inputs) v) :
    ∃ ts, v = .dict ts ∧ ownTensors s.casts s.loaders s.dtype p.inputs = .ok ts := by
  cases h with
  | mk _ _ vals hd he =>
    simp only [execJob] at he
    refine ⟨_, (Except.ok.inj he).symm, ?_⟩
    apply told_gather (s := s.toSetup) ht
    have hev := eval_of_vals s vals (gatherArguments s.dtype p.inputs) (by
      intro e hin
      exact hd (String.ofList e.1, .load e.2.1 e.2.2) (List.mem_map.2 ⟨e, hin, rfl⟩))
    unfold gather
    rw [hev]
    simp only [jobs, Job.args, List.map_map]
    rfl

theorem value_tokenizer {s : TokSetup K T E I} {v : Val T I} (h : Value (jobs K s.dtype) (execJob s) .tokenizer v) :
    ∃ i, v = .info i ∧ s.build = .ok i := by
  cases h with
  | mk _ _ vals _ he =>
    simp only [execJob] at he
    split at he
    · cases he
    · rename_i i hi
      exact ⟨i, (Except.ok.inj he).symm, hi⟩

theorem permuted_args (vals : Job K → Val T I) (dtype : Option String) (ws : List (Ref × WeightInfo)) (b : Option Ref) :
    kwarg (((jobs K dtype).args (.permuted ws b)).map (fun a => (a.1, vals a.2))) "tokenizer_info" = some (vals .tokenizer) ∧
    kwarg (((jobs K dtype).args (.permuted ws b)).map (fun a => (a.1, vals a.2))) "tensors" = some (vals (.gather ws)) := by
  have hw : ("tokenizer_info" = "tensors") = False := by decide
  constructor
  · simp only [jobs, Job.args, List.map_cons, List.map_nil, kwarg, List.find?_cons, decide_true, Option.map_some]
  · simp only [jobs, Job.args, List.map_cons, List.map_nil, kwarg, List.find?_cons, hw, decide_false, decide_true, Option.map_some]

theorem value_permuted {s : TokSetup K T E I} {p : Planned K} (ht : Told p) {v : Val T I}
    (h : Value (jobs K s.dtype) (execJob s) (.permuted p.inputs p.baseModel) v) :
    ∃ i own ts, v = .dict ts ∧ s.build = .ok i ∧ ownTensors s.casts s.loaders s.dtype p.inputs = .ok own ∧
      s.reindex p.baseModel i own = .ok ts := by
  cases h with
  | mk _ _ vals hd he =>
    obtain ⟨own, h1, h2⟩ := value_gather ht (hd ("tensors", .gather p.inputs) (by simp [jobs, Job.args]))
    obtain ⟨i, h3, h4⟩ := value_tokenizer (hd ("tokenizer_info", .tokenizer) (by simp [jobs, Job.args]))
    simp only at h1 h3
    obtain ⟨a1, a2⟩ := permuted_args vals s.dtype p.inputs p.baseModel
    simp only [execJob, a1, a2, h1, h3] at he
    split at he
    · cases he
    · rename_i ts hts
      exact ⟨i, own, ts, (Except.ok.inj he).symm, h4, h2, hts⟩

/-- The dictionary a merge is given. -/
theorem value_input {s : TokSetup K T E I} {p : Planned K} (ht : Told p) {i : I} (hi : s.build = .ok i) {v : Val T I}
    (h : Value (jobs K s.dtype) (execJob s) (inputTask p) v) : ∃ ts, v = .dict ts ∧ Given s i p ts := by
  unfold inputTask at h
  split at h
  · rename_i he
    obtain ⟨i', own, ts, h1, h2, h3, h4⟩ := value_permuted ht h
    rw [hi] at h2
    cases h2
    exact ⟨ts, h1, own, h3, fun hf => absurd (he.symm.trans hf) (by simp), fun _ => h4⟩
  · rename_i he
    obtain ⟨ts, h1, h2⟩ := value_gather ht h
    exact ⟨ts, h1, ts, h2, fun _ => rfl, fun hf => absurd hf he⟩

theorem value_merge {s : TokSetup K T E I} {p : Planned K} (ht : Told p) {i : I} (hi : s.build = .ok i) {v : Val T I}
    (h : Value (jobs K s.dtype) (execJob s) (.merge p) v) :
    ∃ ts x, v = .tensor x ∧ Given s i p ts ∧ s.method p ts = .ok x := by
  cases h with
  | mk _ _ vals hd he =>
    obtain ⟨ts, h1, h2⟩ := value_input ht hi (hd ("tensors", inputTask p) (by simp [jobs, Job.args]))
    simp only at h1
    simp only [execJob, jobs, Job.args, List.map_cons, List.map_nil, kwarg, List.find?_cons, decide_true, Option.map_some, h1] at he
    split at he
    · cases he
    · rename_i x hx
      exact ⟨ts, x, (Except.ok.inj he).symm, h2, hx⟩

theorem value_save {s : TokSetup K T E I} {p : Planned K} (ht : Told p) {i : I} (hi : s.build = .ok i) {v : Val T I}
    (h : Value (jobs K s.dtype) (execJob s) (.save p) v) :
    ∃ r, Expected s i p r ∧ v = .saved (r.map (fun z => (String.ofList p.weight.name, z))) := by
  cases h with
  | mk _ _ vals hd he =>
    obtain ⟨ts, x, h1, h2, h3⟩ := value_merge ht hi (hd ("tensor", .merge p) (by simp [jobs, Job.args]))
    simp only at h1
    have hw : ("writer" = "tensor") = False := by decide
    simp only [execJob, jobs, Job.args, List.map_cons, List.map_nil, kwarg, List.find?_cons, decide_true, Option.map_some, h1, hw,
      decide_false] at he
    split at he
    · cases he
    · rename_i r hr
      cases x with
      | none =>
        have : r = none ∧ p.weight.optional = true := by
          unfold saveExecute at hr
          simp only at hr
          split at hr
          · rename_i ho
            exact ⟨(Except.ok.inj hr).symm, ho⟩
          · cases hr
        refine ⟨none, ⟨ts, h2, Or.inr ⟨h3, this.2, rfl⟩⟩, ?_⟩
        rw [← Except.ok.inj he, this.1]
        rfl
      | some y =>
        obtain ⟨z, rfl, hz⟩ := (save_some s.toSetup p.weight _ y r).1 hr
        exact ⟨some z, ⟨ts, h2, Or.inl ⟨y, z, h3, hz, rfl⟩⟩, (Except.ok.inj he).symm⟩

theorem Given.det {s : TokSetup K T E I} {i : I} {p : Planned K} {r r' : List (Ref × T)} (h : Given s i p r) (h' : Given s i p r') :
    r = r' := by
  obtain ⟨own, h1, h2, h3⟩ := h
  obtain ⟨own', h1', h2', h3'⟩ := h'
  rw [h1] at h1'
  cases h1'
  cases he : p.weight.isEmbed with
  | false => rw [h2 he, h2' he]
  | true =>
    have := h3 he
    rw [h3' he] at this
    exact (Except.ok.inj this).symm

/-- There is at most one expected result. -/
theorem Expected.det {s : TokSetup K T E I} {i : I} {p : Planned K} {r r' : Option T} (h : Expected s i p r) (h' : Expected s i p r') :
    r = r' := by
  obtain ⟨ts, h1, h2⟩ := h
  obtain ⟨ts', h1', h2'⟩ := h'
  have := h1.det h1'
  subst this
  rcases h2 with ⟨y, z, a, b, rfl⟩ | ⟨a, _, rfl⟩ <;> rcases h2' with ⟨y', z', a', b', rfl⟩ | ⟨a', _, rfl⟩
  · rw [a] at a'
    cases a'
    have e1 := (save_some s.toSetup p.weight "" y (some ("", z))).2 ⟨z, rfl, b⟩
    have e2 := (save_some s.toSetup p.weight "" y (some ("", z'))).2 ⟨z', rfl, b'⟩
    rw [e1] at e2
    cases e2
    rfl
  · rw [a] at a'; cases a'
  · rw [a] at a'; cases a'
  · rfl

/-! ## Which tasks there are, and when one raises -/

/-- The tasks a plan consists of. -/
def Belongs (dtype : Option String) (ps : List (Planned K)) : Job K → Prop
  | .load m t => ∃ p ∈ ps, ∃ e ∈ p.inputs, m = e.1 ∧ t = wanted dtype e.2
  | .gather ws => ∃ p ∈ ps, ws = p.inputs
  | .tokenizer => True
  | .permuted ws b => ∃ p ∈ ps, ws = p.inputs ∧ b = p.baseModel ∧ p.weight.isEmbed = true
  | .merge p => p ∈ ps
  | .writer => True
  | .save p => p ∈ ps
  | .finalize qs => qs = ps

theorem belongs_args {dtype : Option String} {ps : List (Planned K)} {t x : Job K} {k : String} (h : Belongs dtype ps t)
    (hx : (k, x) ∈ (jobs K dtype).args t) : Belongs dtype ps x := by
  cases t with
  | load _ _ => cases hx
  | writer => cases hx
  | tokenizer => cases hx
  | gather ws =>
    obtain ⟨p, hp, rfl⟩ := h
    obtain ⟨e, he, hex⟩ := List.mem_map.1 hx
    cases hex
    obtain ⟨w, hw, rfl⟩ := List.mem_map.1 (dictOf_mem he)
    exact ⟨p, hp, w, hw, rfl, loadOf_eq _ _⟩
  | permuted ws b =>
    obtain ⟨p, hp, rfl, rfl, _⟩ := h
    simp [jobs, Job.args] at hx
    rcases hx with hx | hx
    · rw [hx.2]; trivial
    · rw [hx.2]; exact ⟨p, hp, rfl⟩
  | merge p =>
    simp [jobs, Job.args] at hx
    rw [hx.2]
    unfold inputTask
    split
    · rename_i he
      exact ⟨p, h, rfl, rfl, he⟩
    · exact ⟨p, h, rfl⟩
  | save p =>
    simp [jobs, Job.args] at hx
    rcases hx with hx | hx
    · rw [hx.2]; trivial
    · rw [hx.2]; exact h
  | finalize qs =>
    have hq : qs = ps := h
    subst hq
    rcases List.mem_cons.1 hx with hx | hx
    · cases hx; trivial
    · obtain ⟨e, he, hex⟩ := List.mem_map.1 hx
      cases hex
      exact List.fst_mem_of_mem_zipIdx he

theorem mem_targets {ps : List (Planned K)} {t : Job K} :
    t ∈ targets ps ↔ (∃ p ∈ ps, t = .save p) ∨ t = .finalize ps ∨ t = .tokenizer := by
  unfold targets
  constructor
  · intro h
    rcases List.mem_append.1 h with h | h
    · rcases List.mem_append.1 h with h | h
      · obtain ⟨p, hp, rfl⟩ := List.mem_map.1 h
        exact Or.inl ⟨p, hp, rfl⟩
      · exact Or.inr (Or.inl (List.mem_singleton.1 h))
    · exact Or.inr (Or.inr (List.mem_singleton.1 h))
  · rintro (⟨p, hp, rfl⟩ | rfl | rfl)
    · exact List.mem_append_left _ (List.mem_append_left _ (List.mem_map.2 ⟨p, hp, rfl⟩))
    · exact List.mem_append_left _ (List.mem_append_right _ (List.mem_singleton.2 rfl))
    · exact List.mem_append_right _ (List.mem_singleton.2 rfl)

theorem belongs_sub {dtype : Option String} {ps : List (Planned K)} {t x : Job K} (ht : t ∈ targets ps)
    (h : SubTask (jobs K dtype) t x) : Belongs dtype ps x := by
  have h0 : Belongs dtype ps t := by
    rcases mem_targets.1 ht with ⟨p, hp, rfl⟩ | rfl | rfl
    · exact hp
    · exact rfl
    · trivial
  induction h with
  | refl => exact h0
  | tail _ hx ih =>
    obtain ⟨k, hk⟩ := hx
    exact belongs_args ih hk

/-- If the tokenizer is built and every planned weight has an expected result, no task raises. -/
theorem no_error {s : TokSetup K T E I} {ps : List (Planned K)} (htold : ∀ p ∈ ps, Told p) {i : I} (hi : s.build = .ok i)
    (hall : ∀ p ∈ ps, ∃ r, Expected s i p r) {t : Job K} (ht : Belongs s.dtype ps t) {e : RunErr E} {vals : Job K → Val T I}
    (hd : ∀ a ∈ (jobs K s.dtype).args t, Value (jobs K s.dtype) (execJob s) a.2 (vals a.2))
    (he : execJob s t (((jobs K s.dtype).args t).map (fun a => (a.1, vals a.2))) = .error e) : False := by
  cases t with
  | load m t =>
    obtain ⟨p, hp, w, hw, rfl, rfl⟩ := ht
    obtain ⟨r, ts, ⟨own, h1, _⟩, _⟩ := hall p hp
    obtain ⟨x, hx⟩ := ownTensors_loads h1 w hw
    simp [execJob, hx] at he
  | gather ws => cases he
  | writer => cases he
  | finalize _ => cases he
  | tokenizer => simp [execJob, hi] at he
  | permuted ws b =>
    obtain ⟨p, hp, rfl, rfl, hemb⟩ := ht
    obtain ⟨r, ts, ⟨own, h1, _, h3⟩, _⟩ := hall p hp
    obtain ⟨own', h1', h2'⟩ := value_gather (htold p hp) (hd ("tensors", .gather p.inputs) (by simp [jobs, Job.args]))
    obtain ⟨i', h4, h5⟩ := value_tokenizer (hd ("tokenizer_info", .tokenizer) (by simp [jobs, Job.args]))
    rw [h1] at h2'
    cases h2'
    rw [hi] at h5
    cases h5
    simp only at h1' h4
    obtain ⟨a1, a2⟩ := permuted_args vals s.dtype p.inputs p.baseModel
    simp only [execJob, a1, a2, h1', h4, h3 hemb] at he
    cases he
  | merge p =>
    obtain ⟨r, ts, h1, h2⟩ := hall p ht
    obtain ⟨ts', h1', h2'⟩ := value_input (htold p ht) hi (hd ("tensors", inputTask p) (by simp [jobs, Job.args]))
    have := h1.det h2'
    subst this
    simp only at h1'
    simp only [execJob, jobs, Job.args, List.map_cons, List.map_nil, kwarg, List.find?_cons, decide_true, Option.map_some, h1'] at he
    rcases h2 with ⟨y, z, a, _⟩ | ⟨a, _⟩ <;> rw [a] at he <;> cases he
  | save p =>
    obtain ⟨r, ts, h1, h2⟩ := hall p ht
    obtain ⟨ts', x, h1', h2', h3'⟩ := value_merge (htold p ht) hi (hd ("tensor", .merge p) (by simp [jobs, Job.args]))
    have := h1.det h2'
    subst this
    simp only at h1'
    have hw : ("writer" = "tensor") = False := by decide
    simp only [execJob, jobs, Job.args, List.map_cons, List.map_nil, kwarg, List.find?_cons, decide_true, Option.map_some, h1', hw,
      decide_false] at he
    rcases h2 with ⟨y, z, a, b, _⟩ | ⟨a, b, _⟩
    · rw [a] at h3'
      cases h3'
      rw [(save_some s.toSetup p.weight (String.ofList p.weight.name) y (some (String.ofList p.weight.name, z))).2 ⟨z, rfl, b⟩] at he
      cases he
    · rw [a] at h3'
      cases h3'
      simp [saveExecute, b] at he

/-! ## What the writer is told -/

/-- The tensors handed to the writer. -/
def savedOf (l : List (Job K × Val T I)) : List (String × T) :=
  l.filterMap (fun e => match e.1, e.2 with
    | .save _, .saved x => x
    | _, _ => none)

/-- Saves, and `finalize` at the end: that is a session of the writer. -/
theorem writerRun_saves (conf : Writer.Conf) (size : T → Nat) (w : Writer.Writer T) (l : List (Job K × Val T I))
    (qs : List (Planned K)) (v : Val T I) (h : ∀ e ∈ l, ∃ p x, e = (.save p, .saved x)) :
    writerRun conf size w (l ++ [(.finalize qs, v)]) =
      (Writer.saveAll conf size w (savedOf l)).2 ++ (Writer.finalize conf (Writer.saveAll conf size w (savedOf l)).1).2 := by
  induction l generalizing w with
  | nil => simp [writerRun, savedOf, Writer.saveAll]
  | cons e l ih =>
    obtain ⟨p, x, rfl⟩ := h e List.mem_cons_self
    have ih := fun w => ih w (fun e he => h e (List.mem_cons_of_mem _ he))
    cases x with
    | none =>
      simp only [List.cons_append, writerRun]
      rw [ih]
      simp [savedOf]
    | some x =>
      simp only [List.cons_append, writerRun]
      rw [ih]
      simp [savedOf, Writer.saveAll]

/-- Everything but the tokenizer. -/
def others (l : List (Job K × Val T I)) : List (Job K × Val T I) := l.filter (fun e => decide (e.1 ≠ .tokenizer))

theorem writerRun_others (conf : Writer.Conf) (size : T → Nat) (w : Writer.Writer T) (l : List (Job K × Val T I)) :
    writerRun conf size w l = writerRun conf size w (others l) := by
  induction l generalizing w with
  | nil => rfl
  | cons e l ih =>
    obtain ⟨t, v⟩ := e
    by_cases ht : t = .tokenizer
    · subst ht
      have : others ((Job.tokenizer, v) :: l) = others l := by simp [others]
      rw [this, ← ih]
      rfl
    · have : others ((t, v) :: l) = (t, v) :: others l := by simp [others, ht]
      rw [this]
      cases t with
      | save p =>
        cases v with
        | saved x =>
          cases x with
          | none => simpa [writerRun] using ih w
          | some x => simp only [writerRun]; rw [ih]
        | _ => simpa [writerRun] using ih w
      | finalize ps => simp only [writerRun]; rw [ih]
      | _ => simpa [writerRun] using ih w

instance : Nonempty (Val T I) := ⟨.nothing⟩

/-- What a run that ends without an exception hands out: all saves, then the finalization, and the tokenizer somewhere. -/
theorem handed_shape (s : TokSetup K T E I) (ps : List (Planned K)) (group : Job K → String) (prio : Job K → Int)
    (pop : ∀ n, Graph.PopOracle n) :
    ∃ trace o, runTasks (jobs K s.dtype) group prio (execJob s) pop (targets ps) = some (trace, o) ∧
      (o = .finished → ∃ l v, others (handed (universeOf (jobs K s.dtype) (targets ps)).1 trace) = l ++ [(.finalize ps, v)] ∧
        (∀ e ∈ l, ∃ p ∈ ps, e.1 = .save p ∧ Value (jobs K s.dtype) (execJob s) (.save p) e.2) ∧
        (l.map Prod.fst).Nodup ∧ (∀ p ∈ ps, ∃ v, (.save p, v) ∈ l) ∧
        (∃ v, (.tokenizer, v) ∈ handed (universeOf (jobs K s.dtype) (targets ps)).1 trace) ∧
        ∀ t v, (t, v) ∈ handed (universeOf (jobs K s.dtype) (targets ps)).1 trace →
          t ∈ targets ps ∧ Value (jobs K s.dtype) (execJob s) t v) ∧
      (o = .finished ∨ ∃ (t : Job K) (e : RunErr E) (vals : Job K → Val T I), Belongs s.dtype ps t ∧
        (∀ a ∈ (jobs K s.dtype).args t, Value (jobs K s.dtype) (execJob s) a.2 (vals a.2)) ∧
        execJob s t (((jobs K s.dtype).args t).map (fun a => (a.1, vals a.2))) = .error e) := by
  obtain ⟨trace, o, hr, hnd, _, hbefore, hval, hfin, herr⟩ :=
    C02_tasks (jobs K s.dtype) group prio (execJob s) pop (targets ps)
  refine ⟨trace, o, hr, ?_, ?_⟩
  swap
  · rcases herr with h | ⟨t, e, vals, ⟨r, hr', hsub⟩, hd, he⟩
    · exact Or.inl h
    · exact Or.inr ⟨t, e, vals, belongs_sub hr' hsub, hd, he⟩
  intro ho
  have hsub0 := C02_tasks_order (jobs K s.dtype) group prio (execJob s) pop (targets ps) trace o hr ho
  obtain ⟨_, hall⟩ := hfin ho
  set H0 := handed (universeOf (jobs K s.dtype) (targets ps)).1 trace with hH0
  set D := executed (universeOf (jobs K s.dtype) (targets ps)).1 trace with hD
  set H := others H0 with hH
  have hsub : (H.map Prod.fst).Sublist D := ((List.filter_sublist (l := H0)).map Prod.fst).trans hsub0
  have hmemH : ∀ t v, (t, v) ∈ H ↔ (t, v) ∈ H0 ∧ t ≠ .tokenizer := by
    intro t v
    simp [hH, others]
  obtain ⟨v, hv0⟩ := hall (.finalize ps) (mem_targets.2 (Or.inr (Or.inl rfl)))
  have hv : (Job.finalize ps, v) ∈ H := (hmemH _ _).2 ⟨hv0, by simp⟩
  obtain ⟨l, b, hlb⟩ := List.append_of_mem hv
  have hHn : (H.map Prod.fst).Nodup := hnd.sublist hsub
  have hsaves : ∀ t v', (t, v') ∈ H → t ≠ .finalize ps → ∃ p ∈ ps, t = .save p := by
    intro t v' hin hne
    obtain ⟨h0, hnt⟩ := (hmemH _ _).1 hin
    rcases mem_targets.1 (hval t v' h0).1 with h | h | h
    · exact h
    · exact absurd h hne
    · exact absurd h hnt
  -- nothing comes after the finalization
  have hb : b = [] := by
    cases b with
    | nil => rfl
    | cons e b =>
      exfalso
      obtain ⟨t, v'⟩ := e
      have htin : (t, v') ∈ H := by rw [hlb]; simp
      have hne : t ≠ .finalize ps := by
        rintro rfl
        rw [hlb] at hHn
        simp only [List.map_append, List.map_cons] at hHn
        have := (List.nodup_append.1 hHn).2.1
        simp at this
      obtain ⟨p, hp, rfl⟩ := hsaves t v' htin hne
      rw [hlb] at hsub
      simp only [List.map_append, List.map_cons] at hsub
      obtain ⟨r1, r2, hr12, _, hs2⟩ := List.append_sublist_iff.1 hsub
      obtain ⟨q1, q2, hq12, hf1, hs3⟩ := List.cons_sublist_iff.1 hs2
      have hsv : Job.save p ∈ q2 := hs3.subset List.mem_cons_self
      obtain ⟨u, w, huw⟩ := List.append_of_mem hf1
      have hDeq : D = (r1 ++ u) ++ .finalize ps :: (w ++ q2) := by
        rw [hr12, hq12, huw]; simp
      obtain ⟨i, hi, hpi⟩ := List.getElem_of_mem hp
      have harg : ("_unused_" ++ Nat.repr i, Job.save p) ∈ (jobs K s.dtype).args (.finalize ps) := by
        refine List.mem_cons_of_mem _ (List.mem_map.2 ⟨(p, i), ?_, rfl⟩)
        rw [List.mem_zipIdx_iff_getElem?]
        rw [List.getElem?_eq_getElem hi, hpi]
      have hin := hbefore _ _ _ hDeq _ harg
      rw [hDeq] at hnd
      have := (List.nodup_append.1 hnd).2.2 _ hin (.save p) (by simp [hsv])
      exact this rfl
  subst hb
  refine ⟨l, v, hlb, ?_, ?_, ?_, hall .tokenizer (mem_targets.2 (Or.inr (Or.inr rfl))), fun t v h => hval t v h⟩
  · intro e he
    have hin : (e.1, e.2) ∈ H := by rw [hlb]; simp [he]
    have hne : e.1 ≠ .finalize ps := by
      intro h
      rw [hlb] at hHn
      simp only [List.map_append, List.map_cons, List.map_nil] at hHn
      have := (List.nodup_append.1 hHn).2.2 e.1 (List.mem_map.2 ⟨e, he, rfl⟩) (.finalize ps) (by simp)
      exact this h
    obtain ⟨p, hp, hpe⟩ := hsaves _ _ hin hne
    exact ⟨p, hp, hpe, by rw [← hpe]; exact (hval _ _ ((hmemH _ _).1 hin).1).2⟩
  · rw [hlb] at hHn
    simp only [List.map_append] at hHn
    exact (List.nodup_append.1 hHn).1
  · intro p hp
    obtain ⟨v', hv'⟩ := hall (.save p) (mem_targets.2 (Or.inl ⟨p, hp, rfl⟩))
    refine ⟨v', ?_⟩
    have hv' := (hmemH _ _).2 ⟨hv', by simp⟩
    rw [hlb] at hv'
    rcases List.mem_append.1 hv' with h | h
    · exact h
    · simp at h

/-- The names handed to the writer are distinct if those of the weights are. -/
theorem savedOf_nodup (ps : List (Planned K)) (hnames : ∀ p ∈ ps, ∀ q ∈ ps, p.weight.name = q.weight.name → p = q)
    (l : List (Job K × Val T I))
    (h : ∀ e ∈ l, ∃ p ∈ ps, ∃ r : Option T, e = (.save p, .saved (r.map (fun z => (String.ofList p.weight.name, z)))))
    (hn : (l.map Prod.fst).Nodup) : ((savedOf l).map Prod.fst).Nodup := by
  induction l with
  | nil => simp [savedOf]
  | cons e l ih =>
    have ih := ih (fun e he => h e (List.mem_cons_of_mem _ he)) (List.nodup_cons.1 hn).2
    obtain ⟨p, hp, r, rfl⟩ := h e List.mem_cons_self
    cases r with
    | none => simpa [savedOf] using ih
    | some z =>
      have e1 : savedOf ((Job.save p, Val.saved (I := I) ((some z).map (fun z => (String.ofList p.weight.name, z)))) :: l) =
          (String.ofList p.weight.name, z) :: savedOf l := by simp [savedOf]
      rw [e1, List.map_cons, List.nodup_cons]
      refine ⟨?_, ih⟩
      intro hin
      obtain ⟨⟨n, z'⟩, hz', hne⟩ := List.mem_map.1 hin
      obtain ⟨e', he', hx⟩ := List.mem_filterMap.1 hz'
      obtain ⟨q, hq, r', rfl⟩ := h e' (List.mem_cons_of_mem _ he')
      cases r' with
      | none => simp at hx
      | some z'' =>
        simp only [Option.map_some, Option.some.injEq, Prod.mk.injEq] at hx
        simp only at hne
        have hname : q.weight.name = p.weight.name := String.ofList_injective (hx.1.trans hne)
        have : q = p := hnames q hq p hp hname
        subst this
        exact (List.nodup_cons.1 hn).1 (List.mem_map.2 ⟨_, he', rfl⟩)

/-- One kind of tokenizer among the values: that is the one kept. -/
theorem keptInfo_eq (l : List (Job K × Val T I)) (i : I) (h : ∀ e ∈ l, ∀ j, e.2 = .info j → j = i) (hex : ∃ e ∈ l, e.2 = .info i) :
    keptInfo l = some i := by
  suffices hs : ∀ (l : List (Job K × Val T I)) (acc : Option I), (∀ e ∈ l, ∀ j, e.2 = .info j → j = i) →
      (acc = some i ∨ (acc = none ∧ ∃ e ∈ l, e.2 = .info i)) →
      l.foldl (fun acc e => match e.2 with
        | .info i => some i
        | _ => acc) acc = some i from hs l none h (Or.inr ⟨rfl, hex⟩)
  intro l
  induction l with
  | nil =>
    intro acc _ h
    rcases h with h | ⟨_, e, he, _⟩
    · exact h
    · cases he
  | cons e l ih =>
    intro acc hj h
    obtain ⟨t, v⟩ := e
    simp only [List.foldl_cons]
    apply ih _ (fun e he => hj e (List.mem_cons_of_mem _ he))
    cases v with
    | info j =>
      left
      rw [hj (t, .info j) List.mem_cons_self j rfl]
    | _ =>
      rcases h with h | ⟨h, e, he, hi⟩
      · exact Or.inl h
      · right
        refine ⟨h, e, ?_, hi⟩
        rcases List.mem_cons.1 he with rfl | he
        · cases hi
        · exact he

/-- The output directory holds what is expected: after the writer's actions (with or without threads) it is a checkpoint that lists exactly the
names of the planned weights that have a result, and reading a name gives that result. -/
def Delivered (s : TokSetup K T E I) (i : I) (ps : List (Planned K)) (acts : List (Writer.Action T)) : Prop :=
  ∃ fs, Writer.applyOps (fun _ => none) (Writer.syncOps acts) = some fs ∧
    (∀ r, Relation.ReflTransGen Writer.Step ⟨fun _ => none, [], acts⟩ r → (∀ r', ¬ Writer.Step r r') → r.fs = fs) ∧
    ∃ idx, Writer.fromDisk fs = .ok idx ∧
      (∀ name, name ∈ idx.tensorPaths.map Prod.fst ↔ ∃ p ∈ ps, ∃ z, Expected s i p (some z) ∧ name = String.ofList p.weight.name) ∧
      ∀ p ∈ ps, ∀ z, Expected s i p (some z) → ∀ hist aliases raise,
        (Writer.getTensor fs idx (Writer.afterHistory fs idx none hist) (String.ofList p.weight.name) aliases raise).1 = .ok (some z)

/-- Every save once, then the finalization: that delivers. -/
theorem files_of_saves (s : TokSetup K T E I) (ps : List (Planned K)) (i : I)
    (hnames : ∀ p ∈ ps, ∀ q ∈ ps, p.weight.name = q.weight.name → p = q)
    (conf : Writer.Conf) (hstd : conf.Standard) (size : T → Nat) (l : List (Job K × Val T I)) (v : Val T I)
    (hl' : ∀ e ∈ l, ∃ p ∈ ps, ∃ r : Option T, Expected s i p r ∧
      e = (.save p, .saved (r.map (fun z => (String.ofList p.weight.name, z)))))
    (hn : (l.map Prod.fst).Nodup) (hin : ∀ p ∈ ps, ∃ v, (.save p, v) ∈ l) (hsome : ∃ p ∈ ps, ∃ z, Expected s i p (some z)) :
    Delivered s i ps (writerRun conf size {} (l ++ [(.finalize ps, v)])) := by
  have hmem : ∀ n z, (n, z) ∈ savedOf l ↔ ∃ p ∈ ps, Expected s i p (some z) ∧ n = String.ofList p.weight.name := by
    intro n z
    constructor
    · intro h
      obtain ⟨e, he, hx⟩ := List.mem_filterMap.1 h
      obtain ⟨p, hp, r, hr, rfl⟩ := hl' e he
      cases r with
      | none => simp at hx
      | some z' =>
        simp only [Option.map_some, Option.some.injEq, Prod.mk.injEq] at hx
        obtain ⟨rfl, rfl⟩ := hx
        exact ⟨p, hp, hr, rfl⟩
    · rintro ⟨p, hp, hz, rfl⟩
      obtain ⟨v', hv'⟩ := hin p hp
      obtain ⟨q, hq, r, hr, he⟩ := hl' _ hv'
      cases he
      have := hz.det hr
      subst this
      exact List.mem_filterMap.2 ⟨_, hv', rfl⟩
  have hnd : ((savedOf l).map Prod.fst).Nodup :=
    savedOf_nodup ps hnames l (fun e he => by obtain ⟨p, hp, r, _, h⟩ := hl' e he; exact ⟨p, hp, r, h⟩) hn
  have hne : savedOf l ≠ [] := by
    obtain ⟨p, hp, z, hz⟩ := hsome
    exact List.ne_nil_of_mem ((hmem _ z).2 ⟨p, hp, hz, rfl⟩)
  rw [writerRun_saves conf size {} l ps v (by
    intro e he
    obtain ⟨p, _, r, _, h⟩ := hl' e he
    exact ⟨p, _, h⟩)]
  obtain ⟨fs, h1, idx, h2, h3, h4⟩ := Writer.C10_read_back conf hstd size (savedOf l) hnd hne
  obtain ⟨fs', h1', h5, _⟩ := Writer.C14_async_same conf size (savedOf l) hnd
  rw [h1] at h1'
  cases h1'
  refine ⟨fs, h1, fun r hr hstuck => (h5 r hr hstuck).2.2, idx, h2, ?_, ?_⟩
  · intro name
    rw [← Writer.dictGet_isSome, h3 name]
    constructor
    · intro h
      obtain ⟨⟨n, z⟩, hz, rfl⟩ := List.mem_map.1 h
      obtain ⟨p, hp, he, hn⟩ := (hmem n z).1 hz
      exact ⟨p, hp, z, he, hn⟩
    · rintro ⟨p, hp, z, hz, rfl⟩
      exact List.mem_map.2 ⟨_, (hmem _ z).2 ⟨p, hp, hz, rfl⟩, rfl⟩
  · intro p hp z hz hist aliases raise
    exact h4 hist _ z aliases raise ((hmem _ z).2 ⟨p, hp, hz, rfl⟩)

/-- **C115** A merge to disk that builds a tokenizer.  Whatever the plan, the input models, the method and the order the executor chooses: the run ends
without an exception exactly when the tokenizer can be built and every planned weight has an expected result; then the tokenizer kept (and saved next to the
tensors) is the one that was built, and the output directory - written with or without threads - is a checkpoint that lists exactly the names of the planned
weights (without optional ones for which there was nothing); reading a name gives that weight's result: what the models' own tensors, embeddings re-indexed
for that same tokenizer, are merged to by the method, in the type asked for.  Weight names are distinct, and inputs told apart (`Told`). -/
theorem C115_merge_to_disk (s : TokSetup K T E I) (ps : List (Planned K)) (htold : ∀ p ∈ ps, Told p)
    (hnames : ∀ p ∈ ps, ∀ q ∈ ps, p.weight.name = q.weight.name → p = q)
    (group : Job K → String) (prio : Job K → Int) (pop : ∀ n, Graph.PopOracle n)
    (conf : Writer.Conf) (hstd : conf.Standard) (size : T → Nat) :
    ∃ trace o, runTasks (jobs K s.dtype) group prio (execJob s) pop (targets ps) = some (trace, o) ∧
      (o = .finished ↔ ∃ i, s.build = .ok i ∧ ∀ p ∈ ps, ∃ r, Expected s i p r) ∧
      ∀ i, o = .finished → s.build = .ok i →
        keptInfo (handed (universeOf (jobs K s.dtype) (targets ps)).1 trace) = some i ∧
        ((∃ p ∈ ps, ∃ z, Expected s i p (some z)) →
        let acts := writerRun conf size {} (handed (universeOf (jobs K s.dtype) (targets ps)).1 trace)
        ∃ fs, Writer.applyOps (fun _ => none) (Writer.syncOps acts) = some fs ∧
          (∀ r, Relation.ReflTransGen Writer.Step ⟨fun _ => none, [], acts⟩ r → (∀ r', ¬ Writer.Step r r') → r.fs = fs) ∧
          ∃ idx, Writer.fromDisk fs = .ok idx ∧
            (∀ name, name ∈ idx.tensorPaths.map Prod.fst ↔
              ∃ p ∈ ps, ∃ z, Expected s i p (some z) ∧ name = String.ofList p.weight.name) ∧
            ∀ p ∈ ps, ∀ z, Expected s i p (some z) → ∀ hist aliases raise,
              (Writer.getTensor fs idx (Writer.afterHistory fs idx none hist) (String.ofList p.weight.name) aliases raise).1 =
                .ok (some z)) := by
  obtain ⟨trace, o, hr, hfin, herr⟩ := handed_shape s ps group prio pop
  have hbuilt : o = .finished → ∃ i, s.build = .ok i := by
    intro ho
    obtain ⟨_, _, _, _, _, _, ⟨v, hv⟩, hval⟩ := hfin ho
    obtain ⟨i, _, hi⟩ := value_tokenizer (hval _ _ hv).2
    exact ⟨i, hi⟩
  refine ⟨trace, o, hr, ⟨?_, ?_⟩, ?_⟩
  · intro ho
    obtain ⟨i, hi⟩ := hbuilt ho
    refine ⟨i, hi, fun p hp => ?_⟩
    obtain ⟨l, v, _, hl, _, hin, _⟩ := hfin ho
    obtain ⟨v', hv'⟩ := hin p hp
    obtain ⟨q, _, hq, hval⟩ := hl _ hv'
    cases hq
    obtain ⟨r, hr, _⟩ := value_save (htold p hp) hi hval
    exact ⟨r, hr⟩
  · rintro ⟨i, hi, hall⟩
    rcases herr with h | ⟨t, e, vals, hb, hd, he⟩
    · exact h
    · exact (no_error htold hi hall hb hd he).elim
  · intro i ho hi
    obtain ⟨l, v, hH, hl, hn, hin, ⟨vt, hvt⟩, hval⟩ := hfin ho
    refine ⟨?_, ?_⟩
    · apply keptInfo_eq
      · intro e he j hj
        obtain ⟨htar, hv⟩ := hval e.1 e.2 he
        rcases mem_targets.1 htar with ⟨p, hp, h⟩ | h | h
        · rw [h] at hv
          obtain ⟨r, _, hv⟩ := value_save (htold p hp) hi hv
          rw [hj] at hv
          cases hv
        · rw [h] at hv
          cases hv with
          | mk _ _ _ _ he =>
            simp only [execJob] at he
            rw [← Except.ok.inj he] at hj
            cases hj
        · rw [h] at hv
          obtain ⟨i', hv, hi'⟩ := value_tokenizer hv
          rw [hi] at hi'
          cases hi'
          rw [hj] at hv
          cases hv
          rfl
      · obtain ⟨i', hv, hi'⟩ := value_tokenizer (hval _ _ hvt).2
        rw [hi] at hi'
        cases hi'
        exact ⟨_, hvt, hv⟩
    · intro hsome
      have hl' : ∀ e ∈ l, ∃ p ∈ ps, ∃ r : Option T, Expected s i p r ∧
          e = (.save p, .saved (r.map (fun z => (String.ofList p.weight.name, z)))) := by
        intro e he
        obtain ⟨p, hp, h1, h2⟩ := hl e he
        obtain ⟨r, hr, hv⟩ := value_save (htold p hp) hi h2
        exact ⟨p, hp, r, hr, by rw [← h1, ← hv]⟩
      have := files_of_saves s ps i hnames conf hstd size l v hl' hn hin hsome
      rw [← hH, ← writerRun_others] at this
      exact this

end

end Verif.WholeTok
