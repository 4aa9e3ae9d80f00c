import Verif.Model.WholeMerge
import Verif.Props.Pipeline
import Verif.Props.LoadTask
import Verif.Props.Writer
import Verif.Props.Linear

/-! # C104: a merge to disk from one end to the other -/

set_option linter.unusedSectionVars false

namespace Verif.WholeMerge

open Verif.ModelRef (Str Ref)
open Verif.LoadTask (LoadTensor WeightInfo Casts Loader gatherArguments gatherExecute saveExecute ownTensors wanted typeNames
  gather evalArguments gather_of_keys C19_gather_partial C18_type_names loadOf_eq)
open Verif.Plan (Planned)
open Verif.Universe (TaskSystem SubTask Universe)
open Verif.Pipeline

section
variable {K T E : Type} [DecidableEq K]

/-! ## Specification -/

/-- The type a weight is stored with: its own if it has one, otherwise the one the configuration asks for. -/
def storedType (outDtype : Option String) (w : WeightInfo) : Option String :=
  if w.forceDtype = none ∨ w.forceDtype = some "" then outDtype else w.forceDtype

/-- `z` is `y` as stored. -/
inductive Stored (s : Setup K T E) (w : WeightInfo) (y : T) : T → Prop
  | unchanged : storedType s.outDtype w = none ∨ storedType s.outDtype w = some "" → Stored s w y y
  | cast (n : String) (d : LoadTask.DType) : storedType s.outDtype w = some n → n ≠ "" → (n, d) ∈ typeNames →
      Stored s w y (s.casts.cast d y)

/-- What the output should have for a planned weight: the models' own tensors, merged by the method, in the type asked for;
nothing only if the method returns nothing and the weight is optional. -/
def Expected (s : Setup K T E) (p : Planned K) (r : Option T) : Prop :=
  ∃ ts, ownTensors s.casts s.loaders s.dtype p.inputs = .ok ts ∧
    ((∃ y z, s.method p ts = .ok (some y) ∧ Stored s p.weight y z ∧ r = some z) ∨
     (s.method p ts = .ok none ∧ p.weight.optional = true ∧ r = none))

/-- The inputs of a weight are told apart: no model twice, and references and weight names without the characters that would make two
of them print alike (see C19, C24). -/
structure Told (p : Planned K) : Prop where
  once : (p.inputs.map Prod.fst).Nodup
  plain : ∀ e ∈ p.inputs, e.1.Plain
  names : ∀ e ∈ p.inputs, ':' ∉ e.2.name

/-! ## Values of the tasks -/

theorem told_gather {s : Setup K T E} {p : Planned K} (h : Told p) (r : List (Ref × T))
    (hg : gather s.casts s.loaders s.dtype p.inputs = .ok r) : ownTensors s.casts s.loaders s.dtype p.inputs = .ok r := by
  obtain ⟨h1, h2⟩ := C19_gather_partial s.casts s.loaders s.dtype p.inputs h.once h.plain h.names
  cases ho : ownTensors s.casts s.loaders s.dtype p.inputs with
  | ok r' =>
    have := h1 r' ho
    rw [hg] at this
    rw [Except.ok.inj this]
  | error e =>
    have := h2 e ho
    rw [hg] at this
    cases this

theorem value_load {s : Setup K T E} {m : Ref} {t : LoadTensor} {v : Val T}
    (h : Value (jobs K s.dtype) (execJob s) (.load m t) v) :
    ∃ x, v = .tensor x ∧ t.execute s.casts (s.loaders m) = .ok x := by
  cases h with
  | mk _ _ vals _ he =>
    simp only [execJob] at he
    split at he
    · cases he
    · rename_i x hx
      exact ⟨x, (Except.ok.inj he).symm, hx⟩

theorem eval_of_vals (s : Setup K T E) (vals : Job K → Val T) (l : List (Str × (Ref × LoadTensor)))
    (h : ∀ e ∈ l, Value (jobs K s.dtype) (execJob s) (.load e.2.1 e.2.2) (vals (.load e.2.1 e.2.2))) :
    evalArguments s.casts s.loaders l =
      .ok (tensorArgs (l.map (fun e => (String.ofList e.1, vals (.load e.2.1 e.2.2))))) := by
  induction l with
  | nil => rfl
  | cons e l ih =>
    obtain ⟨k, m, t⟩ := e
    obtain ⟨x, hx, he⟩ := value_load (h (k, m, t) List.mem_cons_self)
    simp only [evalArguments, he]
    rw [ih (fun e he => h e (List.mem_cons_of_mem _ he))]
    simp only at hx
    simp [tensorArgs, hx]

theorem value_gather {s : Setup K T E} {p : Planned K} (ht : Told p) {v : Val T}
    (h : Value (jobs K s.dtype) (execJob s) (.gather p.inputs) v) :
    ∃ ts, v = .dict ts ∧ ownTensors s.casts s.loaders s.dtype p.inputs = .ok ts := by
  cases h with
  | mk _ _ vals hd he =>
    simp only [execJob] at he
    refine ⟨_, (Except.ok.inj he).symm, ?_⟩
    apply told_gather ht
    have hev := eval_of_vals s vals (gatherArguments s.dtype p.inputs) (by
      intro e hin
      exact hd (String.ofList e.1, .load e.2.1 e.2.2) (List.mem_map.2 ⟨e, hin, rfl⟩))
    unfold gather
    rw [hev]
    simp only [jobs, Job.args, List.map_map]
    rfl

theorem value_merge {s : Setup K T E} {p : Planned K} (ht : Told p) {v : Val T}
    (h : Value (jobs K s.dtype) (execJob s) (.merge p) v) :
    ∃ ts x, v = .tensor x ∧ ownTensors s.casts s.loaders s.dtype p.inputs = .ok ts ∧ s.method p ts = .ok x := by
  cases h with
  | mk _ _ vals hd he =>
    obtain ⟨ts, h1, h2⟩ := value_gather ht (hd ("tensors", .gather p.inputs) (by simp [jobs, Job.args]))
    simp only at h1
    simp only [execJob, jobs, Job.args, List.map_cons, List.map_nil, kwarg, List.find?_cons, decide_true, Option.map_some, h1] at he
    split at he
    · cases he
    · rename_i x hx
      exact ⟨ts, x, (Except.ok.inj he).symm, h2, hx⟩

theorem saveDtype_eq (o : Option String) (w : WeightInfo) : saveDtype o w = storedType o w := by
  unfold saveDtype storedType
  cases h : w.forceDtype with
  | none => simp
  | some d => by_cases hd : d = "" <;> simp [hd]

theorem save_some (s : Setup K T E) (w : WeightInfo) (name : String) (y : T) (r : Option (String × T)) :
    saveExecute s.casts name w.optional (saveDtype s.outDtype w) (some y) = .ok r ↔
      ∃ z, r = some (name, z) ∧ Stored s w y z := by
  rw [saveDtype_eq]
  unfold saveExecute
  constructor
  · intro h
    simp only at h
    split at h
    · rename_i hn
      exact ⟨y, (Except.ok.inj h).symm, .unchanged (Or.inl hn)⟩
    · rename_i n hn
      split at h
      · rename_i he
        subst he
        exact ⟨y, (Except.ok.inj h).symm, .unchanged (Or.inr hn)⟩
      · rename_i hne
        split at h
        · cases h
        · rename_i d hd
          exact ⟨_, (Except.ok.inj h).symm, .cast n d hn hne (((C18_type_names n).1 d).1 hd)⟩
  · rintro ⟨z, rfl, hz⟩
    cases hz with
    | unchanged h =>
      rcases h with h | h
      · simp [h]
      · simp [h]
    | cast n d hn hne hd => simp [hn, hne, ((C18_type_names n).1 d).2 hd]

theorem value_save {s : Setup K T E} {p : Planned K} (ht : Told p) {v : Val T}
    (h : Value (jobs K s.dtype) (execJob s) (.save p) v) :
    ∃ r, Expected s p r ∧ v = .saved (r.map (fun z => (String.ofList p.weight.name, z))) := by
  cases h with
  | mk _ _ vals hd he =>
    obtain ⟨ts, x, h1, h2, h3⟩ := value_merge ht (hd ("tensor", .merge p) (by simp [jobs, Job.args]))
    simp only at h1
    have hw : ("writer" = "tensor") = False := by decide
    simp only [execJob, jobs, Job.args, List.map_cons, List.map_nil, kwarg, List.find?_cons, decide_true, Option.map_some, h1, hw,
      decide_false] at he
    split at he
    · cases he
    · rename_i r hr
      cases x with
      | none =>
        have : r = none ∧ p.weight.optional = true := by
          unfold saveExecute at hr
          simp only at hr
          split at hr
          · rename_i ho
            exact ⟨(Except.ok.inj hr).symm, ho⟩
          · cases hr
        refine ⟨none, ⟨ts, h2, Or.inr ⟨h3, this.2, rfl⟩⟩, ?_⟩
        rw [← Except.ok.inj he, this.1]
        rfl
      | some y =>
        obtain ⟨z, rfl, hz⟩ := (save_some s p.weight _ y r).1 hr
        exact ⟨some z, ⟨ts, h2, Or.inl ⟨y, z, h3, hz, rfl⟩⟩, (Except.ok.inj he).symm⟩

/-- There is at most one expected result. -/
theorem Expected.det {s : Setup K T E} {p : Planned K} {r r' : Option T} (h : Expected s p r) (h' : Expected s p r') : r = r' := by
  obtain ⟨ts, h1, h2⟩ := h
  obtain ⟨ts', h1', h2'⟩ := h'
  rw [h1] at h1'
  cases h1'
  rcases h2 with ⟨y, z, a, b, rfl⟩ | ⟨a, _, rfl⟩ <;> rcases h2' with ⟨y', z', a', b', rfl⟩ | ⟨a', _, rfl⟩
  · rw [a] at a'
    cases a'
    have e1 := (save_some s p.weight "" y (some ("", z))).2 ⟨z, rfl, b⟩
    have e2 := (save_some s p.weight "" y (some ("", z'))).2 ⟨z', rfl, b'⟩
    rw [e1] at e2
    cases e2
    rfl
  · rw [a] at a'; cases a'
  · rw [a] at a'; cases a'
  · rfl

/-! ## Which tasks there are, and when one raises -/

/-- The tasks a plan consists of. -/
def Belongs (dtype : Option String) (ps : List (Planned K)) : Job K → Prop
  | .load m t => ∃ p ∈ ps, ∃ e ∈ p.inputs, m = e.1 ∧ t = wanted dtype e.2
  | .gather ws => ∃ p ∈ ps, ws = p.inputs
  | .merge p => p ∈ ps
  | .writer => True
  | .save p => p ∈ ps
  | .finalize qs => qs = ps

theorem dictSet_mem {V : Type} {d : List (Str × V)} {k : Str} {v : V} {x : Str × V}
    (h : x ∈ LoadTask.dictSet d k v) : x ∈ d ∨ x = (k, v) := by
  unfold LoadTask.dictSet at h
  split at h
  · obtain ⟨e, he, hx⟩ := List.mem_map.1 h
    split at hx
    · exact Or.inr hx.symm
    · subst hx; exact Or.inl he
  · simpa using h

theorem dictOf_mem {V : Type} {es : List (Str × V)} {x : Str × V} (h : x ∈ LoadTask.dictOf es) : x ∈ es := by
  unfold LoadTask.dictOf at h
  suffices hs : ∀ (es d : List (Str × V)), x ∈ es.foldl (fun d e => LoadTask.dictSet d e.1 e.2) d → x ∈ d ∨ x ∈ es by
    simpa using hs es [] h
  clear h es
  intro es
  induction es with
  | nil => intro d h; exact Or.inl h
  | cons e es ih =>
    intro d h
    rcases ih _ h with h | h
    · rcases dictSet_mem h with h | h
      · exact Or.inl h
      · right; rw [h]; exact List.mem_cons_self
    · exact Or.inr (List.mem_cons_of_mem _ h)

theorem belongs_args {dtype : Option String} {ps : List (Planned K)} {t x : Job K} {k : String} (h : Belongs dtype ps t)
    (hx : (k, x) ∈ (jobs K dtype).args t) : Belongs dtype ps x := by
  cases t with
  | load _ _ => cases hx
  | writer => cases hx
  | gather ws =>
    obtain ⟨p, hp, rfl⟩ := h
    obtain ⟨e, he, hex⟩ := List.mem_map.1 hx
    cases hex
    obtain ⟨w, hw, rfl⟩ := List.mem_map.1 (dictOf_mem he)
    exact ⟨p, hp, w, hw, rfl, loadOf_eq _ _⟩
  | merge p =>
    simp [jobs, Job.args] at hx
    rw [hx.2]
    exact ⟨p, h, rfl⟩
  | save p =>
    simp [jobs, Job.args] at hx
    rcases hx with hx | hx
    · rw [hx.2]; trivial
    · rw [hx.2]; exact h
  | finalize qs =>
    have hq : qs = ps := h
    subst hq
    rcases List.mem_cons.1 hx with hx | hx
    · cases hx; trivial
    · obtain ⟨e, he, hex⟩ := List.mem_map.1 hx
      cases hex
      exact List.fst_mem_of_mem_zipIdx he

theorem belongs_sub {dtype : Option String} {ps : List (Planned K)} {t x : Job K} (ht : t ∈ targets ps)
    (h : SubTask (jobs K dtype) t x) : Belongs dtype ps x := by
  have h0 : Belongs dtype ps t := by
    rcases List.mem_append.1 ht with ht | ht
    · obtain ⟨p, hp, rfl⟩ := List.mem_map.1 ht
      exact hp
    · simp at ht; subst ht; exact rfl
  induction h with
  | refl => exact h0
  | tail _ hx ih =>
    obtain ⟨k, hk⟩ := hx
    exact belongs_args ih hk

theorem ownTensors_loads {c : Casts T} {loaders : Ref → Loader T} {dtype : Option String} {ws : List (Ref × WeightInfo)}
    {ts : List (Ref × T)} (h : ownTensors c loaders dtype ws = .ok ts) (e : Ref × WeightInfo) (he : e ∈ ws) :
    ∃ x, (wanted dtype e.2).execute c (loaders e.1) = .ok x := by
  induction ws generalizing ts with
  | nil => cases he
  | cons w ws ih =>
    obtain ⟨m, wi⟩ := w
    simp only [ownTensors] at h
    split at h
    · cases h
    · rename_i v hv
      rcases List.mem_cons.1 he with rfl | he
      · exact ⟨v, hv⟩
      · split at h
        · cases h
        · rename_i r hr
          exact ih hr he

/-- If every planned weight has an expected result, no task raises. -/
theorem no_error {s : Setup K T E} {ps : List (Planned K)} (htold : ∀ p ∈ ps, Told p)
    (hall : ∀ p ∈ ps, ∃ r, Expected s p r) {t : Job K} (ht : Belongs s.dtype ps t) {e : RunErr E} {vals : Job K → Val T}
    (hd : ∀ a ∈ (jobs K s.dtype).args t, Value (jobs K s.dtype) (execJob s) a.2 (vals a.2))
    (he : execJob s t (((jobs K s.dtype).args t).map (fun a => (a.1, vals a.2))) = .error e) : False := by
  cases t with
  | load m t =>
    obtain ⟨p, hp, w, hw, rfl, rfl⟩ := ht
    obtain ⟨r, ts, h1, _⟩ := hall p hp
    obtain ⟨x, hx⟩ := ownTensors_loads h1 w hw
    simp [execJob, hx] at he
  | gather ws => cases he
  | writer => cases he
  | finalize _ => cases he
  | merge p =>
    obtain ⟨r, ts, h1, h2⟩ := hall p ht
    obtain ⟨ts', h1', h2'⟩ := value_gather (htold p ht) (hd ("tensors", .gather p.inputs) (by simp [jobs, Job.args]))
    rw [h1] at h2'
    cases h2'
    simp only at h1'
    simp only [execJob, jobs, Job.args, List.map_cons, List.map_nil, kwarg, List.find?_cons, decide_true, Option.map_some, h1'] at he
    rcases h2 with ⟨y, z, a, _⟩ | ⟨a, _⟩ <;> rw [a] at he <;> cases he
  | save p =>
    obtain ⟨r, ts, h1, h2⟩ := hall p ht
    obtain ⟨ts', x, h1', h2', h3'⟩ := value_merge (htold p ht) (hd ("tensor", .merge p) (by simp [jobs, Job.args]))
    rw [h1] at h2'
    cases h2'
    simp only at h1'
    have hw : ("writer" = "tensor") = False := by decide
    simp only [execJob, jobs, Job.args, List.map_cons, List.map_nil, kwarg, List.find?_cons, decide_true, Option.map_some, h1', hw,
      decide_false] at he
    rcases h2 with ⟨y, z, a, b, _⟩ | ⟨a, b, _⟩
    · rw [a] at h3'
      cases h3'
      rw [(save_some s p.weight (String.ofList p.weight.name) y (some (String.ofList p.weight.name, z))).2 ⟨z, rfl, b⟩] at he
      cases he
    · rw [a] at h3'
      cases h3'
      simp [saveExecute, b] at he

/-! ## What the writer is told -/

/-- The tensors handed to the writer. -/
def savedOf (l : List (Job K × Val T)) : List (String × T) :=
  l.filterMap (fun e => match e.1, e.2 with
    | .save _, .saved x => x
    | _, _ => none)

/-- Saves, and `finalize` at the end: that is a session of the writer. -/
theorem writerRun_saves (conf : Writer.Conf) (size : T → Nat) (w : Writer.Writer T) (l : List (Job K × Val T))
    (qs : List (Planned K)) (v : Val T) (h : ∀ e ∈ l, ∃ p x, e = (.save p, .saved x)) :
    writerRun conf size w (l ++ [(.finalize qs, v)]) =
      (Writer.saveAll conf size w (savedOf l)).2 ++ (Writer.finalize conf (Writer.saveAll conf size w (savedOf l)).1).2 := by
  induction l generalizing w with
  | nil => simp [writerRun, savedOf, Writer.saveAll]
  | cons e l ih =>
    obtain ⟨p, x, rfl⟩ := h e List.mem_cons_self
    have ih := fun w => ih w (fun e he => h e (List.mem_cons_of_mem _ he))
    cases x with
    | none =>
      simp only [List.cons_append, writerRun]
      rw [ih]
      simp [savedOf]
    | some x =>
      simp only [List.cons_append, writerRun]
      rw [ih]
      simp [savedOf, Writer.saveAll]

instance : Nonempty (Val T) := ⟨.nothing⟩

/-- What a run that ends without an exception hands out: all saves, then the finalization. -/
theorem handed_shape (s : Setup K T E) (ps : List (Planned K)) (group : Job K → String) (prio : Job K → Int)
    (pop : ∀ n, Graph.PopOracle n) :
    ∃ trace o, runTasks (jobs K s.dtype) group prio (execJob s) pop (targets ps) = some (trace, o) ∧
      (o = .finished → ∃ l v, handed (universeOf (jobs K s.dtype) (targets ps)).1 trace = l ++ [(.finalize ps, v)] ∧
        (∀ e ∈ l, ∃ p ∈ ps, e.1 = .save p ∧ Value (jobs K s.dtype) (execJob s) (.save p) e.2) ∧
        (l.map Prod.fst).Nodup ∧ ∀ p ∈ ps, ∃ v, (.save p, v) ∈ l) ∧
      (o = .finished ∨ ∃ (t : Job K) (e : RunErr E) (vals : Job K → Val T), Belongs s.dtype ps t ∧
        (∀ a ∈ (jobs K s.dtype).args t, Value (jobs K s.dtype) (execJob s) a.2 (vals a.2)) ∧
        execJob s t (((jobs K s.dtype).args t).map (fun a => (a.1, vals a.2))) = .error e) := by
  obtain ⟨trace, o, hr, hnd, _, hbefore, hval, hfin, herr⟩ :=
    C02_tasks (jobs K s.dtype) group prio (execJob s) pop (targets ps)
  refine ⟨trace, o, hr, ?_, ?_⟩
  swap
  · rcases herr with h | ⟨t, e, vals, ⟨r, hr', hsub⟩, hd, he⟩
    · exact Or.inl h
    · exact Or.inr ⟨t, e, vals, belongs_sub hr' hsub, hd, he⟩
  intro ho
  have hsub := C02_tasks_order (jobs K s.dtype) group prio (execJob s) pop (targets ps) trace o hr ho
  obtain ⟨_, hall⟩ := hfin ho
  set H := handed (universeOf (jobs K s.dtype) (targets ps)).1 trace with hH
  set D := executed (universeOf (jobs K s.dtype) (targets ps)).1 trace with hD
  obtain ⟨v, hv⟩ := hall (.finalize ps) (by simp [targets])
  obtain ⟨l, b, hlb⟩ := List.append_of_mem hv
  have hHn : (H.map Prod.fst).Nodup := hnd.sublist hsub
  -- nothing comes after the finalization
  have hb : b = [] := by
    cases b with
    | nil => rfl
    | cons e b =>
      exfalso
      obtain ⟨t, v'⟩ := e
      have htin : (t, v') ∈ H := by rw [hlb]; simp
      obtain ⟨htt, _⟩ := hval t v' htin
      have hne : t ≠ .finalize ps := by
        rintro rfl
        rw [hlb] at hHn
        simp only [List.map_append, List.map_cons] at hHn
        have := (List.nodup_append.1 hHn).2.1
        simp at this
      have hsave : ∃ p ∈ ps, t = .save p := by
        rcases List.mem_append.1 htt with h | h
        · obtain ⟨p, hp, rfl⟩ := List.mem_map.1 h
          exact ⟨p, hp, rfl⟩
        · simp at h; exact absurd h hne
      obtain ⟨p, hp, rfl⟩ := hsave
      rw [hlb] at hsub
      simp only [List.map_append, List.map_cons] at hsub
      obtain ⟨r1, r2, hr12, _, hs2⟩ := List.append_sublist_iff.1 hsub
      obtain ⟨q1, q2, hq12, hf1, hs3⟩ := List.cons_sublist_iff.1 hs2
      have hsv : Job.save p ∈ q2 := hs3.subset List.mem_cons_self
      obtain ⟨u, w, huw⟩ := List.append_of_mem hf1
      have hDeq : D = (r1 ++ u) ++ .finalize ps :: (w ++ q2) := by
        rw [hr12, hq12, huw]; simp
      obtain ⟨i, hi, hpi⟩ := List.getElem_of_mem hp
      have harg : ("_unused_" ++ Nat.repr i, Job.save p) ∈ (jobs K s.dtype).args (.finalize ps) := by
        refine List.mem_cons_of_mem _ (List.mem_map.2 ⟨(p, i), ?_, rfl⟩)
        rw [List.mem_zipIdx_iff_getElem?]
        rw [List.getElem?_eq_getElem hi, hpi]
      have hin := hbefore _ _ _ hDeq _ harg
      rw [hDeq] at hnd
      have := (List.nodup_append.1 hnd).2.2 _ hin (.save p) (by simp [hsv])
      exact this rfl
  subst hb
  refine ⟨l, v, hlb, ?_, ?_, ?_⟩
  · intro e he
    have hin : (e.1, e.2) ∈ H := by rw [hlb]; simp [he]
    obtain ⟨htt, hvv⟩ := hval e.1 e.2 hin
    rcases List.mem_append.1 htt with h | h
    · obtain ⟨p, hp, hpe⟩ := List.mem_map.1 h
      exact ⟨p, hp, hpe.symm, by rw [hpe]; exact hvv⟩
    · exfalso
      simp at h
      rw [hlb] at hHn
      simp only [List.map_append, List.map_cons, List.map_nil] at hHn
      have := (List.nodup_append.1 hHn).2.2 e.1 (List.mem_map.2 ⟨e, he, rfl⟩) (.finalize ps) (by simp)
      exact this h
  · rw [hlb] at hHn
    simp only [List.map_append] at hHn
    exact (List.nodup_append.1 hHn).1
  · intro p hp
    obtain ⟨v', hv'⟩ := hall (.save p) (by simp [targets, hp])
    refine ⟨v', ?_⟩
    rw [hlb] at hv'
    rcases List.mem_append.1 hv' with h | h
    · exact h
    · simp at h

/-- The names handed to the writer are distinct if those of the weights are. -/
theorem savedOf_nodup (ps : List (Planned K)) (hnames : ∀ p ∈ ps, ∀ q ∈ ps, p.weight.name = q.weight.name → p = q)
    (l : List (Job K × Val T))
    (h : ∀ e ∈ l, ∃ p ∈ ps, ∃ r : Option T, e = (.save p, .saved (r.map (fun z => (String.ofList p.weight.name, z)))))
    (hn : (l.map Prod.fst).Nodup) : ((savedOf l).map Prod.fst).Nodup := by
  induction l with
  | nil => simp [savedOf]
  | cons e l ih =>
    have ih := ih (fun e he => h e (List.mem_cons_of_mem _ he)) (List.nodup_cons.1 hn).2
    obtain ⟨p, hp, r, rfl⟩ := h e List.mem_cons_self
    cases r with
    | none => simpa [savedOf] using ih
    | some z =>
      have e1 : savedOf ((Job.save p, Val.saved ((some z).map (fun z => (String.ofList p.weight.name, z)))) :: l) =
          (String.ofList p.weight.name, z) :: savedOf l := by simp [savedOf]
      rw [e1, List.map_cons, List.nodup_cons]
      refine ⟨?_, ih⟩
      intro hin
      obtain ⟨⟨n, z'⟩, hz', hne⟩ := List.mem_map.1 hin
      obtain ⟨e', he', hx⟩ := List.mem_filterMap.1 hz'
      obtain ⟨q, hq, r', rfl⟩ := h e' (List.mem_cons_of_mem _ he')
      cases r' with
      | none => simp at hx
      | some z'' =>
        simp only [Option.map_some, Option.some.injEq, Prod.mk.injEq] at hx
        simp only at hne
        have hname : q.weight.name = p.weight.name := String.ofList_injective (hx.1.trans hne)
        have : q = p := hnames q hq p hp hname
        subst this
        exact (List.nodup_cons.1 hn).1 (List.mem_map.2 ⟨_, he', rfl⟩)

/-- **C104** A merge to disk.  Whatever the plan, the input models, the method and the order the executor chooses: the run ends without
an exception exactly when every planned weight has an expected result; then the output directory - written with or without threads -
is a checkpoint that lists exactly the names of the planned weights (without optional ones for which there was nothing), and whatever
was read before, reading a name gives that weight's result: the models' own tensors, merged by the method, in the type asked for.
Weight names are distinct, and inputs told apart (`Told`). -/
theorem C104_merge_to_disk (s : Setup K T E) (ps : List (Planned K)) (htold : ∀ p ∈ ps, Told p)
    (hnames : ∀ p ∈ ps, ∀ q ∈ ps, p.weight.name = q.weight.name → p = q)
    (group : Job K → String) (prio : Job K → Int) (pop : ∀ n, Graph.PopOracle n)
    (conf : Writer.Conf) (hstd : conf.Standard) (size : T → Nat) :
    ∃ trace o, runTasks (jobs K s.dtype) group prio (execJob s) pop (targets ps) = some (trace, o) ∧
      (o = .finished ↔ ∀ p ∈ ps, ∃ r, Expected s p r) ∧
      (o = .finished → (∃ p ∈ ps, ∃ z, Expected s p (some z)) →
        let acts := writerRun conf size {} (handed (universeOf (jobs K s.dtype) (targets ps)).1 trace)
        ∃ fs, Writer.applyOps (fun _ => none) (Writer.syncOps acts) = some fs ∧
          (∀ r, Relation.ReflTransGen Writer.Step ⟨fun _ => none, [], acts⟩ r → (∀ r', ¬ Writer.Step r r') → r.fs = fs) ∧
          ∃ idx, Writer.fromDisk fs = .ok idx ∧
            (∀ name, name ∈ idx.tensorPaths.map Prod.fst ↔
              ∃ p ∈ ps, ∃ z, Expected s p (some z) ∧ name = String.ofList p.weight.name) ∧
            ∀ p ∈ ps, ∀ z, Expected s p (some z) → ∀ hist aliases raise,
              (Writer.getTensor fs idx (Writer.afterHistory fs idx none hist) (String.ofList p.weight.name) aliases raise).1 =
                .ok (some z)) := by
  obtain ⟨trace, o, hr, hfin, herr⟩ := handed_shape s ps group prio pop
  refine ⟨trace, o, hr, ⟨?_, ?_⟩, ?_⟩
  · intro ho p hp
    obtain ⟨l, v, _, hl, _, hin⟩ := hfin ho
    obtain ⟨v', hv'⟩ := hin p hp
    obtain ⟨q, _, hq, hval⟩ := hl _ hv'
    cases hq
    obtain ⟨r, hr, _⟩ := value_save (htold p hp) hval
    exact ⟨r, hr⟩
  · intro hall
    rcases herr with h | ⟨t, e, vals, hb, hd, he⟩
    · exact h
    · exact (no_error htold hall hb hd he).elim
  · intro ho hsome
    obtain ⟨l, v, hH, hl, hn, hin⟩ := hfin ho
    have hl' : ∀ e ∈ l, ∃ p ∈ ps, ∃ r : Option T, Expected s p r ∧
        e = (.save p, .saved (r.map (fun z => (String.ofList p.weight.name, z)))) := by
      intro e he
      obtain ⟨p, hp, h1, h2⟩ := hl e he
      obtain ⟨r, hr, hv⟩ := value_save (htold p hp) h2
      exact ⟨p, hp, r, hr, by rw [← h1, ← hv]⟩
    have hmem : ∀ n z, (n, z) ∈ savedOf l ↔ ∃ p ∈ ps, Expected s p (some z) ∧ n = String.ofList p.weight.name := by
      intro n z
      constructor
      · intro h
        obtain ⟨e, he, hx⟩ := List.mem_filterMap.1 h
        obtain ⟨p, hp, r, hr, rfl⟩ := hl' e he
        cases r with
        | none => simp at hx
        | some z' =>
          simp only [Option.map_some, Option.some.injEq, Prod.mk.injEq] at hx
          obtain ⟨rfl, rfl⟩ := hx
          exact ⟨p, hp, hr, rfl⟩
      · rintro ⟨p, hp, hz, rfl⟩
        obtain ⟨v', hv'⟩ := hin p hp
        obtain ⟨q, hq, r, hr, he⟩ := hl' _ hv'
        cases he
        have := hz.det hr
        subst this
        exact List.mem_filterMap.2 ⟨_, hv', rfl⟩
    have hnd : ((savedOf l).map Prod.fst).Nodup :=
      savedOf_nodup ps hnames l (fun e he => by obtain ⟨p, hp, r, _, h⟩ := hl' e he; exact ⟨p, hp, r, h⟩) hn
    have hne : savedOf l ≠ [] := by
      obtain ⟨p, hp, z, hz⟩ := hsome
      exact List.ne_nil_of_mem ((hmem _ z).2 ⟨p, hp, hz, rfl⟩)
    simp only
    rw [hH, writerRun_saves conf size {} l ps v (by
      intro e he
      obtain ⟨p, _, r, _, h⟩ := hl' e he
      exact ⟨p, _, h⟩)]
    obtain ⟨fs, h1, idx, h2, h3, h4⟩ := Writer.C10_read_back conf hstd size (savedOf l) hnd hne
    obtain ⟨fs', h1', h5, _⟩ := Writer.C14_async_same conf size (savedOf l) hnd
    rw [h1] at h1'
    cases h1'
    refine ⟨fs, h1, fun r hr hstuck => (h5 r hr hstuck).2.2, idx, h2, ?_, ?_⟩
    · intro name
      rw [← Writer.dictGet_isSome, h3 name]
      constructor
      · intro h
        obtain ⟨⟨n, z⟩, hz, rfl⟩ := List.mem_map.1 h
        obtain ⟨p, hp, he, hn⟩ := (hmem n z).1 hz
        exact ⟨p, hp, z, he, hn⟩
      · rintro ⟨p, hp, z, hz, rfl⟩
        exact List.mem_map.2 ⟨_, (hmem _ z).2 ⟨p, hp, hz, rfl⟩, rfl⟩
    · intro p hp z hz hist aliases raise
      exact h4 hist _ z aliases raise ((hmem _ z).2 ⟨p, hp, hz, rfl⟩)

end

end Verif.WholeMerge
