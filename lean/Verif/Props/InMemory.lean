import Verif.Model.InMemory
import Verif.Props.WholeMulti
import Verif.Props.Stock
import Verif.Model.Registry
import Verif.Props.EvolveScore

/-! # C120: merging in memory gives the tensors that merging to disk gives -/

set_option linter.unusedSectionVars false

namespace Verif.InMemory

open Verif.ModelRef (Str Ref)
open Verif.LoadTask (Casts ownTensors typeNames C18_type_names)
open Verif.Plan (Planned)
open Verif.Universe (TaskSystem SubTask)
open Verif.Pipeline
open Verif.WholeMerge (Setup RunErr kwarg saveDtype storedType Stored Told saveDtype_eq)
open Verif.Evolve (load held)

/-! ## When a run ends -/

section
variable {T V E : Type} [DecidableEq T]

/-- A task with a value has values for all it needs. -/
theorem value_sub {S : TaskSystem T} {exec : T → List (String × V) → Except E V} {t x : T} (h : SubTask S t x) (hv : ∃ v, Value S exec t v) :
    ∃ v, Value S exec x v := by
  induction h with
  | refl => exact hv
  | tail _ hk ih =>
    obtain ⟨v, hv⟩ := ih
    obtain ⟨k, hk⟩ := hk
    cases hv with
    | mk _ _ vals hd _ => exact ⟨_, hd _ hk⟩

/-- A run ends without an exception exactly when all the tasks asked for have values. -/
theorem finishes_iff [Nonempty V] (S : TaskSystem T) (group : T → String) (prio : T → Int) (exec : T → List (String × V) → Except E V)
    (pop : ∀ n, Graph.PopOracle n) (ts : List T) :
    ∃ trace o, runTasks S group prio exec pop ts = some (trace, o) ∧ (o = .finished ↔ ∀ t ∈ ts, ∃ v, Value S exec t v) ∧
      (o = .finished → ((handed (universeOf S ts).1 trace).map Prod.fst).Nodup ∧
        (∀ t v, (t, v) ∈ handed (universeOf S ts).1 trace → t ∈ ts ∧ Value S exec t v) ∧
        ∀ t ∈ ts, ∃ v, (t, v) ∈ handed (universeOf S ts).1 trace) := by
  obtain ⟨trace, o, hr, hnd, _, _, hval, hfin, herr⟩ := C02_tasks S group prio exec pop ts
  refine ⟨trace, o, hr, ⟨?_, ?_⟩, ?_⟩
  · intro ho t ht
    obtain ⟨v, hv⟩ := (hfin ho).2 t ht
    exact ⟨v, (hval t v hv).2⟩
  · intro hall
    rcases herr with h | ⟨t, e, vals, ⟨r, hr', hsub⟩, hd, he⟩
    · exact h
    · obtain ⟨v, hv⟩ := value_sub hsub (hall r hr')
      cases hv with
      | mk _ _ vals' hd' he' =>
        exfalso
        have : (S.args t).map (fun a => (a.1, vals a.2)) = (S.args t).map (fun a => (a.1, vals' a.2)) := by
          apply List.map_congr_left
          intro a ha
          rw [(hd a ha).det (hd' a ha)]
        rw [this, he'] at he
        cases he
  · intro ho
    exact ⟨(hnd.sublist (C02_tasks_order S group prio exec pop ts trace o hr ho)), hval, (hfin ho).2⟩

end

/-! ## The values of the tasks -/

section
variable {J K T V E : Type} {S : TaskSystem J} {merge : Planned K → J} {execute : J → List (String × V) → Except (RunErr E) V}
  {tensorOf : V → Option (Option T)} {ofTensor : Option T → V} {c : Casts T} {outDtype : Option String}

theorem inner_value {j : J} {v : V} :
    Value (jobs K S merge) (execJob execute tensorOf ofTensor c outDtype) (.inner j) v ↔ Value S execute j v := by
  constructor
  · intro h
    generalize ht : (Job.inner j : Job J K) = t at h
    induction h generalizing j with
    | mk t v vals hd he ih =>
      subst ht
      have hargs : (jobs K S merge).args (.inner j) = (S.args j).map (fun a => (a.1, .inner a.2)) := rfl
      rw [hargs] at hd he ih
      rw [List.map_map] at he
      simp only [execJob] at he
      split at he
      · cases he
      · rename_i v' hv'
        cases Except.ok.inj he
        exact .mk j v (fun x => vals (.inner x)) (fun a ha => ih (a.1, .inner a.2) (List.mem_map.2 ⟨a, ha, rfl⟩) rfl) hv'
  · intro h
    induction h with
    | mk j v vals hd he ih =>
      let vals' : Job J K → V := fun t => match t with
        | .inner x => vals x
        | .ret _ => v
      refine .mk (.inner j) v vals' ?_ ?_
      · intro a ha
        obtain ⟨b, hb, rfl⟩ := List.mem_map.1 ha
        exact ih b hb
      · have hargs : (jobs K S merge).args (.inner j) = (S.args j).map (fun a => (a.1, .inner a.2)) := rfl
        rw [hargs, List.map_map]
        simp only [execJob]
        have : (S.args j).map ((fun a : String × Job J K => (a.1, vals' a.2)) ∘ fun a => (a.1, .inner a.2)) =
            (S.args j).map (fun a => (a.1, vals a.2)) := rfl
        rw [this, he]

theorem ret_value {p : Planned K} {v : V} :
    Value (jobs K S merge) (execJob execute tensorOf ofTensor c outDtype) (.ret p) v ↔
      ∃ w x y, Value S execute (merge p) w ∧ tensorOf w = some x ∧ returnExecute c (saveDtype outDtype p.weight) x = .ok y ∧ v = ofTensor y := by
  have hargs : (jobs K S merge).args (.ret p) = [("tensor", .inner (merge p))] := rfl
  constructor
  · intro h
    cases h with
    | mk _ _ vals hd he =>
      rw [hargs] at hd he
      have h1 := inner_value.1 (hd _ List.mem_cons_self)
      simp only [execJob, List.map_cons, List.map_nil, kwarg, List.find?_cons, decide_true, Option.map_some, Option.bind_some] at he
      split at he
      · cases he
      · rename_i x hx
        split at he
        · cases he
        · rename_i y hy
          exact ⟨_, x, y, h1, hx, hy, (Except.ok.inj he).symm⟩
  · rintro ⟨w, x, y, h1, h2, h3, rfl⟩
    refine Value.mk (Job.ret p) _ (fun _ => w) ?_ ?_
    · intro a ha
      rw [hargs] at ha
      rw [List.mem_singleton.1 ha]
      exact inner_value.2 h1
    · rw [hargs]
      simp only [execJob, List.map_cons, List.map_nil, kwarg, List.find?_cons, decide_true, Option.map_some, Option.bind_some, h2, h3]

/-- What a tensor becomes on its way out is what it becomes on its way to the disk. -/
theorem return_stored (s : Setup K T E) (hc : ∀ x, s.casts.cast (s.casts.dtypeOf x) x = x) (w : LoadTask.WeightInfo) (y : T) (r : Option T) :
    returnExecute s.casts (saveDtype s.outDtype w) (some y) = .ok r ↔ ∃ z, r = some z ∧ Stored s w y z := by
  rw [saveDtype_eq]
  unfold returnExecute
  constructor
  · intro h
    split at h
    · rename_i hn
      exact ⟨y, (Except.ok.inj h).symm, .unchanged (Or.inl hn)⟩
    · rename_i n hn
      split at h
      · rename_i he
        subst he
        exact ⟨y, (Except.ok.inj h).symm, .unchanged (Or.inr hn)⟩
      · rename_i hne
        split at h
        · cases h
        · rename_i d hd
          simp only at h
          have hst : Stored s w y (s.casts.cast d y) := .cast n d hn hne (((C18_type_names n).1 d).1 hd)
          split at h
          · exact ⟨_, (Except.ok.inj h).symm, hst⟩
          · rename_i he
            have he' : d = s.casts.dtypeOf y := by simpa using he
            refine ⟨_, (Except.ok.inj h).symm, ?_⟩
            have := hc y
            rw [← he'] at this
            rwa [this] at hst
  · rintro ⟨z, rfl, hz⟩
    cases hz with
    | unchanged h =>
      rcases h with h | h <;> simp [h]
    | cast n d hn hne hd =>
      have hd' := ((C18_type_names n).1 d).2 hd
      simp only [hn, hne, if_false, hd']
      split
      · rfl
      · rename_i he
        have he' : d = s.casts.dtypeOf y := by simpa using he
        rw [he', hc y]

/-- `None` comes out as `None`, if at all. -/
theorem return_none (s : Setup K T E) (w : LoadTask.WeightInfo) (r : Option T)
    (h : returnExecute s.casts (saveDtype s.outDtype w) none = .ok r) : r = none := by
  unfold returnExecute at h
  split at h
  · exact (Except.ok.inj h).symm
  · split at h
    · exact (Except.ok.inj h).symm
    · split at h
      · cases h
      · cases h

/-! ## What is copied -/

/-- If all that was handed out are tensors, these are copied. -/
theorem returned_all (res : Planned K → T → Prop) (l : List (Job J K × V))
    (h : ∀ t v, (t, v) ∈ l → ∃ p z, t = .ret p ∧ tensorOf v = some (some z) ∧ res p z) :
    ∃ m, returned tensorOf l = some m ∧
      List.Forall₂ (fun (e : Job J K × V) (x : Str × T) => ∃ p z, e.1 = .ret p ∧ x = (p.weight.name, z) ∧ res p z) l m := by
  induction l with
  | nil => exact ⟨[], rfl, .nil⟩
  | cons e l ih =>
    obtain ⟨t, v⟩ := e
    obtain ⟨p, z, rfl, h1, h2⟩ := h t v List.mem_cons_self
    obtain ⟨m, hm, hf⟩ := ih (fun t v hv => h t v (List.mem_cons_of_mem _ hv))
    exact ⟨(p.weight.name, z) :: m, by simp [returned, h1, hm], .cons ⟨p, z, rfl, rfl, h2⟩ hf⟩

/-- If something else was handed out, copying fails. -/
theorem returned_none (l : List (Job J K × V)) (p : Planned K) (v : V) (h : (.ret p, v) ∈ l) (hv : ∀ x, tensorOf v ≠ some (some x)) :
    returned tensorOf l = none := by
  induction l with
  | nil => cases h
  | cons e l ih =>
    rcases List.mem_cons.1 h with h' | h'
    · subst h'
      unfold returned
      split
      · rename_i x hx
        exact absurd hx (hv x)
      · rfl
    · obtain ⟨t, u⟩ := e
      cases t with
      | inner j => rfl
      | ret q =>
        unfold returned
        split
        · rw [ih h']; rfl
        · rfl

theorem held_of_mem {m : List (Str × T)} {n : Str} {z : T} (hd : (m.map Prod.fst).Nodup) (h : (n, z) ∈ m) : held m n = some z := by
  unfold held
  induction m with
  | nil => cases h
  | cons e m ih =>
    obtain ⟨a, b⟩ := e
    rw [List.lookup_cons]
    rcases List.mem_cons.1 h with h | h
    · cases h
      simp
    · simp only [List.map_cons, List.nodup_cons] at hd
      have : (n == a) = false := by
        have : n ≠ a := fun hna => hd.1 (hna ▸ List.mem_map.2 ⟨_, h, rfl⟩)
        simpa using this
      simp only [this]
      exact ih hd.2 h

/-- All of it together: with a result for every planned weight, the parameters of the names planned hold these and the others what they held. -/
theorem copied_all (ps : List (Planned K)) (hnames : ∀ p ∈ ps, ∀ q ∈ ps, p.weight.name = q.weight.name → p = q)
    (res : Planned K → T → Prop) (hdet : ∀ p z z', res p z → res p z' → z = z') (l : List (Job J K × V)) (hnd : (l.map Prod.fst).Nodup)
    (h : ∀ t v, (t, v) ∈ l → ∃ p ∈ ps, ∃ z, t = .ret p ∧ tensorOf v = some (some z) ∧ res p z)
    (hin : ∀ p ∈ ps, ∃ v, ((.ret p : Job J K), v) ∈ l) (params : List (Str × T)) (hparams : ∀ p ∈ ps, p.weight.name ∈ params.map Prod.fst) :
    ∃ q, copied tensorOf l params = some q ∧ q.map Prod.fst = params.map Prod.fst ∧ (∀ p ∈ ps, ∀ z, res p z → held q p.weight.name = some z) ∧
      ∀ n, (∀ p ∈ ps, p.weight.name ≠ n) → held q n = held params n := by
  obtain ⟨m, hm, hf⟩ := returned_all (tensorOf := tensorOf) (fun p z => p ∈ ps ∧ res p z) l (fun t v hv => by
    obtain ⟨p, hp, z, h1, h2, h3⟩ := h t v hv
    exact ⟨p, z, h1, h2, hp, h3⟩)
  have hmem : ∀ x ∈ m, ∃ p ∈ ps, x.1 = p.weight.name ∧ res p x.2 := by
    intro x hx
    obtain ⟨i, hi, rfl⟩ := List.getElem_of_mem hx
    have hi' : i < l.length := by rw [hf.length_eq]; exact hi
    obtain ⟨p, z, _, h2, h3, h4⟩ := hf.get hi' hi
    simp only [List.get_eq_getElem] at h2
    exact ⟨p, h3, by rw [h2], by rw [h2]; exact h4⟩
  have hmnd : (m.map Prod.fst).Nodup := by
    clear hm hin h hmem
    induction hf with
    | nil => simp
    | @cons e x l m hx hf ih =>
      simp only [List.map_cons, List.nodup_cons] at hnd ⊢
      refine ⟨?_, ih hnd.2⟩
      intro hmem
      obtain ⟨p, z, h1, h2, h3, h4⟩ := hx
      obtain ⟨y, hy, hxy⟩ := List.mem_map.1 hmem
      obtain ⟨i, hi, rfl⟩ := List.getElem_of_mem hy
      have hi' : i < l.length := by rw [hf.length_eq]; exact hi
      obtain ⟨p', z', h1', h2', h3', h4'⟩ := hf.get hi' hi
      simp only [List.get_eq_getElem] at h1' h2'
      rw [h2', h2] at hxy
      have := hnames p' h3' p h3 hxy
      subst this
      apply hnd.1
      rw [h1, ← h1']
      exact List.mem_map.2 ⟨_, List.getElem_mem hi', rfl⟩
  have hload : (load m params).isSome := (Evolve.C88_known m params).2 (fun x hx => by
    obtain ⟨p, hp, h1, _⟩ := hmem x hx
    rw [h1]
    exact hparams p hp)
  obtain ⟨q, hq⟩ := Option.isSome_iff_exists.1 hload
  have hheld := Evolve.load_held m params q hq hmnd
  refine ⟨q, by simp [copied, hm, hq], Evolve.load_names m params q hq, ?_, ?_⟩
  · intro p hp z hz
    obtain ⟨v, hv⟩ := hin p hp
    obtain ⟨i, hi, hx⟩ := List.getElem_of_mem hv
    have hi' : i < m.length := by rw [← hf.length_eq]; exact hi
    obtain ⟨p', z', h1, h2, h3, h4⟩ := hf.get hi hi'
    simp only [List.get_eq_getElem] at h1 h2
    rw [hx] at h1
    cases h1
    have : (p.weight.name, z) ∈ m := by
      rw [hdet p z z' hz h4, ← h2]
      exact List.getElem_mem hi'
    rw [hheld, if_pos (List.mem_map.2 ⟨_, this, rfl⟩), held_of_mem hmnd this]
  · intro n hn
    rw [hheld, if_neg]
    intro hc
    obtain ⟨x, hx, rfl⟩ := List.mem_map.1 hc
    obtain ⟨p, hp, h1, _⟩ := hmem x hx
    exact hn p hp h1.symm

/-- What a weight comes out as. -/
def Out (S : TaskSystem J) (merge : Planned K → J) (execute : J → List (String × V) → Except (RunErr E) V) (ofTensor : Option T → V) (c : Casts T)
    (outDtype : Option String) (p : Planned K) (z : T) : Prop :=
  ∃ y, Value S execute (merge p) (ofTensor (some y)) ∧ returnExecute c (saveDtype outDtype p.weight) (some y) = .ok (some z)

/-- A run in memory in general: it comes to its end and everything can be copied exactly if every weight comes out as a tensor and has a parameter. -/
theorem memory_run [DecidableEq J] [DecidableEq K] [Nonempty V] (hof : ∀ x, tensorOf (ofTensor x) = some x)
    (hto : ∀ v x, tensorOf v = some x → v = ofTensor x)
    (hnone : ∀ d r, returnExecute c d none = .ok r → r = none)
    (hsome : ∀ d y r, returnExecute c d (some y) = .ok r → ∃ z, r = some z)
    (group : Job J K → String) (prio : Job J K → Int) (pop : ∀ n, Graph.PopOracle n) (ps : List (Planned K))
    (hnames : ∀ p ∈ ps, ∀ q ∈ ps, p.weight.name = q.weight.name → p = q) (params : List (Str × T)) :
    ∃ trace o, runTasks (jobs K S merge) group prio (execJob execute tensorOf ofTensor c outDtype) pop (targets ps) = some (trace, o) ∧
      ((o = .finished ∧ ∃ q, copied tensorOf (handed (universeOf (jobs K S merge) (targets ps)).1 trace) params = some q) ↔
        ∀ p ∈ ps, (∃ z, Out S merge execute ofTensor c outDtype p z) ∧ p.weight.name ∈ params.map Prod.fst) ∧
      (o = .finished → ∀ q, copied tensorOf (handed (universeOf (jobs K S merge) (targets ps)).1 trace) params = some q →
        q.map Prod.fst = params.map Prod.fst ∧ (∀ p ∈ ps, ∀ z, Out S merge execute ofTensor c outDtype p z → held q p.weight.name = some z) ∧
        ∀ n, (∀ p ∈ ps, p.weight.name ≠ n) → held q n = held params n) := by
  obtain ⟨trace, o, hr, hiff, hfin⟩ := finishes_iff (jobs K S merge) group prio (execJob execute tensorOf ofTensor c outDtype) pop (targets ps)
  have hinj : ∀ x y, ofTensor x = ofTensor y → x = y := by
    intro x y h
    have := hof x
    rw [h, hof y] at this
    exact (Option.some.inj this).symm
  have hdet : ∀ p z z', Out S merge execute ofTensor c outDtype p z → Out S merge execute ofTensor c outDtype p z' → z = z' := by
    rintro p z z' ⟨y, h1, h2⟩ ⟨y', h1', h2'⟩
    have := hinj _ _ (h1.det h1')
    cases this
    rw [h2] at h2'
    cases h2'
    rfl
  -- what was handed out are the weights' values
  have hout : o = .finished → ∀ t v, (t, v) ∈ handed (universeOf (jobs K S merge) (targets ps)).1 trace →
      ∃ p ∈ ps, t = .ret p ∧ ((∃ z, tensorOf v = some (some z) ∧ Out S merge execute ofTensor c outDtype p z) ∨
        (tensorOf v = some none ∧ ∀ z, ¬ Out S merge execute ofTensor c outDtype p z)) := by
    intro ho t v hv
    obtain ⟨ht, hval⟩ := (hfin ho).2.1 t v hv
    obtain ⟨p, hp, rfl⟩ := List.mem_map.1 ht
    obtain ⟨w, x, y, h1, h2, h3, rfl⟩ := ret_value.1 hval
    refine ⟨p, hp, rfl, ?_⟩
    have hw := hto w x h2
    subst hw
    cases x with
    | none =>
      right
      rw [hnone _ _ h3]
      refine ⟨hof none, ?_⟩
      rintro z ⟨y', h4, _⟩
      exact absurd (hinj _ _ (h1.det h4)) (by simp)
    | some x =>
      left
      obtain ⟨z, rfl⟩ := hsome _ _ _ h3
      exact ⟨z, hof _, x, h1, h3⟩
  refine ⟨trace, o, hr, ⟨?_, ?_⟩, ?_⟩
  · rintro ⟨ho, q, hq⟩
    obtain ⟨m, hm, hload⟩ := Option.bind_eq_some_iff.1 hq
    have hall : ∀ t v, (t, v) ∈ handed (universeOf (jobs K S merge) (targets ps)).1 trace →
        ∃ p z, t = .ret p ∧ tensorOf v = some (some z) ∧ Out S merge execute ofTensor c outDtype p z := by
      intro t v hv
      obtain ⟨p, hp, rfl, h | h⟩ := hout ho t v hv
      · obtain ⟨z, h1, h2⟩ := h
        exact ⟨p, z, rfl, h1, h2⟩
      · rw [returned_none _ p v hv (by intro x hx; rw [h.1] at hx; cases hx)] at hm
        cases hm
    obtain ⟨m', hm', hf⟩ := returned_all (tensorOf := tensorOf) _ _ hall
    rw [hm] at hm'
    cases hm'
    intro p hp
    obtain ⟨v, hv⟩ := (hfin ho).2.2 (.ret p) (List.mem_map.2 ⟨p, hp, rfl⟩)
    obtain ⟨p', z, h1, h2, h3⟩ := hall _ _ hv
    cases h1
    refine ⟨⟨z, h3⟩, ?_⟩
    obtain ⟨i, hi, hx⟩ := List.getElem_of_mem hv
    have hi' : i < m.length := by rw [← hf.length_eq]; exact hi
    obtain ⟨p', z', h1, h2, _⟩ := hf.get hi hi'
    simp only [List.get_eq_getElem] at h1 h2
    rw [hx] at h1
    cases h1
    have := (Evolve.C88_known m params).1 (by rw [hload]; rfl) _ (List.getElem_mem hi')
    rw [h2] at this
    exact this
  · intro hall
    have ho : o = .finished := by
      refine hiff.2 (fun t ht => ?_)
      obtain ⟨p, hp, rfl⟩ := List.mem_map.1 ht
      obtain ⟨⟨z, y, h1, h2⟩, _⟩ := hall p hp
      exact ⟨_, ret_value.2 ⟨_, _, _, h1, hof _, h2, rfl⟩⟩
    refine ⟨ho, ?_⟩
    obtain ⟨q, hq, _⟩ := copied_all (tensorOf := tensorOf) ps hnames (Out S merge execute ofTensor c outDtype) hdet _ (hfin ho).1
      (fun t v hv => by
        obtain ⟨p, hp, h1, ⟨z, h2, h3⟩ | h⟩ := hout ho t v hv
        · exact ⟨p, hp, z, h1, h2, h3⟩
        · obtain ⟨⟨z, hz⟩, _⟩ := hall p hp
          exact absurd hz (h.2 z))
      (fun p hp => (hfin ho).2.2 (.ret p) (List.mem_map.2 ⟨p, hp, rfl⟩)) params (fun p hp => (hall p hp).2)
    exact ⟨q, hq⟩
  · intro ho q hq
    obtain ⟨m, hm, hload⟩ := Option.bind_eq_some_iff.1 hq
    have hall : ∀ t v, (t, v) ∈ handed (universeOf (jobs K S merge) (targets ps)).1 trace →
        ∃ p ∈ ps, ∃ z, t = .ret p ∧ tensorOf v = some (some z) ∧ Out S merge execute ofTensor c outDtype p z := by
      intro t v hv
      obtain ⟨p, hp, rfl, h | h⟩ := hout ho t v hv
      · obtain ⟨z, h1, h2⟩ := h
        exact ⟨p, hp, z, rfl, h1, h2⟩
      · rw [returned_none _ p v hv (by intro x hx; rw [h.1] at hx; cases hx)] at hm
        cases hm
    have hparams : ∀ p ∈ ps, p.weight.name ∈ params.map Prod.fst := by
      intro p hp
      obtain ⟨m', hm', hf⟩ := returned_all (tensorOf := tensorOf) (fun _ _ => True) _ (fun t v hv => by
        obtain ⟨p, _, z, h1, h2, _⟩ := hall t v hv
        exact ⟨p, z, h1, h2, trivial⟩)
      rw [hm] at hm'
      cases hm'
      obtain ⟨v, hv⟩ := (hfin ho).2.2 (.ret p) (List.mem_map.2 ⟨p, hp, rfl⟩)
      obtain ⟨i, hi, hx⟩ := List.getElem_of_mem hv
      have hi' : i < m.length := by rw [← hf.length_eq]; exact hi
      obtain ⟨p', z', h1, h2, _⟩ := hf.get hi hi'
      simp only [List.get_eq_getElem] at h1 h2
      rw [hx] at h1
      cases h1
      have := (Evolve.C88_known m params).1 (by rw [hload]; rfl) _ (List.getElem_mem hi')
      rw [h2] at this
      exact this
    obtain ⟨q', hq', h1, h2, h3⟩ := copied_all (tensorOf := tensorOf) ps hnames (Out S merge execute ofTensor c outDtype) hdet _ (hfin ho).1 hall
      (fun p hp => (hfin ho).2.2 (.ret p) (List.mem_map.2 ⟨p, hp, rfl⟩)) params hparams
    rw [hq] at hq'
    cases hq'
    exact ⟨h1, h2, h3⟩

end

/-! ## Merges without a tokenizer -/

section
variable {K T E : Type} [DecidableEq K]

theorem return_some (s : Setup K T E) (hc : ∀ x, s.casts.cast (s.casts.dtypeOf x) x = x) (d : Option String) (y : T) (r : Option T)
    (h : returnExecute s.casts d (some y) = .ok r) : ∃ z, r = some z := by
  unfold returnExecute at h
  split at h
  · exact ⟨_, (Except.ok.inj h).symm⟩
  · split at h
    · exact ⟨_, (Except.ok.inj h).symm⟩
    · split at h
      · cases h
      · simp only at h
        split at h <;> exact ⟨_, (Except.ok.inj h).symm⟩

theorem return_none' (c : Casts T) (d : Option String) (r : Option T) (h : returnExecute c d none = .ok r) : r = none := by
  unfold returnExecute at h
  split at h
  · exact (Except.ok.inj h).symm
  · split at h
    · exact (Except.ok.inj h).symm
    · split at h
      · cases h
      · cases h

/-- What a weight comes out as is what it is stored as. -/
theorem out_expected (s : Setup K T E) (hc : ∀ x, s.casts.cast (s.casts.dtypeOf x) x = x) (p : Planned K) (ht : Told p) (z : T) :
    Out (WholeMerge.jobs K s.dtype) .merge (WholeMerge.execJob s) .tensor s.casts s.outDtype p z ↔ WholeMerge.Expected s p (some z) := by
  constructor
  · rintro ⟨y, h1, h2⟩
    obtain ⟨ts, x, h3, h4, h5⟩ := WholeMerge.value_merge ht h1
    cases h3
    obtain ⟨z', h6, h7⟩ := (return_stored s hc p.weight y _).1 h2
    cases h6
    exact ⟨ts, h4, Or.inl ⟨y, z, h5, h7, rfl⟩⟩
  · intro h
    have hall : ∀ q ∈ [p], ∃ r, WholeMerge.Expected s q r := fun q hq => by rw [List.mem_singleton.1 hq]; exact ⟨_, h⟩
    have htold : ∀ q ∈ [p], Told q := fun q hq => by rw [List.mem_singleton.1 hq]; exact ht
    haveI : Nonempty (WholeMerge.Val T) := ⟨.nothing⟩
    obtain ⟨trace, o, _, _, _, _, hval, hfin, herr⟩ :=
      C02_tasks (WholeMerge.jobs K s.dtype) (fun _ => "") (fun _ => 0) (WholeMerge.execJob s) (fun _ _ _ h => ⟨h.choose, h.choose_spec⟩) (WholeMerge.targets [p])
    have ho : o = .finished := by
      rcases herr with h | ⟨t, e, vals, ⟨r, hr', hsub⟩, hd, he⟩
      · exact h
      · exact (WholeMerge.no_error htold hall (WholeMerge.belongs_sub hr' hsub) hd he).elim
    obtain ⟨v, hv⟩ := (hfin ho).2 (.save p) (by simp [WholeMerge.targets])
    cases (hval _ _ hv).2 with
    | mk _ _ vals hd _ =>
      have hm := hd ("tensor", .merge p) (by simp [WholeMerge.jobs, WholeMerge.Job.args])
      simp only at hm
      obtain ⟨ts, x, h3, h4, h5⟩ := WholeMerge.value_merge ht hm
      obtain ⟨ts', h6, ⟨y, z', h7, h8, h9⟩ | ⟨_, _, h9⟩⟩ := h
      · cases h9
        rw [h4] at h6
        cases h6
        rw [h5] at h7
        cases h7
        rw [h3] at hm
        exact ⟨y, hm, (return_stored s hc p.weight y _).2 ⟨z, rfl, h8⟩⟩
      · cases h9

/-- **C120** A merge in memory, without a tokenizer.  For any plan, models, method, any order the executor chooses and any parameters of the model kept: merging
and copying end without an exception exactly if there is a tensor expected for every planned weight - what the method gives for the models' own tensors, in the
type asked for - and a parameter of its name; then each of these parameters holds the tensor expected, and the others hold what they held. -/
theorem C120_in_memory (s : Setup K T E) (hc : ∀ x, s.casts.cast (s.casts.dtypeOf x) x = x) (ps : List (Planned K)) (htold : ∀ p ∈ ps, Told p)
    (hnames : ∀ p ∈ ps, ∀ q ∈ ps, p.weight.name = q.weight.name → p = q)
    (group : Job (WholeMerge.Job K) K → String) (prio : Job (WholeMerge.Job K) K → Int) (pop : ∀ n, Graph.PopOracle n) (params : List (Str × T)) :
    ∃ trace o, runTasks (jobs K (WholeMerge.jobs K s.dtype) .merge) group prio
        (execJob (WholeMerge.execJob s) tensorOf .tensor s.casts s.outDtype) pop (targets ps) = some (trace, o) ∧
      ((o = .finished ∧ ∃ q, copied tensorOf (handed (universeOf (jobs K (WholeMerge.jobs K s.dtype) .merge) (targets ps)).1 trace) params = some q) ↔
        ∀ p ∈ ps, (∃ z, WholeMerge.Expected s p (some z)) ∧ p.weight.name ∈ params.map Prod.fst) ∧
      (o = .finished → ∀ q, copied tensorOf (handed (universeOf (jobs K (WholeMerge.jobs K s.dtype) .merge) (targets ps)).1 trace) params = some q →
        q.map Prod.fst = params.map Prod.fst ∧ (∀ p ∈ ps, ∀ z, WholeMerge.Expected s p (some z) → held q p.weight.name = some z) ∧
        ∀ n, (∀ p ∈ ps, p.weight.name ≠ n) → held q n = held params n) := by
  haveI : Nonempty (WholeMerge.Val T) := ⟨.nothing⟩
  obtain ⟨trace, o, h1, h2, h3⟩ := memory_run (S := WholeMerge.jobs K s.dtype) (merge := .merge) (execute := WholeMerge.execJob s)
    (tensorOf := tensorOf) (ofTensor := .tensor) (c := s.casts) (outDtype := s.outDtype) (fun _ => rfl)
    (fun v x h => by cases v <;> simp_all [tensorOf]) (return_none' s.casts) (return_some s hc) group prio pop ps hnames params
  refine ⟨trace, o, h1, ?_, ?_⟩
  · rw [h2]
    constructor
    · intro h p hp
      obtain ⟨⟨z, hz⟩, h4⟩ := h p hp
      exact ⟨⟨z, (out_expected s hc p (htold p hp) z).1 hz⟩, h4⟩
    · intro h p hp
      obtain ⟨⟨z, hz⟩, h4⟩ := h p hp
      exact ⟨⟨z, (out_expected s hc p (htold p hp) z).2 hz⟩, h4⟩
  · intro ho q hq
    obtain ⟨h4, h5, h6⟩ := h3 ho q hq
    exact ⟨h4, fun p hp z hz => h5 p hp z ((out_expected s hc p (htold p hp) z).2 hz), h6⟩

/-- **C120** In memory and to disk.  If the method always gives a tensor and all planned names are parameters of the model, then of any merge to disk and any
merge in memory of the same plan either both raise or neither does; and if neither does, what is read from the files under a name listed there - whatever was read
before - is what the parameter of that name holds. -/
theorem C120_same_as_disk_partial (s : Setup K T E) (hc : ∀ x, s.casts.cast (s.casts.dtypeOf x) x = x) (ps : List (Planned K)) (hne : ps ≠ [])
    (htold : ∀ p ∈ ps, Told p) (hnames : ∀ p ∈ ps, ∀ q ∈ ps, p.weight.name = q.weight.name → p = q)
    (hmeth : ∀ p ∈ ps, ∀ ts, s.method p ts ≠ .ok none)
    (group : WholeMerge.Job K → String) (prio : WholeMerge.Job K → Int) (pop : ∀ n, Graph.PopOracle n)
    (conf : Writer.Conf) (hstd : conf.Standard) (size : T → Nat)
    (group' : Job (WholeMerge.Job K) K → String) (prio' : Job (WholeMerge.Job K) K → Int) (pop' : ∀ n, Graph.PopOracle n)
    (params : List (Str × T)) (hparams : ∀ p ∈ ps, p.weight.name ∈ params.map Prod.fst) :
    ∃ trace o trace' o',
      runTasks (WholeMerge.jobs K s.dtype) group prio (WholeMerge.execJob s) pop (WholeMerge.targets ps) = some (trace, o) ∧
      runTasks (jobs K (WholeMerge.jobs K s.dtype) .merge) group' prio'
        (execJob (WholeMerge.execJob s) tensorOf .tensor s.casts s.outDtype) pop' (targets ps) = some (trace', o') ∧
      let seen := copied tensorOf (handed (universeOf (jobs K (WholeMerge.jobs K s.dtype) .merge) (targets ps)).1 trace') params
      (o = .finished ↔ o' = .finished ∧ ∃ q, seen = some q) ∧
      (o = .finished → ∀ q, seen = some q →
        let acts := WholeMerge.writerRun conf size {} (handed (universeOf (WholeMerge.jobs K s.dtype) (WholeMerge.targets ps)).1 trace)
        ∃ fs, Writer.applyOps (fun _ => none) (Writer.syncOps acts) = some fs ∧
          (∀ r, Relation.ReflTransGen Writer.Step ⟨fun _ => none, [], acts⟩ r → (∀ r', ¬ Writer.Step r r') → r.fs = fs) ∧
          ∃ idx, Writer.fromDisk fs = .ok idx ∧ idx.tensorPaths ≠ [] ∧
            (∀ name, name ∈ idx.tensorPaths.map Prod.fst → (held q name.toList).isSome ∧ ∀ hist aliases raise,
              (Writer.getTensor fs idx (Writer.afterHistory fs idx none hist) name aliases raise).1 = .ok (held q name.toList)) ∧
            ∀ n, String.ofList n ∉ idx.tensorPaths.map Prod.fst → held q n = held params n) := by
  obtain ⟨trace, o, h1, h2, h3⟩ := WholeMerge.C104_merge_to_disk s ps htold hnames group prio pop conf hstd size
  obtain ⟨trace', o', h1', h2', h3'⟩ := C120_in_memory s hc ps htold hnames group' prio' pop' params
  have hex : ∀ p ∈ ps, ∀ r, WholeMerge.Expected s p r → ∃ z, r = some z := by
    rintro p hp r ⟨ts, _, ⟨y, z, _, _, h⟩ | ⟨h, _⟩⟩
    · exact ⟨z, h⟩
    · exact absurd h (hmeth p hp ts)
  refine ⟨trace, o, trace', o', h1, h1', ?_, ?_⟩
  · rw [h2, h2']
    constructor
    · intro h p hp
      obtain ⟨r, hr⟩ := h p hp
      obtain ⟨z, rfl⟩ := hex p hp r hr
      exact ⟨⟨z, hr⟩, hparams p hp⟩
    · intro h p hp
      obtain ⟨⟨z, hz⟩, _⟩ := h p hp
      exact ⟨_, hz⟩
  · intro ho q hq
    obtain ⟨p0, hp0⟩ := List.exists_mem_of_ne_nil _ hne
    have hall := h2.1 ho
    have hsome : ∀ p ∈ ps, ∃ z, WholeMerge.Expected s p (some z) := by
      intro p hp
      obtain ⟨r, hr⟩ := hall p hp
      obtain ⟨z, rfl⟩ := hex p hp r hr
      exact ⟨z, hr⟩
    have ho' : o' = .finished := (h2'.2 (fun p hp => ⟨hsome p hp, hparams p hp⟩)).1
    obtain ⟨h4, h5, h6⟩ := h3' ho' q hq
    obtain ⟨fs, g1, g2, idx, g3, g4, g5⟩ := h3 ho ⟨p0, hp0, hsome p0 hp0⟩
    refine ⟨fs, g1, g2, idx, g3, ?_, ?_, ?_⟩
    · obtain ⟨z, hz⟩ := hsome p0 hp0
      have : String.ofList p0.weight.name ∈ idx.tensorPaths.map Prod.fst := (g4 _).2 ⟨p0, hp0, z, hz, rfl⟩
      intro h
      rw [h] at this
      cases this
    · intro name hname
      obtain ⟨p, hp, z, hz, rfl⟩ := (g4 name).1 hname
      have hheld : held q (String.ofList p.weight.name).toList = some z := by
        rw [String.toList_ofList]
        exact h5 p hp z hz
      rw [hheld]
      exact ⟨rfl, fun hist aliases raise => g5 p hp z hz hist aliases raise⟩
    · intro n hn
      apply h6
      intro p hp hpn
      subst hpn
      obtain ⟨z, hz⟩ := hsome p hp
      exact hn ((g4 _).2 ⟨p, hp, z, hz, rfl⟩)

/-- **C120** is not met when a method discards an optional weight (as `model_stock` does when too few models have it): the merge to disk leaves the weight out,
the merge in memory raises. -/
theorem C120_discarded (s : Setup K T E) (hc : ∀ x, s.casts.cast (s.casts.dtypeOf x) x = x) (ps : List (Planned K)) (htold : ∀ p ∈ ps, Told p)
    (hnames : ∀ p ∈ ps, ∀ q ∈ ps, p.weight.name = q.weight.name → p = q) (hall : ∀ p ∈ ps, ∃ r, WholeMerge.Expected s p r)
    (p : Planned K) (hp : p ∈ ps) (hnone : WholeMerge.Expected s p none)
    (group : WholeMerge.Job K → String) (prio : WholeMerge.Job K → Int) (pop : ∀ n, Graph.PopOracle n)
    (group' : Job (WholeMerge.Job K) K → String) (prio' : Job (WholeMerge.Job K) K → Int) (pop' : ∀ n, Graph.PopOracle n) (params : List (Str × T)) :
    ∃ trace trace' o',
      runTasks (WholeMerge.jobs K s.dtype) group prio (WholeMerge.execJob s) pop (WholeMerge.targets ps) = some (trace, .finished) ∧
      runTasks (jobs K (WholeMerge.jobs K s.dtype) .merge) group' prio'
        (execJob (WholeMerge.execJob s) tensorOf .tensor s.casts s.outDtype) pop' (targets ps) = some (trace', o') ∧
      (o' ≠ .finished ∨ copied tensorOf (handed (universeOf (jobs K (WholeMerge.jobs K s.dtype) .merge) (targets ps)).1 trace') params = none) := by
  obtain ⟨trace, o, h1, h2, _⟩ := WholeMerge.C104_merge_to_disk s ps htold hnames group prio pop ⟨1, true, none⟩ rfl (fun _ => 0)
  obtain ⟨trace', o', h1', h2', _⟩ := C120_in_memory s hc ps htold hnames group' prio' pop' params
  have ho := h2.2 hall
  subst ho
  refine ⟨trace, trace', o', h1, h1', ?_⟩
  by_contra hcon
  rw [not_or, not_not] at hcon
  obtain ⟨q, hq⟩ := Option.ne_none_iff_exists'.1 hcon.2
  obtain ⟨⟨z, hz⟩, _⟩ := h2'.1 ⟨hcon.1, q, hq⟩ p hp
  exact absurd (hnone.det hz) (by simp)

end

/-! ## Merges with a tokenizer -/

section
variable {K T E I : Type} [DecidableEq K]

theorem out_expected_tok (s : WholeTok.TokSetup K T E I) (hc : ∀ x, s.casts.cast (s.casts.dtypeOf x) x = x) {i : I} (hi : s.build = .ok i)
    (p : Planned K) (ht : Told p) (z : T) :
    Out (WholeTok.jobs K s.dtype) .merge (WholeTok.execJob s) .tensor s.casts s.outDtype p z ↔ WholeTok.Expected s i p (some z) := by
  constructor
  · rintro ⟨y, h1, h2⟩
    obtain ⟨ts, x, h3, h4, h5⟩ := WholeTok.value_merge ht hi h1
    cases h3
    obtain ⟨z', h6, h7⟩ := (return_stored s.toSetup hc p.weight y _).1 h2
    cases h6
    exact ⟨ts, h4, Or.inl ⟨y, z, h5, h7, rfl⟩⟩
  · intro h
    have hall : ∀ q ∈ [p], ∃ r, WholeTok.Expected s i q r := fun q hq => by rw [List.mem_singleton.1 hq]; exact ⟨_, h⟩
    have htold : ∀ q ∈ [p], Told q := fun q hq => by rw [List.mem_singleton.1 hq]; exact ht
    haveI : Nonempty (WholeTok.Val T I) := ⟨.nothing⟩
    obtain ⟨trace, o, _, _, _, _, hval, hfin, herr⟩ :=
      C02_tasks (WholeTok.jobs K s.dtype) (fun _ => "") (fun _ => 0) (WholeTok.execJob s) (fun _ _ _ h => ⟨h.choose, h.choose_spec⟩)
        (WholeTok.targets [p])
    have ho : o = .finished := by
      rcases herr with h | ⟨t, e, vals, ⟨r, hr', hsub⟩, hd, he⟩
      · exact h
      · exact (WholeTok.no_error htold hi hall (WholeTok.belongs_sub hr' hsub) hd he).elim
    obtain ⟨v, hv⟩ := (hfin ho).2 (.save p) (by simp [WholeTok.targets])
    cases (hval _ _ hv).2 with
    | mk _ _ vals hd _ =>
      have hm := hd ("tensor", .merge p) (by simp [WholeTok.jobs, WholeTok.Job.args])
      simp only at hm
      obtain ⟨ts, x, h3, h4, h5⟩ := WholeTok.value_merge ht hi hm
      obtain ⟨ts', h6, ⟨y, z', h7, h8, h9⟩ | ⟨_, _, h9⟩⟩ := h
      · cases h9
        cases h4.det h6
        rw [h5] at h7
        cases h7
        rw [h3] at hm
        exact ⟨y, hm, (return_stored s.toSetup hc p.weight y _).2 ⟨z, rfl, h8⟩⟩
      · cases h9

/-- **C120** A merge in memory for which a tokenizer `i` is built: as `C120_in_memory`, with embeddings re-indexed for that tokenizer.  (`C115_merge_to_disk` has
the same tensors in the files.) -/
theorem C120_in_memory_tokenizer (s : WholeTok.TokSetup K T E I) (hc : ∀ x, s.casts.cast (s.casts.dtypeOf x) x = x) {i : I} (hi : s.build = .ok i)
    (ps : List (Planned K)) (htold : ∀ p ∈ ps, Told p) (hnames : ∀ p ∈ ps, ∀ q ∈ ps, p.weight.name = q.weight.name → p = q)
    (group : Job (WholeTok.Job K) K → String) (prio : Job (WholeTok.Job K) K → Int) (pop : ∀ n, Graph.PopOracle n) (params : List (Str × T)) :
    ∃ trace o, runTasks (jobs K (WholeTok.jobs K s.dtype) .merge) group prio
        (execJob (WholeTok.execJob s) tokTensorOf .tensor s.casts s.outDtype) pop (targets ps) = some (trace, o) ∧
      ((o = .finished ∧ ∃ q, copied tokTensorOf (handed (universeOf (jobs K (WholeTok.jobs K s.dtype) .merge) (targets ps)).1 trace) params = some q) ↔
        ∀ p ∈ ps, (∃ z, WholeTok.Expected s i p (some z)) ∧ p.weight.name ∈ params.map Prod.fst) ∧
      (o = .finished → ∀ q, copied tokTensorOf (handed (universeOf (jobs K (WholeTok.jobs K s.dtype) .merge) (targets ps)).1 trace) params = some q →
        q.map Prod.fst = params.map Prod.fst ∧ (∀ p ∈ ps, ∀ z, WholeTok.Expected s i p (some z) → held q p.weight.name = some z) ∧
        ∀ n, (∀ p ∈ ps, p.weight.name ≠ n) → held q n = held params n) := by
  haveI : Nonempty (WholeTok.Val T I) := ⟨.nothing⟩
  obtain ⟨trace, o, h1, h2, h3⟩ := memory_run (S := WholeTok.jobs K s.dtype) (merge := .merge) (execute := WholeTok.execJob s)
    (tensorOf := tokTensorOf) (ofTensor := .tensor) (c := s.casts) (outDtype := s.outDtype) (fun _ => rfl)
    (fun v x h => by cases v <;> simp_all [tokTensorOf]) (return_none' s.casts) (return_some s.toSetup hc) group prio pop ps hnames params
  refine ⟨trace, o, h1, ?_, ?_⟩
  · rw [h2]
    constructor
    · intro h p hp
      obtain ⟨⟨z, hz⟩, h4⟩ := h p hp
      exact ⟨⟨z, (out_expected_tok s hc hi p (htold p hp) z).1 hz⟩, h4⟩
    · intro h p hp
      obtain ⟨⟨z, hz⟩, h4⟩ := h p hp
      exact ⟨⟨z, (out_expected_tok s hc hi p (htold p hp) z).2 hz⟩, h4⟩
  · intro ho q hq
    obtain ⟨h4, h5, h6⟩ := h3 ho q hq
    exact ⟨h4, fun p hp z hz => h5 p hp z ((out_expected_tok s hc hi p (htold p hp) z).2 hz), h6⟩

end

/-! ## Concrete cases -/

open WholeMulti (duo duoWeights duo_told duo_names duo_expected) in
/-- The two weights of `duo`, with the tokenizer: a model with parameters "n", "e" and "x", all zero, comes to hold 11 and 211 and still zero. -/
example (pop : ∀ n, Graph.PopOracle n) :
    ∃ trace q, runTasks (jobs ℚ (WholeTok.jobs ℚ duo.dtype) .merge) (fun _ => "") (fun _ => 0)
        (execJob (WholeTok.execJob duo) tokTensorOf .tensor duo.casts duo.outDtype) pop (targets duoWeights) = some (trace, .finished) ∧
      copied tokTensorOf (handed (universeOf (jobs ℚ (WholeTok.jobs ℚ duo.dtype) .merge) (targets duoWeights)).1 trace)
        [(['n'], 0), (['e'], 0), (['x'], 0)] = some q ∧ held q ['e'] = some 211 ∧ held q ['n'] = some 11 ∧ held q ['x'] = some 0 := by
  obtain ⟨trace, o, h1, h2, h3⟩ := C120_in_memory_tokenizer duo (fun _ => rfl) (i := 100) rfl duoWeights duo_told duo_names (fun _ => "") (fun _ => 0) pop
    [(['n'], 0), (['e'], 0), (['x'], 0)]
  obtain ⟨ho, q, hq⟩ := h2.2 (fun p hp => ⟨⟨_, duo_expected p hp⟩, by revert p; decide⟩)
  obtain ⟨_, h4, h5⟩ := h3 ho q hq
  subst ho
  have m0 : duoWeights[0] ∈ duoWeights := by simp [duoWeights]
  have m1 : duoWeights[1] ∈ duoWeights := by simp [duoWeights]
  exact ⟨trace, q, h1, hq, h4 _ m0 _ (duo_expected _ m0), h4 _ m1 _ (duo_expected _ m1), h5 ['x'] (by decide)⟩

open WholeMulti (duo duoWeights duo_told duo_names) in
/-- The same without the tokenizer: both kinds of merges succeed (they add 1 and 10 for either weight). -/
example (pop pop' : ∀ n, Graph.PopOracle n) :
    ∃ trace trace' q, runTasks (WholeMerge.jobs ℚ duo.dtype) (fun _ => "") (fun _ => 0) (WholeMerge.execJob duo.toSetup) pop
        (WholeMerge.targets duoWeights) = some (trace, .finished) ∧
      runTasks (jobs ℚ (WholeMerge.jobs ℚ duo.dtype) .merge) (fun _ => "") (fun _ => 0)
        (execJob (WholeMerge.execJob duo.toSetup) tensorOf .tensor duo.casts duo.outDtype) pop' (targets duoWeights) = some (trace', .finished) ∧
      copied tensorOf (handed (universeOf (jobs ℚ (WholeMerge.jobs ℚ duo.dtype) .merge) (targets duoWeights)).1 trace')
        [(['n'], 0), (['e'], 0), (['x'], 0)] = some q := by
  obtain ⟨trace, o, trace', o', h1, h2, h3, _⟩ := C120_same_as_disk_partial duo.toSetup (fun _ => rfl) duoWeights (by simp [duoWeights]) duo_told duo_names
    (by intro p hp ts h; cases h) (fun _ => "") (fun _ => 0) pop ⟨100, true, none⟩ rfl (fun _ => 4) (fun _ => "") (fun _ => 0) pop'
    [(['n'], 0), (['e'], 0), (['x'], 0)] (by decide)
  obtain ⟨_, _, h1', hiff, _⟩ := WholeMerge.C104_merge_to_disk duo.toSetup duoWeights duo_told duo_names (fun _ => "") (fun _ => 0) pop ⟨100, true, none⟩ rfl
    (fun _ => 4)
  rw [h1] at h1'
  cases h1'
  have ho : o = .finished := by
    refine hiff.2 (fun p hp => ?_)
    simp only [duoWeights, List.mem_cons, List.not_mem_nil, or_false] at hp
    rcases hp with rfl | rfl
    · exact ⟨_, _, rfl, Or.inl ⟨_, _, rfl, .unchanged (Or.inl rfl), rfl⟩⟩
    · exact ⟨_, _, rfl, Or.inl ⟨_, _, rfl, .unchanged (Or.inl rfl), rfl⟩⟩
  obtain ⟨ho', q, hq⟩ := h3.1 ho
  subst ho ho'
  exact ⟨trace, trace', q, h1, h2, hq⟩

/-- An optional weight of two models, given to `model_stock` with the first as the base. -/
noncomputable def stockPlan : Planned ℝ :=
  ⟨{ name := ['b'], optional := true }, [(Verif.Plan.refA, { name := ['b'], optional := true }), (Verif.Plan.refB, { name := ['b'], optional := true })],
   [("filter_wise".toList, some (.num 0))], [], some Verif.Plan.refA⟩

noncomputable def stockSetup : Setup ℝ (Tensor.Tensor ℝ) WholeMerge.MethodErr where
  casts := ⟨fun _ => .float32, fun _ x => x⟩
  loaders := fun _ => { names := ["b"], fetch := fun _ => .ok ⟨[1], fun _ => 1⟩, convert := fun _ => .ok none }
  dtype := none
  outDtype := some "float32"
  method := fun p => WholeMerge.modelStockMethod (WholeMerge.viewOf p)

theorem stock_none : WholeMerge.Expected stockSetup stockPlan none := by
  refine ⟨[(Verif.Plan.refA, ⟨[1], fun _ => 1⟩), (Verif.Plan.refB, ⟨[1], fun _ => 1⟩)], rfl, Or.inr ⟨?_, rfl, rfl⟩⟩
  have hb : WholeMerge.asBool ((WholeMerge.viewOf stockPlan).value "filter_wise".toList) = some false := by
    simp [WholeMerge.asBool, WholeMerge.viewOf, stockPlan, WholeMerge.lookup]
  have h := (Sphere.C42_too_few false true false Verif.Plan.refA
    [(Verif.Plan.refA, (⟨[1], fun _ => 1⟩ : Tensor.Tensor ℝ)), (Verif.Plan.refB, ⟨[1], fun _ => 1⟩)]).2.1 (by simp) (by simp)
  have hw : (WholeMerge.viewOf stockPlan).base = some Verif.Plan.refA := rfl
  have hm : stockSetup.method = fun p => WholeMerge.modelStockMethod (WholeMerge.viewOf p) := rfl
  rw [hm]
  simp only
  unfold WholeMerge.modelStockMethod
  rw [hb, hw]
  simp only
  have h' : Sphere.modelStock (WholeMerge.viewOf stockPlan).weight.isEmbed (WholeMerge.viewOf stockPlan).weight.optional false Verif.Plan.refA
      [(Verif.Plan.refA, (⟨[1], fun _ => 1⟩ : Tensor.Tensor ℝ)), (Verif.Plan.refB, ⟨[1], fun _ => 1⟩)] = .ok none := h
  rw [h']

/-- The merge of this weight to disk succeeds, the one in memory does not. -/
example (pop pop' : ∀ n, Graph.PopOracle n) (params : List (Str × Tensor.Tensor ℝ)) :
    ∃ trace trace' o',
      runTasks (WholeMerge.jobs ℝ stockSetup.dtype) (fun _ => "") (fun _ => 0) (WholeMerge.execJob stockSetup) pop (WholeMerge.targets [stockPlan]) =
        some (trace, .finished) ∧
      runTasks (jobs ℝ (WholeMerge.jobs ℝ stockSetup.dtype) .merge) (fun _ => "") (fun _ => 0)
        (execJob (WholeMerge.execJob stockSetup) tensorOf .tensor stockSetup.casts stockSetup.outDtype) pop' (targets [stockPlan]) = some (trace', o') ∧
      (o' ≠ .finished ∨
        copied tensorOf (handed (universeOf (jobs ℝ (WholeMerge.jobs ℝ stockSetup.dtype) .merge) (targets [stockPlan])).1 trace') params = none) :=
  C120_discarded stockSetup (fun _ => rfl) [stockPlan]
    (by
      intro p hp
      rw [List.mem_singleton.1 hp]
      refine ⟨by show [Verif.Plan.refA, Verif.Plan.refB].Nodup; decide, ?_, ?_⟩
      · intro e he
        simp only [stockPlan, List.mem_cons, List.not_mem_nil, or_false] at he
        rcases he with rfl | rfl
        · exact ⟨⟨by unfold ModelRef.NoSep; decide, (by rintro r hr; cases hr)⟩, (by rintro l hl; cases hl), rfl⟩
        · exact ⟨⟨by unfold ModelRef.NoSep; decide, (by rintro r hr; cases hr)⟩, (by rintro l hl; cases hl), rfl⟩
      · intro e he
        simp only [stockPlan, List.mem_cons, List.not_mem_nil, or_false] at he
        rcases he with rfl | rfl <;> decide)
    (by
      intro p hp q hq _
      rw [List.mem_singleton.1 hp, List.mem_singleton.1 hq])
    (by
      intro p hp
      rw [List.mem_singleton.1 hp]
      exact ⟨_, stock_none⟩)
    stockPlan (by simp) stock_none _ _ pop _ _ pop' params

end Verif.InMemory
