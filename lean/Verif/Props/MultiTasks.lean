import Verif.Props.MultiMerge

/-! # C55: the order of the merges -/

set_option linter.unusedSectionVars false

namespace Verif.MultiMerge

open Verif.ModelRef (Str Ref)
open Verif.Universe Verif.Pipeline Verif.Graph

variable {C : Type}

/-- Specification: `t` is the task for the merge named `n`: its configuration, name and output path, and as inputs the tasks for exactly the
merges it refers to. -/
inductive TaskFor (config : Name → Option C) (deps : Name → List Name) (outOf : Name → Str) : Name → MTask C → Prop
  | mk (n : Name) (c : C) (inputs : List (Name × MTask C)) : config n = some c → inputs.map Prod.fst = deps n →
      (∀ e ∈ inputs, TaskFor config deps outOf e.1 e.2) → TaskFor config deps outOf n (.mk c (n.getD "final merge".toList) (outOf n) inputs)

/-- Specification: the merge `d` is referred to by the merge `n`. -/
def RefersTo (deps : Name → List Name) (d n : Name) : Prop := d ∈ deps n

variable {config : Name → Option C} {deps : Name → List Name} {outOf : Name → Str}

theorem TaskFor.acc {n : Name} {t : MTask C} (h : TaskFor config deps outOf n t) : Acc (RefersTo deps) n := by
  induction h with
  | mk n c inputs _ hd _ ih =>
    constructor
    intro d hdn
    unfold RefersTo at hdn
    rw [← hd] at hdn
    obtain ⟨e, he, rfl⟩ := List.mem_map.1 hdn
    exact ih e he

theorem acc_no_cycle {A : Type} {r : A → A → Prop} {a : A} (h : Acc r a) : ¬ Relation.TransGen r a a := by
  intro hc
  have h' := h.transGen
  induction h' with
  | intro x _ ih => exact ih x hc h hc

/-- The state of the search is in order. -/
structure Inv (config : Name → Option C) (deps : Name → List Name) (outOf : Name → Str) (names : List Name) (st : State C) : Prop where
  tasks : ∀ e ∈ st.tasks, TaskFor config deps outOf e.1 e.2
  sub : ∀ e ∈ st.tasks, e.1 ∈ st.touched
  nodup : st.touched.Nodup
  known : ∀ n ∈ st.touched, n ∈ names

/-- A name under construction: touched, without a task yet. -/
def Open (st : State C) (n : Name) : Prop := n ∈ st.touched ∧ n ∉ st.tasks.map Prod.fst

theorem get_some {st : State C} {n : Name} {t : MTask C} (h : st.get n = some t) : (n, t) ∈ st.tasks :=
  Verif.Tok.get_mem st.tasks n t h

theorem get_none {st : State C} {n : Name} : st.get n = none ↔ n ∉ st.tasks.map Prod.fst := Verif.Tok.get_none st.tasks n

/-- What a search for a task (or several) ends in. -/
structure Ok (config : Name → Option C) (deps : Name → List Name) (outOf : Name → Str) (names : List Name) (st st' : State C) : Prop where
  inv : Inv config deps outOf names st'
  grows : ∀ n ∈ st.touched, n ∈ st'.touched
  le : st.touched.length ≤ st'.touched.length
  same : ∀ n, Open st' n ↔ Open st n
  keep : ∀ e ∈ st.tasks, st'.get e.1 = st.get e.1

variable {names : List Name}

theorem Ok.refl {st : State C} (h : Inv config deps outOf names st) : Ok config deps outOf names st st :=
  ⟨h, fun _ h => h, Nat.le_refl _, fun _ => Iff.rfl, fun _ _ => rfl⟩

theorem Ok.trans {a b c : State C} (h : Ok config deps outOf names a b) (h' : Ok config deps outOf names b c) :
    Ok config deps outOf names a c :=
  ⟨h'.inv, fun n hn => h'.grows n (h.grows n hn), Nat.le_trans h.le h'.le, fun n => (h'.same n).trans (h.same n), by
    intro e he
    have h1 := h.keep e he
    have : ∃ t, (e.1, t) ∈ b.tasks := by
      cases hg : a.get e.1 with
      | none => exact absurd (List.mem_map.2 ⟨e, he, rfl⟩) (get_none.1 hg)
      | some t => rw [hg] at h1; exact ⟨t, get_some h1⟩
    obtain ⟨t, ht⟩ := this
    rw [← h1, ← h'.keep _ ht]⟩

/-- The outcome of looking for the task of `n` in state `st`. -/
def Outcome1 (config : Name → Option C) (deps : Name → List Name) (outOf : Name → Str) (names : List Name) (n : Name) (st : State C) :
    Except Err (MTask C × State C) → Prop
  | .ok (t, st') => TaskFor config deps outOf n t ∧ Ok config deps outOf names st st' ∧ st'.get n = some t
  | .error e => e = .circular ∧ ∃ m, Relation.ReflTransGen (RefersTo deps) m n ∧ Relation.TransGen (RefersTo deps) m m

theorem makeAll_spec (go : Name → State C → Except Err (MTask C × State C)) (base : Nat) (P : Name → State C → Prop)
    (hgo : ∀ n st, Inv config deps outOf names st → base ≤ st.touched.length → P n st → Outcome1 config deps outOf names n st (go n st))
    (hP : ∀ n a b, Ok config deps outOf names a b → P n a → P n b) :
    ∀ (ns : List Name) (st : State C), Inv config deps outOf names st → base ≤ st.touched.length → (∀ n ∈ ns, P n st) →
      match makeAll go ns st with
      | .ok (ts, st') => ts.map Prod.fst = ns ∧ (∀ e ∈ ts, TaskFor config deps outOf e.1 e.2) ∧ Ok config deps outOf names st st'
      | .error e => e = .circular ∧
          ∃ n ∈ ns, ∃ m, Relation.ReflTransGen (RefersTo deps) m n ∧ Relation.TransGen (RefersTo deps) m m := by
  intro ns
  induction ns with
  | nil => intro st hi _ _; exact ⟨rfl, by simp, Ok.refl hi⟩
  | cons n ns ih =>
    intro st hi hb hall
    have h1 := hgo n st hi hb (hall n List.mem_cons_self)
    simp only [makeAll]
    cases hg : go n st with
    | error e =>
      rw [hg] at h1
      obtain ⟨he, m, hm⟩ := h1
      exact ⟨he, n, List.mem_cons_self, m, hm⟩
    | ok r =>
      obtain ⟨t, st'⟩ := r
      rw [hg] at h1
      obtain ⟨ht, hok, _⟩ := h1
      have h2 := ih st' hok.inv (Nat.le_trans hb hok.le) (fun x hx => hP x _ _ hok (hall x (List.mem_cons_of_mem _ hx)))
      simp only
      cases hm : makeAll go ns st' with
      | error e =>
        rw [hm] at h2
        obtain ⟨he, x, hx, m, hm'⟩ := h2
        exact ⟨he, x, List.mem_cons_of_mem _ hx, m, hm'⟩
      | ok r =>
        obtain ⟨ts, st''⟩ := r
        rw [hm] at h2
        obtain ⟨g1, g2, g3⟩ := h2
        refine ⟨by simp [g1], ?_, hok.trans g3⟩
        intro e he
        rcases List.mem_cons.1 he with rfl | he
        · exact ht
        · exact g2 e he

theorem makeTask_spec (hclosed : ∀ n ∈ names, ∀ d ∈ deps n, d ∈ names) (hcfg : ∀ n ∈ names, (config n).isSome = true) :
    ∀ (fuel : Nat) (n : Name) (st : State C), n ∈ names → Inv config deps outOf names st → names.length + 1 ≤ fuel + st.touched.length →
      (∀ s, Open st s → Relation.TransGen (RefersTo deps) n s) →
      Outcome1 config deps outOf names n st (makeTask config deps outOf fuel n st) := by
  intro fuel
  induction fuel with
  | zero =>
    intro n st _ hi hf _
    have := (hi.nodup.subperm hi.known).length_le
    omega
  | succ fuel ih =>
    intro n st hn hi hf hopen
    simp only [makeTask]
    cases hg : st.get n with
    | some t => exact ⟨hi.tasks _ (get_some hg), Ok.refl hi, hg⟩
    | none =>
      simp only
      by_cases ht : n ∈ st.touched
      · rw [if_pos ht]
        exact ⟨rfl, n, .refl, hopen n ⟨ht, get_none.1 hg⟩⟩
      · rw [if_neg ht]
        obtain ⟨c, hc⟩ := Option.isSome_iff_exists.1 (hcfg n hn)
        simp only [hc]
        set st1 : State C := { st with touched := n :: st.touched } with hst1
        have hi1 : Inv config deps outOf names st1 := by
          refine ⟨hi.tasks, fun e he => List.mem_cons_of_mem _ (hi.sub e he), List.nodup_cons.2 ⟨ht, hi.nodup⟩, ?_⟩
          intro x hx
          rcases List.mem_cons.1 hx with rfl | hx
          · exact hn
          · exact hi.known x hx
        have hopen1 : ∀ s, Open st1 s → Relation.ReflTransGen (RefersTo deps) n s := by
          rintro s ⟨h1, h2⟩
          rcases List.mem_cons.1 h1 with rfl | h1
          · exact .refl
          · exact (hopen s ⟨h1, h2⟩).to_reflTransGen
        have hall := makeAll_spec (config := config) (deps := deps) (outOf := outOf) (names := names) (makeTask config deps outOf fuel)
          st1.touched.length
          (fun d a => d ∈ names ∧ ∀ s, Open a s → Relation.TransGen (RefersTo deps) d s)
          (fun d a hia hb hp => ih d a hp.1 hia (by
            have : st1.touched.length = st.touched.length + 1 := rfl
            omega) hp.2)
          (fun d a b hok hp => ⟨hp.1, fun s hs => hp.2 s ((hok.same s).1 hs)⟩)
          (deps n) st1 hi1 (Nat.le_refl _) (fun d hd => ⟨hclosed n hn d hd, fun s hs =>
            Relation.TransGen.head' (show RefersTo deps d n from hd) (hopen1 s hs)⟩)
        cases hm : makeAll (makeTask config deps outOf fuel) (deps n) st1 with
        | error e =>
          rw [hm] at hall
          obtain ⟨he, d, hd, m, hm1, hm2⟩ := hall
          exact ⟨he, m, hm1.tail hd, hm2⟩
        | ok r =>
          obtain ⟨inputs, st'⟩ := r
          rw [hm] at hall
          obtain ⟨g1, g2, g3⟩ := hall
          have htask := TaskFor.mk (outOf := outOf) n c inputs hc g1 g2
          refine ⟨htask, ⟨⟨?_, ?_, g3.inv.nodup, g3.inv.known⟩, ?_, ?_, ?_, ?_⟩, ?_⟩
          · intro e he
            rcases List.mem_cons.1 he with rfl | he
            · exact htask
            · exact g3.inv.tasks e he
          · intro e he
            rcases List.mem_cons.1 he with rfl | he
            · exact g3.grows n List.mem_cons_self
            · exact g3.inv.sub e he
          · intro x hx
            exact g3.grows x (List.mem_cons_of_mem _ hx)
          · have h1 := g3.le
            have : st1.touched.length = st.touched.length + 1 := rfl
            show st.touched.length ≤ st'.touched.length
            omega
          · intro x
            have hs := g3.same x
            unfold Open at hs ⊢
            simp only [List.map_cons, List.mem_cons, not_or] at hs ⊢
            have hnt : n ∉ st.tasks.map Prod.fst := get_none.1 hg
            constructor
            · rintro ⟨h1, h2, h3⟩
              obtain ⟨h4, h5⟩ := hs.1 ⟨h1, h3⟩
              rcases List.mem_cons.1 h4 with h4 | h4
              · exact absurd h4 h2
              · exact ⟨h4, h5⟩
            · rintro ⟨h1, h2⟩
              obtain ⟨h3, h4⟩ := hs.2 ⟨List.mem_cons_of_mem _ h1, h2⟩
              exact ⟨h3, fun h => ht (by rw [← h]; exact h1), h4⟩
          · intro e he
            have h1 := g3.keep e he
            have hne : e.1 ≠ n := fun h => (get_none.1 hg) (List.mem_map.2 ⟨e, he, h⟩)
            show ((List.find? _ ((n, _) :: st'.tasks)).map Prod.snd) = _
            rw [List.find?_cons_of_neg (by simpa using fun h => hne h.symm)]
            exact h1
          · show ((List.find? _ ((n, _) :: st'.tasks)).map Prod.snd) = _
            simp

/-- **C55** Building the tasks succeeds exactly if there is no circular reference, and fails with the report of one otherwise; the tasks
built are one for each merge, in the given order, whose inputs are tasks for exactly the merges it refers to. -/
theorem C55_tasks (config : Name → Option C) (deps : Name → List Name) (names : List Name) (dir : Str) (out : Option Str)
    (hclosed : ∀ n ∈ names, ∀ d ∈ deps n, d ∈ names) (hcfg : ∀ n ∈ names, (config n).isSome = true)
    (hout : none ∈ names → out.isSome = true) :
    ((∃ n ∈ names, Relation.TransGen (RefersTo deps) n n) → makeTasks config deps names dir out = .error .circular) ∧
    ((∀ n ∈ names, ¬ Relation.TransGen (RefersTo deps) n n) → ∃ ts, makeTasks config deps names dir out = .ok ts ∧
      ts.map Prod.fst = names ∧ ∀ e ∈ ts, TaskFor config deps (outPathOf dir (out.getD [])) e.1 e.2) := by
  have hd : makeTasks config deps names dir out =
      (makeAll (makeTask config deps (outPathOf dir (out.getD [])) (names.length + 1)) names ⟨[], []⟩).map Prod.fst := by
    unfold makeTasks
    cases out with
    | none => simp only; rw [if_neg (fun h => by simpa using hout h)]; rfl
    | some o => rfl
  rw [hd]
  set outOf := outPathOf dir (out.getD [])
  have h := makeAll_spec (config := config) (deps := deps) (outOf := outOf) (names := names)
    (makeTask config deps outOf (names.length + 1)) 0
    (fun d a => d ∈ names ∧ ∀ s, ¬ Open a s)
    (fun d a hia _ hp => makeTask_spec hclosed hcfg _ d a hp.1 hia (by omega) (fun s hs => absurd hs (hp.2 s)))
    (fun d a b hok hp => ⟨hp.1, fun s hs => hp.2 s ((hok.same s).1 hs)⟩)
    names ⟨[], []⟩ ⟨by simp, by simp, List.nodup_nil, by simp⟩ (Nat.zero_le _)
    (fun d hd => ⟨hd, fun s hs => by simp [Open] at hs⟩)
  have reach : ∀ {m n : Name}, Relation.ReflTransGen (RefersTo deps) m n → n ∈ names → m ∈ names := by
    intro m n h hn
    induction h using Relation.ReflTransGen.head_induction_on with
    | refl => exact hn
    | head h1 _ ih => exact hclosed _ ih _ h1
  cases hm : makeAll (makeTask config deps outOf (names.length + 1)) names ⟨[], []⟩ with
  | error e =>
    rw [hm] at h
    obtain ⟨rfl, n, hn, m, h1, h2⟩ := h
    exact ⟨fun _ => rfl, fun hno => absurd h2 (hno m (reach h1 hn))⟩
  | ok r =>
    obtain ⟨ts, st⟩ := r
    rw [hm] at h
    obtain ⟨g1, g2, _⟩ := h
    refine ⟨?_, fun _ => ⟨ts, rfl, g1, g2⟩⟩
    rintro ⟨n, hn, hc⟩
    rw [← g1] at hn
    obtain ⟨e, he, rfl⟩ := List.mem_map.1 hn
    exact absurd hc (acc_no_cycle (g2 e he).acc)

example : ∃ ts, makeTasks (fun n => if n = some ['a'] ∨ n = none then some () else none)
    (fun n => if n = none then [some ['a']] else []) [none, some ['a']] ['d'] (some ['o']) = .ok ts ∧ ts.map Prod.fst = [none, some ['a']] :=
  ⟨_, rfl, rfl⟩

/-! ## Running them -/

theorem sizeOf_input (t : MTask C) : ∀ a ∈ t.args, sizeOf a.2 < sizeOf t := by
  obtain ⟨c, l, o, i⟩ := t
  intro a ha
  obtain ⟨e, he, rfl⟩ := List.mem_map.1 ha
  have h1 := List.sizeOf_lt_of_mem (show e ∈ i from he)
  have h2 : sizeOf e.2 < sizeOf e := by
    obtain ⟨x, y⟩ := e
    simp
  simp only [MTask.mk.sizeOf_spec]
  omega

/-- The tasks as the executor sees them. -/
noncomputable def system (C : Type) : TaskSystem (MTask C) := ⟨MTask.args, fun t => sizeOf t, sizeOf_input⟩

theorem TaskFor.input {n : Name} {t : MTask C} (h : TaskFor config deps outOf n t) (d : Name) (hd : d ∈ deps n) :
    ∃ y, TaskFor config deps outOf d y ∧ ∃ k, (k, y) ∈ t.args := by
  cases h with
  | mk _ c inputs _ h1 h2 =>
    rw [← h1] at hd
    obtain ⟨e, he, rfl⟩ := List.mem_map.1 hd
    exact ⟨e.2, h2 e he, _, List.mem_map.2 ⟨e, he, rfl⟩⟩

/-- **C55** Each merge is run after all merges it refers to, none is run twice, and a run without an exception runs them all: for every
way in which a merge may succeed or fail (`exec`). -/
theorem C55_order {V E : Type} [Nonempty V] [DecidableEq (MTask C)] (config : Name → Option C) (deps : Name → List Name) (names : List Name)
    (dir : Str) (out : Option Str) (ts : List (Name × MTask C)) (hclosed : ∀ n ∈ names, ∀ d ∈ deps n, d ∈ names)
    (hcfg : ∀ n ∈ names, (config n).isSome = true) (hout : none ∈ names → out.isSome = true)
    (h : makeTasks config deps names dir out = .ok ts) (exec : MTask C → List (String × V) → Except E V) (pop : ∀ n, PopOracle n) :
    let IsTask := TaskFor config deps (outPathOf dir (out.getD []))
    ∃ trace o, runTasks (system C) (fun _ => "") (fun _ => 0) exec pop (ts.map Prod.snd) = some (trace, o) ∧
      let done := executed (universeOf (system C) (ts.map Prod.snd)).1 trace
      done.Nodup ∧
      (∀ p x q, done = p ++ x :: q → ∃ n ∈ names, IsTask n x) ∧
      (∀ p x q n, done = p ++ x :: q → IsTask n x → ∀ d ∈ deps n, ∃ y ∈ p, IsTask d y) ∧
      (o = .finished → ∀ n ∈ names, ∃ x ∈ done, IsTask n x) := by
  intro IsTask
  have ht := C55_tasks config deps names dir out hclosed hcfg hout
  have hno : ∀ n ∈ names, ¬ Relation.TransGen (RefersTo deps) n n := by
    intro n hn hc
    rw [ht.1 ⟨n, hn, hc⟩] at h
    cases h
  obtain ⟨ts', e1, e2, e3⟩ := ht.2 hno
  rw [h] at e1
  cases e1
  obtain ⟨trace, o, hr, h1, h2, h3, _, h5, _⟩ := C02_tasks (system C) (fun _ => "") (fun _ => 0) exec pop (ts.map Prod.snd)
  refine ⟨trace, o, hr, h1, ?_, ?_, ?_⟩
  · intro p x q hd
    obtain ⟨t, ht', hsub⟩ := h2 x (by rw [hd]; simp)
    obtain ⟨e, he, rfl⟩ := List.mem_map.1 ht'
    have base : ∃ n ∈ names, IsTask n e.2 := ⟨e.1, by rw [← e2]; exact List.mem_map.2 ⟨e, he, rfl⟩, e3 e he⟩
    clear hd
    induction hsub with
    | refl => exact base
    | tail _ hab ih =>
      obtain ⟨n, hn, hnt⟩ := ih
      obtain ⟨k, hk⟩ := hab
      cases hnt with
      | mk _ c inputs _ hi1 hi2 =>
        obtain ⟨i, hi, hie⟩ := List.mem_map.1 hk
        cases hie
        exact ⟨i.1, hclosed n hn _ (by rw [← hi1]; exact List.mem_map.2 ⟨i, hi, rfl⟩), hi2 i hi⟩
  · intro p x q n hd hx d hdn
    obtain ⟨y, hy, k, hk⟩ := hx.input d hdn
    exact ⟨y, h3 p x q hd (k, y) hk, hy⟩
  · intro ho n hn
    rw [← e2] at hn
    obtain ⟨e, he, rfl⟩ := List.mem_map.1 hn
    exact ⟨e.2, ((h5 ho).1 e.2).2 ⟨e.2, List.mem_map.2 ⟨e, he, rfl⟩, .refl⟩, e3 e he⟩

/-! ## The documents -/

theorem collect_spec {D : Type} (docs acc : List (Name × D)) (hacc : (acc.map Prod.fst).Nodup) :
    (((acc ++ docs).map Prod.fst).Nodup → collect acc docs = .ok (acc ++ docs)) ∧
    (¬ ((acc ++ docs).map Prod.fst).Nodup → collect acc docs = .error .duplicate) := by
  induction docs generalizing acc with
  | nil => simp [collect, hacc]
  | cons e docs ih =>
    obtain ⟨n, c⟩ := e
    simp only [collect]
    by_cases hn : n ∈ acc.map Prod.fst
    · rw [if_pos hn]
      refine ⟨fun h => ?_, fun _ => rfl⟩
      rw [List.map_append, List.nodup_append] at h
      exact absurd rfl (h.2.2 n hn n (by simp))
    · rw [if_neg hn]
      have := ih (acc ++ [(n, c)]) (by
        rw [List.map_append, List.nodup_append]
        refine ⟨hacc, by simp, ?_⟩
        intro a ha b hb
        simp only [List.map_cons, List.map_nil, List.mem_singleton] at hb
        subst hb
        rintro rfl
        exact hn ha)
      simpa [List.append_assoc] using this

theorem forall₂_fst {A B D : Type} {l : List (A × B)} {r : List (A × D)} (h : List.Forall₂ (fun e x => e.1 = x.1) l r) :
    r.map Prod.fst = l.map Prod.fst := by
  induction h with
  | nil => rfl
  | cons h _ ih => simp [h, ih]

/-- **C55** The whole preparation: documents with different names, in which every string is readable as a reference, lead to tasks exactly
if no merge refers to itself through others.  (The dependencies are those that `C55_patch` describes.) -/
theorem C55_prepare (docs : List (Name × Val)) (dir : Str) (out : Option Str) (hout : none ∈ docs.map Prod.fst → out.isSome = true) :
    let names := docs.map Prod.fst
    let Ref := fun d n => ∃ s v, d = some s ∧ d ∈ names ∧ (n, v) ∈ docs ∧ Mentions s v
    (¬ names.Nodup → prepare docs dir out = .error .duplicate) ∧
    (names.Nodup → ((∃ e, prepare docs dir out = .error e) ↔
      (∃ d ∈ docs, Unreadable d.2) ∨ ∃ n ∈ names, Relation.TransGen Ref n n)) ∧
    (∀ ts, prepare docs dir out = .ok ts → ts.map Prod.fst = names ∧ ∃ config deps,
      (∀ n ∈ names, (config n).isSome = true) ∧
      (∀ n w, config n = some w → ∃ v, (n, v) ∈ docs ∧ Moved (docs.filterMap Prod.fst) dir v w) ∧
      (∀ d n, d ∈ deps n ↔ Ref d n) ∧ (∀ n, (deps n).Nodup) ∧ makeTasks config deps names dir out = .ok ts ∧
      ∀ e ∈ ts, TaskFor config deps (outPathOf dir (out.getD [])) e.1 e.2) := by
  intro names Ref
  have hc := collect_spec docs [] (by simp)
  simp only [List.nil_append] at hc
  by_cases hnd : names.Nodup
  · have hcol := hc.1 hnd
    -- the patched configurations
    set ns := docs.filterMap Prod.fst with hns
    have hmem : ∀ s, s ∈ ns ↔ some s ∈ names := by
      intro s
      rw [hns, List.mem_filterMap, List.mem_map]
    let f : Name × Val → Except Err (Name × Val × List Str) := fun e => match patch ns dir e.2 with
      | .error er => .error er
      | .ok r => .ok (e.1, r.1, r.2)
    have hload : loadConfig docs dir = docs.mapM f := by
      unfold loadConfig
      rw [hcol]
      rfl
    have hf : ∀ e, (∃ er, f e = .error er) ↔ Unreadable e.2 := by
      intro e
      rw [← C55_refused ns dir e.2]
      simp only [f]
      cases patch ns dir e.2 <;> simp
    have hmapM : ∀ l : List (Name × Val), (∃ er, l.mapM f = .error er) ↔ ∃ d ∈ l, Unreadable d.2 := by
      intro l
      induction l with
      | nil => simp [pure, Except.pure]
      | cons e l ih =>
        rw [List.mapM_cons]
        have h1 := hf e
        cases h : f e with
        | error er =>
          rw [h] at h1
          have : Unreadable e.2 := h1.1 ⟨er, rfl⟩
          simp only [bind, Except.bind, List.mem_cons, exists_eq_or_imp]
          exact ⟨fun _ => Or.inl this, fun _ => ⟨er, rfl⟩⟩
        | ok x =>
          rw [h] at h1
          have : ¬ Unreadable e.2 := fun hu => by obtain ⟨er, he⟩ := h1.2 hu; cases he
          simp only [bind, Except.bind, List.mem_cons, exists_eq_or_imp, this, false_or, ← ih]
          cases l.mapM f <;> simp [pure, Except.pure]
    have hmapOk : ∀ (l : List (Name × Val)) r, l.mapM f = .ok r → List.Forall₂ (fun e x => f e = .ok x) l r := by
      intro l
      induction l with
      | nil =>
        intro r h
        simp only [List.mapM_nil, pure, Except.pure] at h
        cases h
        exact .nil
      | cons e l ih =>
        intro r h
        rw [List.mapM_cons] at h
        cases hfe : f e with
        | error er => rw [hfe] at h; cases h
        | ok x =>
          rw [hfe] at h
          cases hl : l.mapM f with
          | error er => rw [hl] at h; cases h
          | ok xs =>
            rw [hl] at h
            simp only [bind, Except.bind, pure, Except.pure] at h
            cases h
            exact .cons hfe (ih xs hl)
    have fst_eq : ∀ e x, f e = .ok x → x.1 = e.1 := by
      intro e x h
      simp only [f] at h
      cases hp : patch ns dir e.2 with
      | error er => rw [hp] at h; cases h
      | ok r => rw [hp] at h; cases h; rfl
    have used_eq : ∀ e x, f e = .ok x → ∀ n, n ∈ x.2.2 ↔ n ∈ ns ∧ Mentions n e.2 := by
      intro e x h n
      simp only [f] at h
      cases hp : patch ns dir e.2 with
      | error er => rw [hp] at h; cases h
      | ok r => rw [hp] at h; cases h; exact (C55_patch ns dir e.2 r.1 r.2 hp).2 n
    refine ⟨fun h => absurd hnd h, fun _ => ?_, ?_⟩
    all_goals
      cases hl : docs.mapM f with
      | error er =>
        have : prepare docs dir out = .error er := by unfold prepare; rw [hload, hl]
        rw [this]
        first
        | exact ⟨fun _ => Or.inl ((hmapM docs).1 ⟨er, hl⟩), fun _ => ⟨er, rfl⟩⟩
        | (intro ts h; cases h)
      | ok cfgs =>
        have h2 := hmapOk docs cfgs hl
        have hfst : cfgs.map Prod.fst = names := by
          exact forall₂_fst (h2.imp (fun e x h => (fst_eq e x h).symm))
        have hreadable : ¬ ∃ d ∈ docs, Unreadable d.2 := by
          intro h
          obtain ⟨er, he⟩ := (hmapM docs).2 h
          rw [hl] at he; cases he
        let find := fun n => (cfgs.find? (fun e => decide (e.1 = n))).map Prod.snd
        let deps : Name → List Name := fun n => match find n with
          | none => []
          | some r => r.2.dedup.map some
        have hprep : prepare docs dir out = makeTasks (fun n => (find n).map Prod.fst) deps (cfgs.map Prod.fst) dir out := by
          unfold prepare; rw [hload, hl]; rfl
        have hfind : ∀ n x, find n = some x ↔ (n, x) ∈ cfgs := by
          intro n x
          exact ⟨fun h => Verif.Tok.get_mem cfgs n x h, fun h => Verif.Tok.get_of_mem cfgs (by rw [hfst]; exact hnd) n x h⟩
        have hx : ∀ n x, (n, x) ∈ cfgs → ∃ v, (n, v) ∈ docs ∧ f (n, v) = .ok (n, x) := by
            intro n x hx
            obtain ⟨i, hi, he⟩ := List.getElem_of_mem hx
            have hi' : i < docs.length := by rw [h2.length_eq]; exact hi
            have := h2.get hi' hi
            simp only [List.get_eq_getElem, he] at this
            have h3 := fst_eq _ _ this
            simp only at h3
            have hpair : (n, (docs[i]).2) = docs[i] := Prod.ext h3 rfl
            exact ⟨(docs[i]).2, by rw [hpair]; exact List.getElem_mem hi', by rw [hpair]; exact this⟩
        have hdeps : ∀ d n, RefersTo deps d n ↔ Ref d n := by
          intro d n
          have hv : ∀ v, (n, v) ∈ docs → ∃ x, (n, x) ∈ cfgs ∧ f (n, v) = .ok (n, x) := by
            intro v hv
            obtain ⟨i, hi, he⟩ := List.getElem_of_mem hv
            have hi' : i < cfgs.length := by rw [← h2.length_eq]; exact hi
            have := h2.get hi hi'
            simp only [List.get_eq_getElem, he] at this
            have h3 := fst_eq _ _ this
            simp only at h3
            exact ⟨(cfgs[i]).2, by rw [← h3]; exact List.getElem_mem hi', by
              rw [this]
              exact congrArg _ (Prod.ext h3 rfl)⟩
          unfold RefersTo
          simp only [deps]
          constructor
          · intro h
            cases hfn : find n with
            | none => rw [hfn] at h; simp at h
            | some x =>
              rw [hfn] at h
              simp only [List.mem_map, List.mem_dedup] at h
              obtain ⟨s, hs, rfl⟩ := h
              obtain ⟨v, hv1, hv2⟩ := hx n x ((hfind n x).1 hfn)
              obtain ⟨h4, h5⟩ := (used_eq _ _ hv2 s).1 hs
              exact ⟨s, v, rfl, (hmem s).1 h4, hv1, h5⟩
          · rintro ⟨s, v, rfl, h1, h3, h4⟩
            obtain ⟨x, hx1, hx2⟩ := hv v h3
            rw [(hfind n x).2 hx1]
            simp only [List.mem_map, List.mem_dedup]
            exact ⟨s, (used_eq _ _ hx2 s).2 ⟨(hmem s).2 h1, h4⟩, rfl⟩
        have hrel : RefersTo deps = Ref := by
          funext d n
          exact propext (hdeps d n)
        have ht := C55_tasks (fun n => (find n).map Prod.fst) deps (cfgs.map Prod.fst) dir out
          (by
            intro n hn d hd
            obtain ⟨s, v, h1, h3, _⟩ := (hdeps d n).1 hd
            rw [hfst]; exact h3)
          (by
            intro n hn
            obtain ⟨e, he, rfl⟩ := List.mem_map.1 hn
            rw [(hfind e.1 e.2).2 he]
            rfl)
          (by rw [hfst]; exact hout)
        rw [← hprep, hfst, hrel] at ht
        first
        | (constructor
           · rintro ⟨e, he⟩
             right
             by_contra hno
             obtain ⟨ts, h3, _⟩ := ht.2 (fun n hn hc => hno ⟨n, hn, hc⟩)
             rw [he] at h3; cases h3
           · rintro (h | h)
             · exact absurd h hreadable
             · exact ⟨_, ht.1 h⟩)
        | (intro ts hts
           have hno : ∀ n ∈ names, ¬ Relation.TransGen Ref n n := by
             intro n hn hcy
             rw [ht.1 ⟨n, hn, hcy⟩] at hts
             cases hts
           obtain ⟨ts', h3, h4, h5⟩ := ht.2 hno
           rw [hts] at h3
           cases h3
           refine ⟨h4, _, deps, ?_, ?_, hdeps, ?_, by rw [← hfst, ← hprep]; exact hts, h5⟩
           · intro n hn
             rw [← hfst] at hn
             obtain ⟨e, he, rfl⟩ := List.mem_map.1 hn
             rw [(hfind e.1 e.2).2 he]
             rfl
           · intro n w hw
             cases hfn : find n with
             | none => rw [hfn] at hw; cases hw
             | some x =>
               rw [hfn] at hw
               cases hw
               obtain ⟨v, hv, hfv⟩ := hx n x ((hfind n x).1 hfn)
               refine ⟨v, hv, ?_⟩
               simp only [f] at hfv
               cases hp : patch ns dir v with
               | error er => rw [hp] at hfv; cases hfv
               | ok r => rw [hp] at hfv; cases hfv; exact (C55_patch ns dir v r.1 r.2 hp).1
           · intro n
             simp only [deps]
             cases find n with
             | none => exact List.nodup_nil
             | some r => exact (List.nodup_dedup _).map (Option.some_injective _))
  · have hcol := hc.2 hnd
    have : prepare docs dir out = .error .duplicate := by
      unfold prepare loadConfig
      rw [hcol]
    refine ⟨fun _ => this, fun h => absurd h hnd, ?_⟩
    intro ts h
    rw [this] at h; cases h

/-- **C55** The path a merge writes to is the path references to it are moved to, and the unnamed merge writes to the given path. -/
theorem C55_out_path (dir out : Str) (r : Ref) :
    outPathOf dir out (some r.model.path) = (relocated dir r).model.path ∧ outPathOf dir out none = out := ⟨rfl, rfl⟩

/-- **C55** Merges with different (relative) names write to different paths, inside the directory. -/
theorem C55_distinct_paths (dir out a b : Str) (ha : a.head? ≠ some '/') (hb : b.head? ≠ some '/')
    (h : outPathOf dir out (some a) = outPathOf dir out (some b)) : a = b ∧ dir <+: outPathOf dir out (some a) := by
  simp only [outPathOf, pathJoin, if_neg ha, if_neg hb] at h ⊢
  split at h
  · exact ⟨List.append_cancel_left h, by simp_all⟩
  · have := List.append_cancel_left h
    simp only [List.cons.injEq, true_and] at this
    exact ⟨this, by simp_all⟩

/-- **C55** Which dictionaries are taken for model references: those with exactly the three fields of one. -/
theorem C55_ref_dict (d : List (Str × Val)) :
    isRefDict d = true ↔ ∀ k, k ∈ d.map Prod.fst ↔ k = "model".toList ∨ k = "lora".toList ∨ k = "override_architecture".toList := by
  unfold isRefDict
  rw [Bool.and_eq_true, List.all_eq_true, List.all_eq_true]
  have hm : ∀ k, k ∈ refFields ↔ k = "model".toList ∨ k = "lora".toList ∨ k = "override_architecture".toList := by
    intro k
    unfold refFields
    simp only [List.mem_cons, List.not_mem_nil, or_false]
  constructor
  · rintro ⟨h1, h2⟩ k
    rw [← hm]
    exact ⟨fun h => of_decide_eq_true (h1 k h), fun h => of_decide_eq_true (h2 k h)⟩
  · intro h
    exact ⟨fun k hk => decide_eq_true ((hm k).2 ((h k).1 hk)), fun k hk => decide_eq_true ((h k).2 ((hm k).1 hk))⟩

/-- Two merges, the second built on the first. -/
example : ∃ ts, prepare [(some ['a'], .dict [("models".toList, .list [.str ['x'], .str ['y']])]),
    (none, .dict [("models".toList, .list [.str ['a'], .str ['z']])])] "tmp".toList (some "out".toList) = .ok ts ∧
    ts.map Prod.fst = [some ['a'], none] := ⟨_, rfl, rfl⟩

/-- A merge that refers to itself. -/
example : prepare [(some ['a'], .dict [("models".toList, .list [.str ['a'], .str ['y']])])] "tmp".toList none = .error .circular := by rfl

end Verif.MultiMerge
