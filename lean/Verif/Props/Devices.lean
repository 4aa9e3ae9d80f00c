import Verif.Model.Devices
import Verif.Props.WholeMerge

/-! # C121: on which devices tensors are kept does not matter -/

set_option linter.unusedSectionVars false

namespace Verif.Devices

open Verif.Universe (TaskSystem)
open Verif.Graph
open Verif.Pipeline (runTasks universeOf graphOf toFin handed)
open Verif.ModelRef (Str Ref)

/-! ## Runs whose values correspond -/

section
variable {V W E : Type}

/-- An event with its values replaced. -/
def mapEvent {n : Nat} (g : V → W) : Event n V → Event n W
  | .exec t args => .exec t (args.map (fun e => (e.1, g e.2)))
  | .yielded t v => .yielded t (g v)
  | .held k => .held k

theorem gatherArgs_map {n : Nat} (g : V → W) (values : Fin n → Option V) (l : List (String × Fin n)) :
    gatherArgs (fun k => (values k).map g) l =
      match gatherArgs values l with
      | .ok as => .ok (as.map (fun e => (e.1, g e.2)))
      | .error e => .error e := by
  induction l with
  | nil => rfl
  | cons a l ih =>
    obtain ⟨name, d⟩ := a
    simp only [gatherArgs]
    cases values d with
    | none => rfl
    | some v =>
      simp only [Option.map_some]
      rw [ih]
      cases gatherArgs values l <;> rfl

theorem evict_map {n : Nat} (g : V → W) (last : Fin n → Option Nat) (idx : Nat) (values : Fin n → Option V) :
    evict last idx (fun k => (values k).map g) = (evict last idx values).map (fun vs k => (vs k).map g) := by
  unfold evict
  simp only [Option.isNone_map]
  split
  · simp only [Option.map_some, Option.some.injEq]
    funext k
    split <;> rfl
  · rfl

theorem runLoop_map {n : Nat} (g : V → W) (G : TaskGraph n) (exec : Fin n → List (String × V) → Except E V)
    (exec' : Fin n → List (String × W) → Except E W)
    (h : ∀ t as, exec' t (as.map (fun e => (e.1, g e.2))) = (exec t as).map g)
    (targets : List (Fin n)) (last : Fin n → Option Nat) (sched : List (Fin n)) :
    ∀ (idx : Nat) (values : Fin n → Option V),
      runLoop G exec' targets last idx sched (fun k => (values k).map g) =
        ((runLoop G exec targets last idx sched values).1.map (mapEvent g), (runLoop G exec targets last idx sched values).2) := by
  induction sched with
  | nil => intro idx values; rfl
  | cons t rest ih =>
    intro idx values
    simp only [runLoop]
    rw [gatherArgs_map]
    cases hga : gatherArgs values (G.args t) with
    | error e => rfl
    | ok as =>
      simp only
      rw [h]
      cases hex : exec t as with
      | error e => rfl
      | ok v =>
        simp only [Except.map]
        have hu : Function.update (fun k => (values k).map g) t (some (g v)) = fun k => (Function.update values t (some v) k).map g := by
          funext k
          by_cases hk : k = t
          · subst hk; simp
          · simp [Function.update_of_ne hk]
        rw [hu, evict_map]
        cases evict last idx (Function.update values t (some v)) with
        | none =>
          simp only [Option.map_none]
          split <;> rfl
        | some vs =>
          simp only [Option.map_some]
          rw [ih (idx + 1) vs]
          have hk : (fun k => ((vs k).map g).isSome) = fun k => (vs k).isSome := by
            funext k
            simp
          split <;> simp [mapEvent, hk]

/-- If two runs execute the same tasks and on corresponding arguments get corresponding results, all of their events correspond. -/
theorem runTasks_map {J : Type} [DecidableEq J] (g : V → W) (S : TaskSystem J) (group : J → String) (prio : J → Int)
    (exec : J → List (String × V) → Except E V) (exec' : J → List (String × W) → Except E W)
    (h : ∀ t as, exec' t (as.map (fun e => (e.1, g e.2))) = (exec t as).map g)
    (pop : ∀ n, PopOracle n) (targets : List J) :
    runTasks S group prio exec' pop targets =
      (runTasks S group prio exec pop targets).map (fun r => (r.1.map (mapEvent g), r.2)) := by
  unfold runTasks Executor.run
  simp only [Option.isSome_none]
  cases buildSchedule (graphOf (universeOf S targets).1 group prio) (fun _ => false) (pop _)
    ((universeOf S targets).2.filterMap (toFin (universeOf S targets).1.tasks.length)) with
  | none => rfl
  | some sched =>
    simp only [Option.map_some, Option.some.injEq]
    exact runLoop_map g _ _ _ (fun t as => h _ as) _ _ sched 0 (fun _ => none)

theorem execs_map {n : Nat} (g : V → W) (l : List (Event n V)) : execs (l.map (mapEvent g)) = execs l := by
  induction l with
  | nil => rfl
  | cons e l ih => cases e <;> simp [mapEvent, execs, ih]

theorem yields_map {n : Nat} (g : V → W) (l : List (Event n V)) : yields (l.map (mapEvent g)) = (yields l).map (fun e => (e.1, g e.2)) := by
  induction l with
  | nil => rfl
  | cons e l ih => cases e <;> simp [mapEvent, yields, ih]

/-! ## Any values -/

/-- What is said about the devices in a list of arguments. -/
def AllOn (onlyOn : V → Prop) (args : List (String × V)) : Prop := ∀ a ∈ args, onlyOn a.2

end

/-! ## Values made of dicts, lists and tuples -/

section
variable {D T A : Type}

/-- Every tensor in a value - in its dicts, lists and tuples, at any depth - is on device `d`. -/
inductive OnlyOn (d : D) : PyVal D T A → Prop
  | tensor (x) : OnlyOn d (.tensor d x)
  | dict (es) : (∀ e ∈ es, OnlyOn d e.2) → OnlyOn d (.dict es)
  | list (vs) : (∀ v ∈ vs, OnlyOn d v) → OnlyOn d (.list vs)
  | tuple (vs) : (∀ v ∈ vs, OnlyOn d v) → OnlyOn d (.tuple vs)
  | other (a) : OnlyOn d (.other a)

mutual
/-- A value without telling where its tensors are. -/
def forget : PyVal D T A → PyVal Unit T A
  | .tensor _ x => .tensor () x
  | .dict es => .dict (forgetDict es)
  | .list vs => .list (forgetList vs)
  | .tuple vs => .tuple (forgetList vs)
  | .other a => .other a

def forgetList : List (PyVal D T A) → List (PyVal Unit T A)
  | [] => []
  | v :: vs => forget v :: forgetList vs

def forgetDict : List (A × PyVal D T A) → List (A × PyVal Unit T A)
  | [] => []
  | (k, v) :: es => (k, forget v) :: forgetDict es
end

mutual
/-- A value with all tensors on one device. -/
def put (d : D) : PyVal Unit T A → PyVal D T A
  | .tensor _ x => .tensor d x
  | .dict es => .dict (putDict d es)
  | .list vs => .list (putList d vs)
  | .tuple vs => .tuple (putList d vs)
  | .other a => .other a

def putList (d : D) : List (PyVal Unit T A) → List (PyVal D T A)
  | [] => []
  | v :: vs => put d v :: putList d vs

def putDict (d : D) : List (A × PyVal Unit T A) → List (A × PyVal D T A)
  | [] => []
  | (k, v) :: es => (k, put d v) :: putDict d es
end

mutual
theorem move_eq [DecidableEq D] (d : D) : ∀ v : PyVal D T A, move d v = put d (forget v)
  | .tensor e x => by
    simp only [move, forget, put]
    split
    · subst_vars; rfl
    · rfl
  | .dict es => by simp only [move, forget, put, moveDict_eq d es]
  | .list vs => by simp only [move, forget, put, moveList_eq d vs]
  | .tuple vs => by simp only [move, forget, put, moveList_eq d vs]
  | .other a => rfl

theorem moveList_eq [DecidableEq D] (d : D) : ∀ vs : List (PyVal D T A), moveList d vs = putList d (forgetList vs)
  | [] => rfl
  | v :: vs => by simp only [moveList, forgetList, putList, move_eq d v, moveList_eq d vs]

theorem moveDict_eq [DecidableEq D] (d : D) : ∀ es : List (A × PyVal D T A), moveDict d es = putDict d (forgetDict es)
  | [] => rfl
  | (k, v) :: es => by simp only [moveDict, forgetDict, putDict, move_eq d v, moveDict_eq d es]
end

mutual
theorem forget_put (d : D) : ∀ v : PyVal Unit T A, forget (put d v) = v
  | .tensor _ x => rfl
  | .dict es => by simp only [forget, put, forgetDict_put d es]
  | .list vs => by simp only [forget, put, forgetList_put d vs]
  | .tuple vs => by simp only [forget, put, forgetList_put d vs]
  | .other a => rfl

theorem forgetList_put (d : D) : ∀ vs : List (PyVal Unit T A), forgetList (putList d vs) = vs
  | [] => rfl
  | v :: vs => by simp only [forgetList, putList, forget_put d v, forgetList_put d vs]

theorem forgetDict_put (d : D) : ∀ es : List (A × PyVal Unit T A), forgetDict (putDict d es) = es
  | [] => rfl
  | (k, v) :: es => by simp only [forgetDict, putDict, forget_put d v, forgetDict_put d es]
end

mutual
theorem onlyOn_put (d : D) : ∀ v : PyVal Unit T A, OnlyOn d (put d v)
  | .tensor _ x => .tensor x
  | .dict es => .dict _ (onlyOn_putDict d es)
  | .list vs => .list _ (onlyOn_putList d vs)
  | .tuple vs => .tuple _ (onlyOn_putList d vs)
  | .other a => .other a

theorem onlyOn_putList (d : D) : ∀ (vs : List (PyVal Unit T A)), ∀ v ∈ putList d vs, OnlyOn d v
  | [], _, h => by cases h
  | v :: vs, w, h => by
    rcases List.mem_cons.1 h with rfl | h
    · exact onlyOn_put d v
    · exact onlyOn_putList d vs w h

theorem onlyOn_putDict (d : D) : ∀ (es : List (A × PyVal Unit T A)), ∀ e ∈ putDict d es, OnlyOn d e.2
  | [], _, h => by cases h
  | (k, v) :: es, w, h => by
    rcases List.mem_cons.1 h with rfl | h
    · exact onlyOn_put d v
    · exact onlyOn_putDict d es w h
end

variable {J E : Type} [DecidableEq J] [DecidableEq D]

/-- What a task gives is the same but for where tensors are: both raise the same, or both give values that differ in devices only. -/
def AlikeResult (r r' : Except E (PyVal D T A)) : Prop :=
  (∃ e, r = .error e ∧ r' = .error e) ∨ ∃ v v', r = .ok v ∧ r' = .ok v' ∧ forget v = forget v'

/-- A task computes the same on any device: given arguments all on one device, and the same arguments all on another, it gives the same.
(Nothing is said of arguments on several devices, for which torch raises.) -/
def SameOnAnyDevice (exec : J → List (String × PyVal D T A) → Except E (PyVal D T A)) : Prop :=
  ∀ t d d' args args', AllOn (OnlyOn d) args → AllOn (OnlyOn d') args' →
    args.map (fun a => (a.1, forget a.2)) = args'.map (fun a => (a.1, forget a.2)) → AlikeResult (exec t args) (exec t args')

/-- The run as seen without devices. -/
def bare (uses : J → Bool) (math storage : D) (exec : J → List (String × PyVal D T A) → Except E (PyVal D T A)) (t : J)
    (args : List (String × PyVal Unit T A)) : Except E (PyVal Unit T A) :=
  match exec t (args.map (fun a => (a.1, put (if uses t then math else storage) a.2))) with
  | .ok v => .ok (forget v)
  | .error e => .error e

theorem runOn_bare (S : TaskSystem J) (group : J → String) (prio : J → Int) (uses : J → Bool) (math storage : D)
    (exec : J → List (String × PyVal D T A) → Except E (PyVal D T A)) (pop : ∀ n, PopOracle n) (targets : List J) :
    runOn S group prio move uses math storage exec pop targets =
      (runTasks S group prio (bare uses math storage exec) pop targets).map (fun r => (r.1.map (mapEvent (put storage)), r.2)) := by
  unfold runOn
  refine runTasks_map (put storage) S group prio _ _ ?_ pop targets
  intro t as
  unfold execOn bare
  have ha : (if uses t then (as.map (fun e => (e.1, put storage e.2))).map (fun e => (e.1, move math e.2))
      else as.map (fun e => (e.1, put storage e.2))) = as.map (fun a => (a.1, put (if uses t then math else storage) a.2)) := by
    cases uses t
    · rfl
    · simp only [if_true, List.map_map]
      refine List.map_congr_left (fun a _ => ?_)
      simp [Function.comp, move_eq, forget_put]
  rw [ha]
  cases exec t (as.map (fun a => (a.1, put (if uses t then math else storage) a.2))) with
  | error e => rfl
  | ok v => simp [move_eq, Except.map]

theorem allOn_put (d : D) (as : List (String × PyVal Unit T A)) : AllOn (OnlyOn d) (as.map (fun a => (a.1, put d a.2))) := by
  intro a ha
  obtain ⟨b, _, rfl⟩ := List.mem_map.1 ha
  exact onlyOn_put d b.2

/-- **C121** Tasks see tensors on the right device: a task that uses accelerators is executed with all tensors of its arguments on the device for
computations, any other task with all of them on the device for storage.  (Stated for observers: what tasks would do on other arguments makes no
difference to a run.) -/
theorem C121_right_device (S : TaskSystem J) (group : J → String) (prio : J → Int) (uses : J → Bool) (math storage : D)
    (exec exec' : J → List (String × PyVal D T A) → Except E (PyVal D T A))
    (h : ∀ t args, AllOn (OnlyOn (if uses t then math else storage)) args → exec t args = exec' t args)
    (pop : ∀ n, PopOracle n) (targets : List J) :
    runOn S group prio move uses math storage exec pop targets = runOn S group prio move uses math storage exec' pop targets := by
  rw [runOn_bare, runOn_bare]
  have : bare uses math storage exec = bare uses math storage exec' := by
    funext t as
    unfold bare
    rw [h t _ (allOn_put _ as)]
  rw [this]

/-- **C121** What a run hands over is on the device for storage. -/
theorem C121_stored (S : TaskSystem J) (group : J → String) (prio : J → Int) (uses : J → Bool) (math storage : D)
    (exec : J → List (String × PyVal D T A) → Except E (PyVal D T A)) (pop : ∀ n, PopOracle n) (targets : List J)
    {trace : List (Event (universeOf S targets).1.tasks.length (PyVal D T A))} {o : Outcome (universeOf S targets).1.tasks.length E}
    (hrun : runOn S group prio move uses math storage exec pop targets = some (trace, o)) :
    ∀ e ∈ handed (universeOf S targets).1 trace, OnlyOn storage e.2 := by
  rw [runOn_bare, Option.map_eq_some_iff] at hrun
  obtain ⟨r, _, hr⟩ := hrun
  simp only [Prod.mk.injEq] at hr
  rw [← hr.1]
  intro e he
  unfold handed at he
  rw [yields_map] at he
  obtain ⟨x, hx, rfl⟩ := List.mem_map.1 he
  obtain ⟨y, _, rfl⟩ := List.mem_map.1 hx
  exact onlyOn_put storage y.2

/-- **C121** The devices make no difference: if each task computes the same on any device, then two runs of the same tasks with any devices for
computations and storage execute the same tasks in the same order, end alike - with the same exception, if any - and hand over the same values. -/
theorem C121_same_results [Nonempty (PyVal Unit T A)] (S : TaskSystem J) (group : J → String) (prio : J → Int) (uses : J → Bool)
    (exec : J → List (String × PyVal D T A) → Except E (PyVal D T A)) (hexec : SameOnAnyDevice exec)
    (pop : ∀ n, PopOracle n) (targets : List J) (math storage math' storage' : D) :
    ∃ trace trace' o, runOn S group prio move uses math storage exec pop targets = some (trace, o) ∧
      runOn S group prio move uses math' storage' exec pop targets = some (trace', o) ∧ execs trace = execs trace' ∧
      (handed (universeOf S targets).1 trace).map (fun e => (e.1, forget e.2)) =
        (handed (universeOf S targets).1 trace').map (fun e => (e.1, forget e.2)) := by
  have hb : bare uses math' storage' exec = bare uses math storage exec := by
    funext t as
    unfold bare
    rcases hexec t (if uses t then math' else storage') (if uses t then math else storage) _ _ (allOn_put _ as) (allOn_put _ as)
      (by simp [Function.comp_def, forget_put]) with ⟨e, h, h'⟩ | ⟨v, v', h, h', hv⟩
    · rw [h, h']
    · rw [h, h']
      simp only [hv]
  obtain ⟨trace, o, hrun, _⟩ := Pipeline.C02_tasks S group prio (bare uses math storage exec) pop targets
  refine ⟨trace.map (mapEvent (put storage)), trace.map (mapEvent (put storage')), o, ?_, ?_, ?_, ?_⟩
  · rw [runOn_bare, hrun]; rfl
  · rw [runOn_bare, hb, hrun]; rfl
  · rw [execs_map, execs_map]
  · unfold handed
    rw [yields_map, yields_map]
    simp [Function.comp_def, forget_put]

end

/-! ### A concrete case -/

/-- The first task loads two tensors onto different devices, the second one adds them, which fails for tensors on different devices. -/
def adding : Bool → List (String × PyVal (Fin 3) Int String) → Except String (PyVal (Fin 3) Int String)
  | false, _ => .ok (.dict [("a", .tensor 1 40), ("b", .tensor 2 2)])
  | true, [(_, .dict [(_, .tensor d x), (_, .tensor e y)])] =>
    if d = e then .ok (.list [.tensor d (x + y)]) else .error "Expected all tensors to be on the same device"
  | true, _ => .error "bad arguments"

def addingTasks : TaskSystem Bool where
  args := fun t => if t then [("tensors", false)] else []
  rank := fun t => if t then 1 else 0
  rank_lt := by decide

mutual
theorem put_forget {D T A : Type} (d : D) : ∀ v : PyVal D T A, OnlyOn d v → put d (forget v) = v
  | .tensor e x, h => by cases h; rfl
  | .dict es, h => by cases h with | dict _ h => simp only [forget, put, putDict_forget d es h]
  | .list vs, h => by cases h with | list _ h => simp only [forget, put, putList_forget d vs h]
  | .tuple vs, h => by cases h with | tuple _ h => simp only [forget, put, putList_forget d vs h]
  | .other a, _ => rfl

theorem putList_forget {D T A : Type} (d : D) : ∀ vs : List (PyVal D T A), (∀ v ∈ vs, OnlyOn d v) → putList d (forgetList vs) = vs
  | [], _ => rfl
  | v :: vs, h => by
    simp only [forgetList, putList, put_forget d v (h v (List.mem_cons_self ..)),
      putList_forget d vs (fun w hw => h w (List.mem_cons_of_mem _ hw))]

theorem putDict_forget {D T A : Type} (d : D) : ∀ es : List (A × PyVal D T A), (∀ e ∈ es, OnlyOn d e.2) → putDict d (forgetDict es) = es
  | [], _ => rfl
  | (k, v) :: es, h => by
    simp only [forgetDict, putDict, put_forget d v (h (k, v) (List.mem_cons_self ..)),
      putDict_forget d es (fun w hw => h w (List.mem_cons_of_mem _ hw))]
end

theorem sameOnAnyDevice_of_put {D T A J E : Type} {exec : J → List (String × PyVal D T A) → Except E (PyVal D T A)}
    (h : ∀ t d d' (as : List (String × PyVal Unit T A)),
      AlikeResult (exec t (as.map (fun a => (a.1, put d a.2)))) (exec t (as.map (fun a => (a.1, put d' a.2))))) : SameOnAnyDevice exec := by
  intro t d d' args args' h1 h2 heq
  have e : ∀ (d : D) (l : List (String × PyVal D T A)), AllOn (OnlyOn d) l →
      (l.map (fun a => (a.1, forget a.2))).map (fun a => (a.1, put d a.2)) = l := by
    intro d l hl
    rw [List.map_map]
    conv_rhs => rw [← List.map_id l]
    refine List.map_congr_left (fun a ha => ?_)
    simp [put_forget d a.2 (hl a ha)]
  have := h t d d' (args.map (fun a => (a.1, forget a.2)))
  rw [e d args h1, heq, e d' args' h2] at this
  exact this

theorem adding_same : SameOnAnyDevice adding := by
  refine sameOnAnyDevice_of_put ?_
  intro t d d' as
  cases t with
  | false => exact Or.inr ⟨_, _, rfl, rfl, rfl⟩
  | true =>
    rcases as with _ | ⟨⟨n, v⟩, _ | ⟨b, as⟩⟩
    · exact Or.inl ⟨_, rfl, rfl⟩
    · cases v with
      | dict es =>
        rcases es with _ | ⟨⟨k, v⟩, _ | ⟨⟨k', v'⟩, _ | ⟨c, es⟩⟩⟩
        · exact Or.inl ⟨_, rfl, rfl⟩
        · cases v <;> exact Or.inl ⟨_, rfl, rfl⟩
        · cases v with
          | tensor _ x =>
            cases v' with
            | tensor _ y =>
              refine Or.inr ⟨.list [.tensor d (x + y)], .list [.tensor d' (x + y)], ?_, ?_, rfl⟩ <;> simp [put, putDict, adding]
            | _ => exact Or.inl ⟨_, rfl, rfl⟩
          | _ => cases v' <;> exact Or.inl ⟨_, rfl, rfl⟩
        · obtain ⟨k'', v''⟩ := c
          cases v <;> cases v' <;> exact Or.inl ⟨_, rfl, rfl⟩
      | _ => exact Or.inl ⟨_, rfl, rfl⟩
    · obtain ⟨n', v'⟩ := b
      refine Or.inl ⟨"bad arguments", ?_, ?_⟩ <;> simp [adding]

/-- Computing on device 1 and keeping values on device 0, or everything on device 2: the same, and not a failure. -/
example (pop : ∀ n, PopOracle n) : ∃ trace trace' o,
    runOn addingTasks (fun _ => "") (fun _ => 0) move id 1 0 adding pop [true] = some (trace, o) ∧
    runOn addingTasks (fun _ => "") (fun _ => 0) move id 2 2 adding pop [true] = some (trace', o) ∧ execs trace = execs trace' ∧
    (handed (universeOf addingTasks [true]).1 trace).map (fun e => (e.1, forget e.2)) =
      (handed (universeOf addingTasks [true]).1 trace').map (fun e => (e.1, forget e.2)) :=
  haveI : Nonempty (PyVal Unit Int String) := ⟨.other ""⟩
  C121_same_results addingTasks _ _ id adding adding_same pop [true] 1 0 2 2

/-! ## Merges to disk -/

section
variable {D K T E : Type} [DecidableEq K]
open Verif.WholeMerge
open Verif.Plan (Planned)
open Verif.LoadTask (LoadTensor gatherExecute gatherStep dictGet resultSet saveExecute)

/-- Two set-ups of a merge with the same models, settings and method, the second with tensors on devices: converting a tensor leaves it where it is; a
loader gives the same tensor, on whatever device; and the method, given tensors that are all on one device, gives the same as without
devices, on whatever device.  (Nothing is said of methods given tensors on several devices.) -/
structure SameMerge (s : Setup K T E) (s' : Setup K (D × T) E) : Prop where
  dtype : s'.dtype = s.dtype
  outDtype : s'.outDtype = s.outDtype
  cast : ∀ d y, s'.casts.cast d y = (y.1, s.casts.cast d y.2)
  load : ∀ m (t : LoadTensor), (t.execute s'.casts (s'.loaders m)).map (Option.map Prod.snd) = t.execute s.casts (s.loaders m)
  method : ∀ p d ts, (s'.method p (ts.map (fun e => (e.1, (d, e.2))))).map (Option.map Prod.snd) = s.method p ts

/-- The values of a merge to disk with all tensors on one device. -/
def putVal (d : D) : Val T → Val (D × T)
  | .tensor x => .tensor (x.map (fun y => (d, y)))
  | .dict es => .dict (es.map (fun e => (e.1, (d, e.2))))
  | .saved x => .saved (x.map (fun e => (e.1, (d, e.2))))
  | .nothing => .nothing

theorem contents_put (d : D) (v : Val T) : contents (putVal d v) = v := by
  cases v <;> simp [contents, putVal, Function.comp_def]

theorem kwarg_map {V W : Type} (g : V → W) (as : List (String × V)) (n : String) :
    kwarg (as.map (fun e => (e.1, g e.2))) n = (kwarg as n).map g := by
  unfold kwarg
  induction as with
  | nil => rfl
  | cons a as ih =>
    simp only [List.map_cons, List.find?_cons]
    cases decide (a.1 = n)
    · exact ih
    · rfl

theorem tensorArgs_map (d : D) (as : List (String × Val T)) :
    WholeMerge.tensorArgs (as.map (fun e => (e.1, putVal d e.2))) =
      (WholeMerge.tensorArgs as).map (fun e => (e.1, e.2.map (fun y => (d, y)))) := by
  unfold WholeMerge.tensorArgs
  induction as with
  | nil => rfl
  | cons a as ih =>
    obtain ⟨n, v⟩ := a
    cases v <;> simp_all [putVal]

theorem dictGet_map {V W : Type} (g : V → W) (l : List (Str × V)) (k : Str) :
    dictGet (l.map (fun e => (e.1, g e.2))) k = (dictGet l k).map g := by
  unfold dictGet
  induction l with
  | nil => rfl
  | cons a l ih =>
    simp only [List.map_cons, List.find?_cons]
    cases decide (a.1 = k)
    · exact ih
    · rfl

theorem resultSet_map {V W : Type} (g : V → W) (l : List (Ref × V)) (m : Ref) (x : V) :
    resultSet (l.map (fun e => (e.1, g e.2))) m (g x) = (resultSet l m x).map (fun e => (e.1, g e.2)) := by
  unfold resultSet
  simp only [List.map_map, Function.comp_def]
  split
  · rw [List.map_map]
    refine List.map_congr_left (fun e _ => ?_)
    simp only [Function.comp]
    split <;> rfl
  · simp

theorem gatherExecute_map {V W : Type} (g : V → W) (ws : List (Ref × LoadTask.WeightInfo)) (kw : List (Str × Option V)) :
    gatherExecute ws (kw.map (fun e => (e.1, e.2.map g))) = (gatherExecute ws kw).map (fun e => (e.1, g e.2)) := by
  unfold gatherExecute
  have : ∀ (l : List (Str × Ref)) (d : List (Ref × V)),
      l.foldl (gatherStep (kw.map (fun e => (e.1, e.2.map g)))) (d.map (fun e => (e.1, g e.2))) =
        (l.foldl (gatherStep kw) d).map (fun e => (e.1, g e.2)) := by
    intro l
    induction l with
    | nil => intro d; rfl
    | cons e l ih =>
      intro d
      simp only [List.foldl_cons]
      rw [← ih]
      congr 1
      unfold gatherStep
      rw [dictGet_map (fun x : Option V => x.map g)]
      rcases dictGet kw e.1 with _ | (_ | x)
      · rfl
      · rfl
      · exact resultSet_map g d e.2 x
  exact this _ []

theorem mergeJob_on {s : Setup K T E} {s' : Setup K (D × T) E} (h : SameMerge s s') (p : Planned K) (d storage : D)
    (q : Val T → Val (D × T)) (hq : ∀ es, q (.dict es) = .dict (es.map (fun e => (e.1, (d, e.2)))))
    (hq' : ∀ v, (∀ es, v ≠ .dict es) → ∀ es, q v ≠ .dict es) (as' : List (String × Val (D × T))) (as : List (String × Val T))
    (has : kwarg as' "tensors" = (kwarg as "tensors").map q) :
    (execJob s' (.merge p) as').map (moveVal storage) = (execJob s (.merge p) as).map (putVal storage) := by
  simp only [execJob]
  rw [has]
  cases kwarg as "tensors" with
  | none => rfl
  | some v =>
    by_cases hv : ∃ es, v = .dict es
    · obtain ⟨es, rfl⟩ := hv
      simp only [Option.map_some, hq]
      rw [← h.method p d es]
      cases s'.method p (es.map (fun e => (e.1, (d, e.2)))) with
      | error e => rfl
      | ok x => cases x <;> rfl
    · have hv' : ∀ es, v ≠ .dict es := fun es he => hv ⟨es, he⟩
      have hqv := hq' v hv'
      simp only [Option.map_some]
      generalize q v = w at hqv
      cases w with
      | dict es => exact absurd rfl (hqv es)
      | _ => cases v with
        | dict es => exact absurd rfl (hv' es)
        | _ => rfl

/-- Around one task: on arguments that are on the device for storage, what it gives is on the device for storage, and the same as without devices. -/
theorem job_on {s : Setup K T E} {s' : Setup K (D × T) E} (h : SameMerge s s') (method : Bool) (math storage : D) (t : Job K)
    (as : List (String × Val T)) :
    execOn moveVal (usesAccelerator method) math storage (execJob s') t (as.map (fun e => (e.1, putVal storage e.2))) =
      (execJob s t as).map (putVal storage) := by
  have hmv : ∀ (d e : D) (v : Val T), (∀ x, v ≠ .saved x) → moveVal d (putVal e v) = putVal d v := by
    intro d e v hv
    cases v with
    | saved x => exact absurd rfl (hv x)
    | tensor x => cases x <;> rfl
    | dict es => simp [moveVal, putVal, Function.comp_def]
    | nothing => rfl
  have hon : ∀ (t : Job K) (bs : List (String × Val (D × T))),
      execOn moveVal (usesAccelerator method) math storage (execJob s') t bs =
        (execJob s' t (if usesAccelerator method t then bs.map (fun e => (e.1, moveVal math e.2)) else bs)).map (moveVal storage) := by
    intro t bs
    unfold execOn
    cases execJob s' t (if usesAccelerator method t then bs.map (fun e => (e.1, moveVal math e.2)) else bs) <;> rfl
  rw [hon]
  cases t with
  | load m t =>
    simp only [usesAccelerator, execJob, Bool.false_eq_true, if_false]
    rw [← h.load m t]
    cases t.execute s'.casts (s'.loaders m) with
    | error e => rfl
    | ok x => cases x <;> rfl
  | gather ws =>
    simp only [usesAccelerator, execJob, Bool.false_eq_true, if_false]
    rw [tensorArgs_map, gatherExecute_map (fun y => (storage, y))]
    simp [moveVal, putVal, Function.comp_def, Except.map]
  | merge p =>
    cases method
    · exact mergeJob_on h p storage storage (putVal storage) (fun _ => rfl) (by intro v hv es; cases v <;> simp_all [putVal]) _ as
        (kwarg_map _ _ _)
    · refine mergeJob_on h p math storage (fun v => moveVal math (putVal storage v)) ?_ ?_ _ as ?_
      · intro es
        simp [moveVal, putVal, Function.comp_def]
      · intro v hv es
        cases v <;> simp_all [putVal, moveVal]
      · simp only [usesAccelerator, if_true]
        rw [kwarg_map, kwarg_map, Option.map_map]
        rfl
  | writer => rfl
  | save p =>
    simp only [usesAccelerator, execJob, Bool.false_eq_true, if_false]
    rw [kwarg_map]
    rcases hk : kwarg as "tensor" with _ | v
    · rfl
    · cases v with
      | tensor x =>
        simp only [Option.map_some, putVal]
        rw [h.outDtype]
        cases x with
        | none =>
          simp only [Option.map_none, saveExecute]
          cases p.weight.optional <;> rfl
        | some x =>
          simp only [Option.map_some, saveExecute]
          cases saveDtype s.outDtype p.weight with
          | none => rfl
          | some n =>
            simp only
            by_cases hn : n = ""
            · simp only [hn, if_true]; rfl
            · simp only [hn, if_false]
              cases LoadTask.dtypeFromName n with
              | error e => rfl
              | ok d => simp only [h.cast]; rfl
      | dict es => rfl
      | saved x => rfl
      | nothing => rfl
  | finalize ps => rfl

/-- **C121** A merge to disk on any devices.  Computing on any device and keeping tensors on any - the same, as with `--low-cpu-memory`, or another - the run
ends as it would without devices, and does the same with the writer: the same tensors under the same names in the same order. -/
theorem C121_merge_to_disk (s : Setup K T E) (s' : Setup K (D × T) E) (h : SameMerge s s') (ps : List (Planned K)) (method : Bool) (math storage : D)
    (group : Job K → String) (prio : Job K → Int) (pop : ∀ n, PopOracle n) (conf : Writer.Conf) (size : T → Nat) :
    ∃ trace o trace', runTasks (jobs K s.dtype) group prio (execJob s) pop (targets ps) = some (trace, o) ∧
      runOn (jobs K s.dtype) group prio moveVal (usesAccelerator method) math storage (execJob s') pop (targets ps) = some (trace', o) ∧
      writerRun conf size {} ((handed (universeOf (jobs K s.dtype) (targets ps)).1 trace').map (fun e => (e.1, contents e.2))) =
        writerRun conf size {} (handed (universeOf (jobs K s.dtype) (targets ps)).1 trace) := by
  haveI : Nonempty (Val T) := ⟨.nothing⟩
  obtain ⟨trace, o, hrun, _⟩ := Pipeline.C02_tasks (jobs K s.dtype) group prio (execJob s) pop (targets ps)
  refine ⟨trace, o, trace.map (mapEvent (putVal storage)), hrun, ?_, ?_⟩
  · unfold runOn
    rw [runTasks_map (putVal storage) (jobs K s.dtype) group prio (execJob s) _ (job_on h method math storage) pop (targets ps), hrun]
    rfl
  · unfold handed
    rw [yields_map]
    simp [Function.comp_def, contents_put]

end

section
variable {D K T E : Type} [DecidableEq K]
open Verif.WholeMerge
open Verif.Plan (Planned)

/-- **C121** and so the files: on any devices, a merge to disk ends without an exception exactly when every planned weight has an expected result, and then
what is read from the files is, for each weight, that result - which is stated without devices. -/
theorem C121_files (s : Setup K T E) (s' : Setup K (D × T) E) (h : SameMerge s s') (ps : List (Planned K)) (htold : ∀ p ∈ ps, Told p)
    (hnames : ∀ p ∈ ps, ∀ q ∈ ps, p.weight.name = q.weight.name → p = q) (method : Bool) (math storage : D)
    (group : Job K → String) (prio : Job K → Int) (pop : ∀ n, PopOracle n) (conf : Writer.Conf) (hstd : conf.Standard) (size : T → Nat) :
    ∃ trace o, runOn (jobs K s.dtype) group prio moveVal (usesAccelerator method) math storage (execJob s') pop (targets ps) = some (trace, o) ∧
      (o = .finished ↔ ∀ p ∈ ps, ∃ r, Expected s p r) ∧
      (o = .finished → (∃ p ∈ ps, ∃ z, Expected s p (some z)) →
        let acts := writerRun conf size {} ((handed (universeOf (jobs K s.dtype) (targets ps)).1 trace).map (fun e => (e.1, contents e.2)))
        ∃ fs, Writer.applyOps (fun _ => none) (Writer.syncOps acts) = some fs ∧
          (∀ r, Relation.ReflTransGen Writer.Step ⟨fun _ => none, [], acts⟩ r → (∀ r', ¬ Writer.Step r r') → r.fs = fs) ∧
          ∃ idx, Writer.fromDisk fs = .ok idx ∧
            (∀ name, name ∈ idx.tensorPaths.map Prod.fst ↔
              ∃ p ∈ ps, ∃ z, Expected s p (some z) ∧ name = String.ofList p.weight.name) ∧
            ∀ p ∈ ps, ∀ z, Expected s p (some z) → ∀ hist aliases raise,
              (Writer.getTensor fs idx (Writer.afterHistory fs idx none hist) (String.ofList p.weight.name) aliases raise).1 =
                .ok (some z)) := by
  obtain ⟨trace, o, trace', h1, h2, h3⟩ := C121_merge_to_disk s s' h ps method math storage group prio pop conf size
  obtain ⟨trace₁, o₁, g1, g2, g3⟩ := C104_merge_to_disk s ps htold hnames group prio pop conf hstd size
  rw [h1, Option.some.injEq, Prod.mk.injEq] at g1
  obtain ⟨rfl, rfl⟩ := g1
  refine ⟨trace', o, h2, g2, ?_⟩
  rw [h3]
  exact g3

end

/-! ### A concrete case -/

section
variable {D K T E : Type} [DecidableEq D]
open Verif.WholeMerge
open Verif.LoadTask (LoadTensor Loader)

/-- A merge with the tensors of each model loaded onto a device of its own, and a method that fails for tensors on several devices. -/
def withDevices (s : Setup K T E) (place : Ref → D) (cpu : D) (mixed : E) : Setup K (D × T) E where
  casts := ⟨fun y => s.casts.dtypeOf y.2, fun d y => (y.1, s.casts.cast d y.2)⟩
  loaders := fun m => ⟨(s.loaders m).names, fun n => ((s.loaders m).fetch n).map (fun x => (place m, x)),
    fun n => ((s.loaders m).convert n).map (Option.map (fun x => (place m, x)))⟩
  dtype := s.dtype
  outDtype := s.outDtype
  method := fun p ts =>
    let d := (ts.head?.map (fun e => e.2.1)).getD cpu
    if ts.all (fun e => decide (e.2.1 = d)) then (s.method p (ts.map (fun e => (e.1, e.2.2)))).map (Option.map (fun x => (d, x)))
    else .error mixed

theorem convertFirst_map (l : Loader T) (d : D) (ns : List String) :
    (LoadTask.convertFirst ⟨l.names, fun n => (l.fetch n).map (fun x => (d, x)), fun n => (l.convert n).map (Option.map (fun x => (d, x)))⟩ ns).map
      (Option.map Prod.snd) = LoadTask.convertFirst l ns := by
  induction ns with
  | nil => rfl
  | cons n ns ih =>
    simp only [LoadTask.convertFirst]
    cases l.convert n with
    | error e => rfl
    | ok x => cases x with
      | none => exact ih
      | some x => rfl

theorem withDevices_same (s : Setup K T E) (place : Ref → D) (cpu : D) (mixed : E) : SameMerge s (withDevices s place cpu mixed) where
  dtype := rfl
  outDtype := rfl
  cast := fun _ _ => rfl
  load := by
    intro m t
    have hraw : (t.raw ((withDevices s place cpu mixed).loaders m)).map (Option.map Prod.snd) = t.raw (s.loaders m) := by
      have hres : t.resolve ((withDevices s place cpu mixed).loaders m) = t.resolve (s.loaders m) := rfl
      unfold LoadTensor.raw
      rw [hres]
      simp only [withDevices]
      cases t.resolve (s.loaders m) with
      | none => exact convertFirst_map (s.loaders m) (place m) _
      | some n =>
        simp only
        by_cases hn : n = ""
        · simp only [hn, if_true]
          exact convertFirst_map (s.loaders m) (place m) _
        · simp only [hn, if_false]
          cases (s.loaders m).fetch n <;> rfl
    simp only [LoadTensor.execute]
    rw [← hraw]
    rcases t.raw ((withDevices s place cpu mixed).loaders m) with e | (_ | x)
    · rfl
    · simp only [Except.map, Option.map_none]
      cases t.optional <;> rfl
    · simp only [Except.map, Option.map_some, LoadTask.toDtype, withDevices]
      cases t.dtype with
      | none => rfl
      | some n =>
        simp only
        by_cases hn : n = ""
        · simp only [hn, if_true]
          rfl
        · simp only [hn, if_false]
          cases LoadTask.dtypeFromName n with
          | error e => rfl
          | ok d =>
            simp only
            by_cases hd : d = s.casts.dtypeOf x.2 <;> simp [hd]
  method := by
    intro p d ts
    have hd : ∀ e ∈ ts.map (fun e : Ref × T => (e.1, (d, e.2))),
        e.2.1 = (((ts.map (fun e : Ref × T => (e.1, (d, e.2)))).head?.map (fun e => e.2.1)).getD cpu) := by
      cases ts with
      | nil => intro e he; cases he
      | cons a ts =>
        intro e he
        obtain ⟨b, _, rfl⟩ := List.mem_map.1 he
        rfl
    have hall : (ts.map (fun e : Ref × T => (e.1, (d, e.2)))).all (fun e => decide (e.2.1 =
        (((ts.map (fun e : Ref × T => (e.1, (d, e.2)))).head?.map (fun e => e.2.1)).getD cpu))) = true := by
      rw [List.all_eq_true]
      intro e he
      exact decide_eq_true (hd e he)
    simp only [withDevices]
    rw [if_pos hall, List.map_map]
    have : (ts.map ((fun e : Ref × (D × T) => (e.1, e.2.2)) ∘ fun e => (e.1, (d, e.2)))) = ts := by
      conv_rhs => rw [← List.map_id ts]
      rfl
    rw [this]
    rcases s.method p ts with e | (_ | x) <;> rfl

end

/-! ## Tensors in one piece of memory -/

section
variable {M T : Type}

/-- **C121** Tensors that share memory are written all the same: whichever tensors of a shard share memory, as when a layer is stacked twice, the file gets
every name with its tensor.  `shares` is what the library takes for sharing; copies do not share. -/
theorem C121_shared_memory (shares : List M → Bool) (copy : List M → List M) (hlen : ∀ l, (copy l).length = l.length)
    (hcopy : ∀ l, shares (copy l) = false) (shard : List (String × (M × T))) :
    saveSt shares copy shard = some (shard.map (fun e => (e.1, e.2.2))) := by
  unfold saveSt
  cases h : saveFile shares shard with
  | some f =>
    unfold saveFile at h
    split at h
    · cases h
    · simp only [Option.some.injEq] at h
      simp only [h]
  | none =>
    simp only
    have hl : (copy (shard.map (fun e => e.2.1))).length = shard.length := by rw [hlen, List.length_map]
    have h1 : ((shard.zip (copy (shard.map (fun e => e.2.1)))).map (fun e => (e.1.1, (e.2, e.1.2.2)))).map (fun e => e.2.1) =
        copy (shard.map (fun e => e.2.1)) := by
      rw [List.map_map]
      exact List.map_snd_zip (by omega)
    unfold saveFile
    rw [h1, hcopy]
    simp only [Bool.false_eq_true, if_false, Option.some.injEq, List.map_map]
    have h2 : (fun e : (String × (M × T)) × M => (e.1.1, e.1.2.2)) = (fun e => (e.1, e.2.2)) ∘ Prod.fst := rfl
    have h3 := List.map_fst_zip (l₁ := shard) (l₂ := copy (shard.map (fun e => e.2.1))) (by omega)
    simp only [Function.comp_def]
    rw [h2, ← List.map_map, h3]

/-- **C121** With `--clone-tensors` nothing is refused in the first place: of the tensors saved, whatever memory they share, any that go into one shard are
written at the first attempt. -/
theorem C121_clone_tensors (shares : List M → Bool) (hshares : ∀ l : List M, l.Nodup → shares l = false) (fresh : Nat → M)
    (hfresh : Function.Injective fresh) (saves shard : List (String × (M × T))) (hsub : shard.Sublist (saveCloned fresh saves)) :
    saveFile shares shard = some (shard.map (fun e => (e.1, e.2.2))) := by
  unfold saveFile
  have h : ((saveCloned fresh saves).map (fun e => e.2.1)).Nodup := by
    unfold saveCloned
    rw [List.map_map]
    have h2 : ((fun e : String × (M × T) => e.2.1) ∘ fun e : (String × (M × T)) × Nat => (e.1.1, (fresh e.2, e.1.2.2))) = fresh ∘ Prod.snd := rfl
    rw [h2, ← List.map_map, List.zipIdx_map_snd]
    exact (List.nodup_range' ..).map hfresh
  rw [hshares _ (h.sublist (hsub.map _))]
  rfl

/-- Two names for one tensor, and another one: refused, copied, written. -/
example : let shares := fun l : List Nat => decide (¬ l.Nodup)
    saveFile shares [("a", (7, "x")), ("b", (7, "x")), ("c", (8, "y"))] = none ∧
    saveSt shares (fun l => List.range l.length) [("a", (7, "x")), ("b", (7, "x")), ("c", (8, "y"))] =
      some [("a", "x"), ("b", "x"), ("c", "y")] ∧
    (∀ l : List Nat, shares (List.range l.length) = false) := by
  refine ⟨by decide, by decide, fun l => ?_⟩
  simp [List.nodup_range]

end

end Verif.Devices
