import Verif.Model.Session
import Verif.Props.Writer

/-! # C118: merges one after another in one process -/

set_option linter.unusedSectionVars false

namespace Verif.Session

open Verif.Writer
open Verif.ModelRef (Ref)

section
variable {T : Type}

/-! ## What the claims are about -/

/-- The model is used. -/
def Act.uses (m : Ref) : Act T → Prop
  | .get _ m' => m' = m
  | .read _ m' _ => m' = m
  | _ => False

/-- The thread sets its options. -/
def Act.sets (t : Nat) : Act T → Prop
  | .setup t' _ => t' = t
  | _ => False

/-- The world as it is after these acts: as of its last change. -/
inductive Now (w0 : World T) (acts : List (Act T)) : World T → Prop
  | unchanged (h : ∀ w, Act.change w ∉ acts) : Now w0 acts w0
  | changed (before rest : List (Act T)) (w : World T) (ha : acts = before ++ .change w :: rest) (h : ∀ w', Act.change w' ∉ rest) : Now w0 acts w

/-- The options of a thread after these acts: those it set last, else those of an instance that was never set up. -/
inductive Has (t : Nat) (acts : List (Act T)) : Opts → Prop
  | never (h : ∀ a ∈ acts, ¬ a.sets t) : Has t acts {}
  | last (before rest : List (Act T)) (o : Opts) (ha : acts = before ++ .setup t o :: rest) (h : ∀ a ∈ rest, ¬ a.sets t) : Has t acts o

/-! ## Lemmas -/

theorem after_append (w : World T) (a b : List (Act T)) : after w (a ++ b) = b.foldl step (after w a) := by
  unfold after; rw [List.foldl_append]

theorem get_opts (w : World T) (p : Process T) (t : Nat) (m : Ref) : (get w p t m).2.opts = p.opts := by
  unfold get
  split
  · rfl
  · split
    · rfl
    · split <;> rfl

theorem read_opts (w : World T) (p : Process T) (t : Nat) (m : Ref) (key : String) : (read w p t m key).2.opts = p.opts := by
  have h := get_opts w p t m
  unfold read
  split <;> (rename_i hg; rw [hg] at h; exact h)

theorem world_steps (acts : List (Act T)) : ∀ s : World T × Process T, (∀ w, Act.change w ∉ acts) → (acts.foldl step s).1 = s.1 := by
  induction acts with
  | nil => intro s _; rfl
  | cons a acts ih =>
    intro s h
    rw [List.foldl_cons, ih _ (fun w hw => h w (List.mem_cons_of_mem _ hw))]
    cases a with
    | change w => exact absurd List.mem_cons_self (h w)
    | _ => rfl

theorem now_after (w0 : World T) (acts : List (Act T)) (w : World T) (h : Now w0 acts w) : (after w0 acts).1 = w := by
  cases h with
  | unchanged h => exact world_steps acts _ h
  | changed before rest _ ha h =>
    rw [ha, after_append, List.foldl_cons, world_steps rest _ h]
    rfl

theorem opts_steps (t : Nat) (acts : List (Act T)) : ∀ s : World T × Process T, (∀ a ∈ acts, ¬ a.sets t) →
    (acts.foldl step s).2.opts t = s.2.opts t := by
  induction acts with
  | nil => intro s _; rfl
  | cons a acts ih =>
    intro s h
    rw [List.foldl_cons, ih _ (fun a ha => h a (List.mem_cons_of_mem _ ha))]
    have ha := h a List.mem_cons_self
    cases a with
    | setup t' o =>
      have : t ≠ t' := fun e => ha e.symm
      simp [step, setup, Function.update_of_ne this]
    | get t' m => simp only [step]; rw [get_opts]
    | read t' m k => simp only [step]; rw [read_opts]
    | flushAll => rfl
    | change w => rfl

theorem has_after (w0 : World T) (t : Nat) (acts : List (Act T)) (o : Opts) (h : Has t acts o) : (after w0 acts).2.opts t = o := by
  cases h with
  | never h => rw [after, opts_steps t acts _ h]
  | last before rest _ ha h =>
    rw [ha, after_append, List.foldl_cons, opts_steps t rest _ h]
    simp [step, setup]

theorem find_map {A B : Type} (q : A → B) (l : List (Ref × A)) (m : Ref) :
    (l.map (fun e => (e.1, q e.2))).find? (fun e => decide (e.1 = m)) = (l.find? (fun e => decide (e.1 = m))).map (fun e => (e.1, q e.2)) := by
  induction l with
  | nil => rfl
  | cons e l ih =>
    simp only [List.map_cons, List.find?_cons]
    split <;> simp_all

theorem dictGet_dictSet_self {B : Type} (d : List (Ref × B)) (k : Ref) (v : B) : dictGet (dictSet d k v) k = some v := by
  unfold dictSet dictGet
  split
  · rename_i h
    induction d with
    | nil => simp at h
    | cons e d ih =>
      simp only [List.map_cons, List.find?_cons]
      by_cases he : e.1 = k
      · simp [he]
      · rw [if_neg he, decide_eq_false he]
        refine ih ?_
        simp only [List.map_cons, List.contains_eq_mem, List.mem_cons, decide_eq_true_eq] at h ⊢
        exact h.resolve_left (Ne.symm he)
  · rename_i h
    rw [List.find?_append]
    have : d.find? (fun e => decide (e.1 = k)) = none := by
      rw [List.find?_eq_none]
      intro e he
      simp only [decide_eq_true_eq]
      rintro rfl
      exact h (by simp only [List.contains_eq_mem, decide_eq_true_eq]; exact List.mem_map.2 ⟨e, he, rfl⟩)
    simp [this]

theorem dictGet_dictSet_ne {B : Type} (d : List (Ref × B)) (k k' : Ref) (v : B) (hne : k' ≠ k) : dictGet (dictSet d k v) k' = dictGet d k' := by
  unfold dictSet dictGet
  split
  · clear * - hne
    induction d with
    | nil => rfl
    | cons e d ih =>
      simp only [List.map_cons, List.find?_cons]
      by_cases he : e.1 = k
      · simp only [he, if_true, Ne.symm hne, decide_false]
        exact ih
      · simp only [if_neg he]
        split
        · rfl
        · exact ih
  · rw [List.find?_append]
    simp [Ne.symm hne]

theorem dictGet_flush (l : List (Ref × Kept T)) (m : Ref) :
    dictGet (l.map (fun e => (e.1, ({ e.2 with cur := none } : Kept T)))) m = (dictGet l m).map (fun k => ({ k with cur := none } : Kept T)) := by
  induction l with
  | nil => rfl
  | cons e l ih =>
    obtain ⟨x, k⟩ := e
    simp only [dictGet, List.map_cons, List.find?_cons] at ih ⊢
    by_cases h : x = m
    · simp [h]
    · simp only [h, decide_false]
      exact ih

/-- One act leaves a model alone, except for what is open of it, unless it is its first use. -/
theorem step_other (s : World T × Process T) (a : Act T) (m : Ref) (h : ¬ a.uses m) :
    dictGet (step s a).2.loaders m = dictGet s.2.loaders m ∨
      (a = .flushAll ∧ dictGet (step s a).2.loaders m = (dictGet s.2.loaders m).map (fun k => ({ k with cur := none } : Kept T))) := by
  cases a with
  | setup t o => exact Or.inl rfl
  | get t m' =>
    left
    have hne : m' ≠ m := h
    simp only [step]
    unfold get
    split
    · rfl
    · split
      · rfl
      · split
        · rfl
        · exact dictGet_dictSet_ne _ _ _ _ (Ne.symm hne)
  | read t m' k =>
    left
    have hne : m' ≠ m := h
    have hg : dictGet (get s.1 s.2 t m').2.loaders m = dictGet s.2.loaders m := by
      unfold get
      split
      · rfl
      · split
        · rfl
        · split
          · rfl
          · exact dictGet_dictSet_ne _ _ _ _ (Ne.symm hne)
    simp only [step]
    unfold read
    split
    · rename_i hq; rw [hq] at hg; exact hg
    · rename_i hq
      rw [hq] at hg
      simp only
      rw [dictGet_dictSet_ne _ _ _ _ (Ne.symm hne)]
      exact hg
  | flushAll => exact Or.inr ⟨rfl, dictGet_flush _ _⟩
  | change w => exact Or.inl rfl

/-- A model that is loaded stays so, with directory and index, whatever happens. -/
theorem step_kept (s : World T × Process T) (a : Act T) (m : Ref) (k : Kept T) (h : dictGet s.2.loaders m = some k) :
    ∃ cur, dictGet (step s a).2.loaders m = some { k with cur := cur } ∧
      (cur = k.cur ∨ (a = .flushAll ∧ cur = none) ∨ ∃ t key, a = .read t m key ∧ cur = (getTensor (s.1.dirs k.dir) k.index k.cur key [] true).2) := by
  by_cases hu : a.uses m
  · cases a with
    | get t m' =>
      cases hu
      refine ⟨k.cur, ?_, Or.inl rfl⟩
      simp only [step, get, h]
    | read t m' key =>
      cases hu
      refine ⟨_, ?_, Or.inr (Or.inr ⟨t, key, rfl, rfl⟩)⟩
      have hg : get s.1 s.2 t m = (.ok k, s.2) := by unfold get; rw [h]
      simp only [step, read]
      rw [hg]
      exact dictGet_dictSet_self _ _ _
    | setup t o => cases hu
    | flushAll => cases hu
    | change w => cases hu
  · rcases step_other s a m hu with e | ⟨rfl, e⟩
    · exact ⟨k.cur, by rw [e, h], Or.inl rfl⟩
    · exact ⟨none, by rw [e, h]; rfl, Or.inr (Or.inl ⟨rfl, rfl⟩)⟩

theorem steps_kept (m : Ref) (acts : List (Act T)) : ∀ (s : World T × Process T) (k : Kept T), dictGet s.2.loaders m = some k →
    ∃ cur, dictGet (acts.foldl step s).2.loaders m = some { k with cur := cur } := by
  induction acts with
  | nil => intro s k h; exact ⟨k.cur, h⟩
  | cons a acts ih =>
    intro s k h
    obtain ⟨cur, h1, _⟩ := step_kept s a m k h
    exact ih _ { k with cur := cur } h1

/-- While the files of a model that is loaded stay as they are, what is open of it is one of its files. -/
theorem steps_steady (m : Ref) (fs : FS T) (acts : List (Act T)) : ∀ (s : World T × Process T) (k : Kept T), dictGet s.2.loaders m = some k →
    s.1.dirs k.dir = fs → CurOk fs k.index k.cur → (∀ w, Act.change w ∈ acts → w.dirs k.dir = fs) →
    ∃ cur, dictGet (acts.foldl step s).2.loaders m = some { k with cur := cur } ∧ CurOk fs k.index cur ∧
      (acts.foldl step s).1.dirs k.dir = fs := by
  induction acts with
  | nil => intro s k h h2 h3 _; exact ⟨k.cur, h, h3, h2⟩
  | cons a acts ih =>
    intro s k h h2 h3 h4
    obtain ⟨cur, h1, hc⟩ := step_kept s a m k h
    have hcur : CurOk fs k.index cur := by
      rcases hc with rfl | ⟨_, rfl⟩ | ⟨t, key, _, rfl⟩
      · exact h3
      · intro _ h; cases h
      · rw [h2]; exact getTensor_curOk h3 _ _ _
    have hw : (step s a).1.dirs k.dir = fs := by
      cases a with
      | change w => exact h4 w List.mem_cons_self
      | _ => exact h2
    exact ih _ { k with cur := cur } h1 hw hcur (fun w hw => h4 w (List.mem_cons_of_mem _ hw))

theorem unused (w0 : World T) (m : Ref) (acts : List (Act T)) (h : ∀ a ∈ acts, ¬ a.uses m) : dictGet (after w0 acts).2.loaders m = none := by
  have : ∀ (acts : List (Act T)) (s : World T × Process T), dictGet s.2.loaders m = none → (∀ a ∈ acts, ¬ a.uses m) →
      dictGet (acts.foldl step s).2.loaders m = none := by
    intro acts
    induction acts with
    | nil => intro s h _; exact h
    | cons a acts ih =>
      intro s hs h
      refine ih _ ?_ (fun a ha => h a (List.mem_cons_of_mem _ ha))
      rcases step_other s a m (h a List.mem_cons_self) with e | ⟨_, e⟩ <;> rw [e, hs]
      rfl
  exact this acts _ rfl h

/-- The first use of a model. -/
theorem first_use (w0 w : World T) (pre : List (Act T)) (first : Act T) (t : Nat) (o : Opts) (m : Ref) (dir : String) (idx : Index)
    (hunused : ∀ a ∈ pre, ¬ a.uses m) (hnow : Now w0 pre w) (hhas : Has t pre o)
    (hfirst : first = .get t m ∨ ∃ key, first = .read t m key)
    (hfind : w.find o m = .ok dir) (hidx : fromDisk (w.dirs dir) = .ok idx) :
    ∃ cur, dictGet (step (after w0 pre) first).2.loaders m = some ⟨dir, idx, cur⟩ ∧ CurOk (w.dirs dir) idx cur ∧
      (step (after w0 pre) first).1 = w := by
  have h1 := unused w0 m pre hunused
  have h2 := now_after w0 pre w hnow
  have h3 := has_after w0 t pre o hhas
  have hg : get w (after w0 pre).2 t m = (.ok ⟨dir, idx, none⟩,
      { (after w0 pre).2 with loaders := dictSet (after w0 pre).2.loaders m ⟨dir, idx, none⟩ }) := by
    unfold get
    rw [h1, h3, hfind]
    simp only [hidx]
  have h0 : CurOk (w.dirs dir) idx none := by intro _ h; cases h
  rcases hfirst with rfl | ⟨key, rfl⟩
  · refine ⟨none, ?_, h0, h2⟩
    simp only [step]
    rw [h2, hg]
    exact dictGet_dictSet_self _ _ _
  · refine ⟨_, ?_, getTensor_curOk h0 key [] true, h2⟩
    simp only [step]
    rw [h2]
    unfold read
    rw [hg]
    simp only
    exact dictGet_dictSet_self _ _ _

/-! ## The claims -/

/-- **C118** From the first time a process uses a model on - which finds it as the options of the thread say and the world then is -, whatever
else happens, every thread reads of it what a loader opened on those files reads, with whatever options, as long as the files stay as they
are.  (Each tensor is stored only in the file the index names.)  Missing from the full claim: files that change and options that differ between
merges (`C118_stale`, `C118_options_ignored`), and the options of worker threads (`C118_workers_default`). -/
theorem C118_first_use_partial (w0 w : World T) (pre rest : List (Act T)) (first : Act T) (t : Nat) (o : Opts) (m : Ref) (dir : String)
    (idx : Index) (hunused : ∀ a ∈ pre, ¬ a.uses m) (hnow : Now w0 pre w) (hhas : Has t pre o)
    (hfirst : first = .get t m ∨ ∃ key, first = .read t m key)
    (hfind : w.find o m = .ok dir) (hidx : fromDisk (w.dirs dir) = .ok idx)
    (hcons : ∀ file entries k, w.dirs dir file = some (.shard entries) →
      (∃ k', dictGet idx.tensorPaths k' = some file) → k ∈ entries.map Prod.fst → dictGet idx.tensorPaths k = some file)
    (hsteady : ∀ w', Act.change w' ∈ rest → w'.dirs dir = w.dirs dir) (t' : Nat) (key : String) :
    (read (after w0 (pre ++ first :: rest)).1 (after w0 (pre ++ first :: rest)).2 t' m key).1 =
      (getTensor (w.dirs dir) idx none key [] true).1 := by
  obtain ⟨cur, h1, h2, h3⟩ := first_use w0 w pre first t o m dir idx hunused hnow hhas hfirst hfind hidx
  obtain ⟨cur', h4, h5, h6⟩ := steps_steady m (w.dirs dir) rest _ ⟨dir, idx, cur⟩ h1 (by rw [h3]) h2 hsteady
  rw [after_append, List.foldl_cons]
  have hg : ∀ w', get w' (rest.foldl step (step (after w0 pre) first)).2 t' m =
      (.ok ⟨dir, idx, cur'⟩, (rest.foldl step (step (after w0 pre) first)).2) := by
    intro w'; unfold get; rw [h4]
  unfold read
  rw [hg]
  simp only at h6 ⊢
  rw [h6]
  have hc : Consistent (w.dirs dir) idx := fun file entries k a1 a2 a3 => hcons file entries k a1 a2 (dictGet_isSome.1 a3)
  have h0 : CurOk (w.dirs dir) idx none := by intro _ h; cases h
  rw [getTensor_indep hc h5, getTensor_indep hc h0]

/-- **C118**, what the code does: once a model has been loaded, its directory and the list of its tensors are those found then, whatever the options of a
later merge and whatever the files have become. -/
theorem C118_options_ignored (w0 w : World T) (pre rest : List (Act T)) (first : Act T) (t : Nat) (o : Opts) (m : Ref) (dir : String)
    (idx : Index) (hunused : ∀ a ∈ pre, ¬ a.uses m) (hnow : Now w0 pre w) (hhas : Has t pre o)
    (hfirst : first = .get t m ∨ ∃ key, first = .read t m key)
    (hfind : w.find o m = .ok dir) (hidx : fromDisk (w.dirs dir) = .ok idx) (w' : World T) (t' : Nat) :
    ∃ k, (get w' (after w0 (pre ++ first :: rest)).2 t' m).1 = .ok k ∧ k.dir = dir ∧ k.index = idx := by
  obtain ⟨cur, h1, _, _⟩ := first_use w0 w pre first t o m dir idx hunused hnow hhas hfirst hfind hidx
  obtain ⟨cur', h4⟩ := steps_kept m rest _ ⟨dir, idx, cur⟩ h1
  rw [after_append, List.foldl_cons]
  refine ⟨⟨dir, idx, cur'⟩, ?_, rfl, rfl⟩
  unfold get
  rw [h4]

/-- What a read of a tensor leaves open has that tensor. -/
theorem read_open {fs : FS T} {idx : Index} {cur : Option (List (String × T))} {key : String} {x : T}
    (h : (getTensor fs idx cur key [] true).1 = .ok (some x)) :
    ∃ entries, (getTensor fs idx cur key [] true).2 = some entries ∧ dictGet entries key = some x := by
  have hres : resolveAlias idx key [] = key := by unfold resolveAlias; split <;> rfl
  have hload : (match dictGet idx.tensorPaths key with
      | none => ((.error .keyError : Except LoadError (Option T)), cur)
      | some file => match openShard fs file with
        | .error e => (.error e, none)
        | .ok shard => ((match dictGet shard key with | some t => .ok (some t) | none => .error .keyError), some shard)).1 = .ok (some x) →
      ∃ entries, (match dictGet idx.tensorPaths key with
      | none => ((.error .keyError : Except LoadError (Option T)), cur)
      | some file => match openShard fs file with
        | .error e => (.error e, none)
        | .ok shard => ((match dictGet shard key with | some t => .ok (some t) | none => .error .keyError), some shard)).2 = some entries ∧
        dictGet entries key = some x := by
    intro h
    split at h
    · cases h
    · split at h
      · cases h
      · rename_i shard _
        refine ⟨shard, rfl, ?_⟩
        simp only at h
        split at h
        · rename_i hx; cases h; exact hx
        · cases h
  unfold getTensor at h ⊢
  simp only [hres, if_true] at h ⊢
  cases cur with
  | none => exact hload h
  | some shard =>
    simp only at h ⊢
    split
    · rename_i hs
      rw [if_pos hs] at h
      refine ⟨shard, rfl, ?_⟩
      simp only at h
      split at h
      · rename_i hx; cases h; exact hx
      · cases h
    · rename_i hs
      rw [if_neg hs] at h
      exact hload h

/-- **C118** is not met: what was read of a model is read again, although its files have become others since - or have been deleted -, if nothing else of it has
been read in between and the loaders have not been flushed (which no merge does). -/
theorem C118_stale (w0 : World T) (acts rest : List (Act T)) (t : Nat) (m : Ref) (key : String) (x : T)
    (h : (read (after w0 acts).1 (after w0 acts).2 t m key).1 = .ok (some x))
    (hrest : ∀ a ∈ rest, a ≠ .flushAll ∧ ∀ t' key', a ≠ .read t' m key') (w : World T) (t' : Nat) :
    (read w (after w0 (acts ++ .read t m key :: rest)).2 t' m key).1 = .ok (some x) := by
  obtain ⟨k, entries, hk, hx⟩ : ∃ (k : Kept T) (entries : List (String × T)), dictGet (step (after w0 acts) (.read t m key)).2.loaders m = some { k with cur := some entries } ∧
      dictGet entries key = some x := by
    simp only [step]
    unfold read at h ⊢
    split at h
    · cases h
    · rename_i k p' hg
      obtain ⟨entries, h1, h2⟩ := read_open h
      refine ⟨k, entries, ?_, h2⟩
      simp only
      rw [dictGet_dictSet_self, h1]
  have hkeep : ∀ (rest : List (Act T)) (s : World T × Process T), dictGet s.2.loaders m = some { k with cur := some entries } →
      (∀ a ∈ rest, a ≠ .flushAll ∧ ∀ t' key', a ≠ .read t' m key') →
      dictGet (rest.foldl step s).2.loaders m = some { k with cur := some entries } := by
    intro rest
    induction rest with
    | nil => intro s h _; exact h
    | cons a rest ih =>
      intro s hs hr
      obtain ⟨cur, h1, hc⟩ := step_kept s a m _ hs
      have ha := hr a List.mem_cons_self
      refine ih _ ?_ (fun a ha => hr a (List.mem_cons_of_mem _ ha))
      rcases hc with rfl | ⟨e, _⟩ | ⟨t, key, e, _⟩
      · exact h1
      · exact absurd e ha.1
      · exact absurd e (ha.2 t key)
  have := hkeep rest _ hk hrest
  rw [after_append, List.foldl_cons]
  have hg : get w (rest.foldl step (step (after w0 acts) (.read t m key))).2 t' m =
      (.ok { k with cur := some entries }, (rest.foldl step (step (after w0 acts) (.read t m key))).2) := by
    unfold get; rw [this]
  unfold read
  rw [hg]
  have hres : resolveAlias k.index key [] = key := by unfold resolveAlias; split <;> rfl
  simp only [getTensor, hres, hx, Option.isSome_some, if_true]

/-- **C118** is not met: a thread that has not set its options itself - the worker threads of a merge never do - asks for a model's type without trusting
remote code, whatever the merge was told. -/
theorem C118_workers_default (w0 : World T) (acts : List (Act T)) (t : Nat) (h : ∀ a ∈ acts, ¬ a.sets t) (w : World T) (m : Ref) :
    modelType w (after w0 acts).2 t m = w.modelType false m := by
  unfold modelType
  rw [has_after w0 t acts {} (.never h)]

/-- **C118** The thread that runs the merge asks as the merge was told. -/
theorem C118_main_thread (w0 : World T) (pre rest : List (Act T)) (t : Nat) (o : Opts) (models : List Ref) (h : ∀ a ∈ rest, ¬ a.sets t)
    (w : World T) (m : Ref) : modelType w (after w0 (pre ++ warmUp t o models ++ rest)).2 t m = w.modelType o.trustRemoteCode m := by
  unfold modelType
  rw [has_after w0 t _ o (.last pre (models.map (.get t) ++ rest) o (by simp [warmUp]) ?_)]
  intro a ha
  rcases List.mem_append.1 ha with ha | ha
  · obtain ⟨x, _, rfl⟩ := List.mem_map.1 ha
    intro h; cases h
  · exact h a ha

end

/-! ## A concrete case -/

/-- A model. -/
def someModel : Ref := ⟨⟨"out".toList, none⟩, none, none⟩

/-- A world where every model is in the directory "out", with one file. -/
def worldOf (entries : List (String × Nat)) : World Nat where
  find := fun _ _ => .ok "out"
  dirs := fun _ f => if f = "pytorch_model.bin" then some (.shard entries) else none
  modelType := fun trust _ => if trust then .ok "custom" else .error .noModel

/-- Two merges: the first reads the model, then the model is written anew, and a second merge is begun. -/
def twoMerges : List (Act Nat) :=
  warmUp 0 {} [someModel] ++ [.read 0 someModel "x", .change (worldOf [("x", 2), ("y", 3)])] ++ warmUp 0 { trustRemoteCode := true } [someModel]

/-- Of the first model "x" is read right by all threads ... -/
example (t : Nat) : (read (after (worldOf [("x", 1)]) (warmUp 0 {} [someModel])).1 (after (worldOf [("x", 1)]) (warmUp 0 {} [someModel])).2
    t someModel "x").1 = .ok (some 1) :=
  C118_first_use_partial (worldOf [("x", 1)]) (worldOf [("x", 1)]) [.setup 0 {}] [] (.get 0 someModel) 0 {} someModel "out" ⟨[("x", "pytorch_model.bin")]⟩
    (by intro a ha; rw [List.mem_singleton] at ha; subst ha; exact id) (.unchanged (by intro w h; simp at h))
    (.last [] [] {} rfl (by intro a h; cases h)) (Or.inl rfl) rfl rfl (by
      intro file entries k h1 _ h3
      simp only [worldOf] at h1
      split at h1
      · rename_i hf
        cases h1
        simp only [List.map_cons, List.map_nil, List.mem_singleton] at h3
        subst h3
        rw [hf]
        rfl
      · cases h1) (by intro w h; cases h) t "x"

/-- ... but the second merge reads the old "x" and does not find "y", on the main thread it trusts remote code, on others not. -/
example : (read (after (worldOf [("x", 1)]) twoMerges).1 (after (worldOf [("x", 1)]) twoMerges).2 0 someModel "x").1 = .ok (some 1) ∧
    (read (after (worldOf [("x", 1)]) twoMerges).1 (after (worldOf [("x", 1)]) twoMerges).2 0 someModel "y").1 = .error .keyError ∧
    modelType (after (worldOf [("x", 1)]) twoMerges).1 (after (worldOf [("x", 1)]) twoMerges).2 0 someModel = .ok "custom" ∧
    modelType (after (worldOf [("x", 1)]) twoMerges).1 (after (worldOf [("x", 1)]) twoMerges).2 1 someModel = .error .noModel :=
  ⟨rfl, rfl, rfl, rfl⟩

/-- A new process would read the new tensors. -/
example : (read (worldOf [("x", 2), ("y", 3)]) {} 0 someModel "x").1 = .ok (some 2) ∧
    (read (worldOf [("x", 2), ("y", 3)]) {} 0 someModel "y").1 = .ok (some 3) := ⟨rfl, rfl⟩

end Verif.Session
