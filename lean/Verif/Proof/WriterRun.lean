import Verif.Proof.Writer

/-! # Runs of a writer session on an empty directory -/

namespace Verif.Writer

variable {T : Type} {c : Conf} {size : T → Nat} {shards : List (List (String × T))}

/-- Final name of shard `i` of `n`. -/
def outName (c : Conf) (n i : Nat) : String :=
  if n = 1 then singleName c.pre c.ext else finalName c.pre c.ext i n

theorem nameRemap_eq (c : Conf) (n : Nat) :
    nameRemap c n = (List.range n).map (fun i => (tmpName c.pre c.ext i, outName c n i)) := by
  unfold nameRemap outName
  by_cases h : n = 1
  · subst h; simp
  · simp [h]

theorem outName_inj {n i j : Nat} (hi : i < n) (hj : j < n) (h : outName c n i = outName c n j) : i = j := by
  unfold outName at h
  split at h
  · omega
  · exact finalName_inj h

theorem tmp_ne_out {n i j : Nat} : tmpName c.pre c.ext i ≠ outName c n j := by
  unfold outName
  split
  · exact tmpName_ne_singleName
  · exact tmpName_ne_finalName

theorem out_ne_index {n i : Nat} (h : n > 1) : outName c n i ≠ indexName c.pre c.ext := by
  unfold outName
  rw [if_neg (by omega)]
  exact finalName_ne_indexName

/-- The dispatch actions of a session. -/
def dispatches (c : Conf) (shards : List (List (String × T))) : List (Action T) :=
  shards.mapIdx (fun i s => .dispatch (tmpName c.pre c.ext i) (.shard s))

/-- The renames of a session. -/
def renames (c : Conf) (n : Nat) : List (Action T) :=
  (List.range n).map (fun i => .op (.rename (tmpName c.pre c.ext i) (outName c n i)))

/-- The index write of a session. -/
def indexWrite (c : Conf) (size : T → Nat) (shards : List (List (String × T))) : List (Action T) :=
  if shards.length > 1 then
    [.op (.write (indexName c.pre c.ext) (.index (totalBytes size shards.flatten)
      (entriesOf (outName c shards.length) shards)))]
  else []

theorem tailActions_eq : tailActions c size shards =
    .join :: (renames c shards.length ++ indexWrite c size shards) := by
  unfold tailActions renames indexWrite
  rw [nameRemap_eq, List.map_map]
  congr 2
  split
  · rename_i h
    have : outName c shards.length = fun i => finalName c.pre c.ext i shards.length := by
      funext i; unfold outName; rw [if_neg (by omega)]
    rw [this]
  · rfl

theorem dispatches_drop {k : Nat} (hk : k < shards.length) :
    (dispatches c shards).drop k =
      .dispatch (tmpName c.pre c.ext k) (.shard shards[k]) :: (dispatches c shards).drop (k + 1) := by
  rw [List.drop_eq_getElem_cons (by simpa [dispatches] using hk)]
  simp [dispatches]

theorem renames_drop {n j : Nat} (hj : j < n) :
    (renames c n : List (Action T)).drop j =
      .op (.rename (tmpName c.pre c.ext j) (outName c n j)) :: (renames c n).drop (j + 1) := by
  rw [List.drop_eq_getElem_cons (by simpa [renames] using hj)]
  simp [renames]

/-- Directory after `j` renames. -/
structure Renamed (c : Conf) (shards : List (List (String × T))) (j : Nat) (fs : FS T) : Prop where
  tmp : ∀ i, j ≤ i → (hi : i < shards.length) → fs (tmpName c.pre c.ext i) = some (.shard shards[i])
  out : ∀ i, i < j → (hi : i < shards.length) → fs (outName c shards.length i) = some (.shard shards[i])
  only : ∀ f ct, fs f = some ct → (∃ i, j ≤ i ∧ i < shards.length ∧ f = tmpName c.pre c.ext i) ∨
    ∃ i, i < j ∧ i < shards.length ∧ f = outName c shards.length i

/-- Directory while shards are being written. -/
structure Writing (c : Conf) (shards : List (List (String × T))) (k : Nat) (pending : List (String × Content T))
    (fs : FS T) : Prop where
  le : k ≤ shards.length
  pend : ∀ e ∈ pending, ∃ i, ∃ hi : i < shards.length, i < k ∧ e = (tmpName c.pre c.ext i, .shard shards[i])
  only : ∀ f ct, fs f = some ct → ∃ i, ∃ hi : i < shards.length, i < k ∧
    f = tmpName c.pre c.ext i ∧ ct = .shard shards[i]
  cover : ∀ i, (hi : i < shards.length) → i < k →
    fs (tmpName c.pre c.ext i) = some (.shard shards[i]) ∨
      (tmpName c.pre c.ext i, Content.shard shards[i]) ∈ pending

/-- The complete directory. -/
structure Complete (c : Conf) (size : T → Nat) (shards : List (List (String × T))) (fs : FS T) : Prop where
  out : ∀ i, (hi : i < shards.length) → fs (outName c shards.length i) = some (.shard shards[i])
  index : shards.length > 1 → fs (indexName c.pre c.ext) =
    some (.index (totalBytes size shards.flatten) (entriesOf (outName c shards.length) shards))
  only : ∀ f ct, fs f = some ct → (∃ i, i < shards.length ∧ f = outName c shards.length i) ∨
    (shards.length > 1 ∧ f = indexName c.pre c.ext)

inductive RunInv (c : Conf) (size : T → Nat) (shards : List (List (String × T))) : Run T → Prop
  | writing {r k} : Writing c shards k r.pending r.fs →
      r.todo = (dispatches c shards).drop k ++ tailActions c size shards → RunInv c size shards r
  | moving {r j} : r.pending = [] → j ≤ shards.length → Renamed c shards j r.fs →
      r.todo = (renames c shards.length).drop j ++ indexWrite c size shards → RunInv c size shards r
  | done {r} : r.pending = [] → Complete c size shards r.fs → r.todo = [] → RunInv c size shards r

theorem runInv_init : RunInv c size shards
    ⟨fun _ => none, [], dispatches c shards ++ tailActions c size shards⟩ :=
  .writing (k := 0) ⟨Nat.zero_le _, by simp, by simp, by intro i _ h; omega⟩ (by simp)

theorem renamed_step {j : Nat} {fs : FS T} (hj : j < shards.length) (h : Renamed c shards j fs) :
    ∃ fs', applyOp fs (.rename (tmpName c.pre c.ext j) (outName c shards.length j)) = some fs' ∧
      Renamed c shards (j + 1) fs' := by
  have h1 := h.tmp j (Nat.le_refl _) hj
  refine ⟨Function.update (Function.update fs (tmpName c.pre c.ext j) none) (outName c shards.length j)
    (some (.shard shards[j])), by simp only [applyOp, h1], ?_, ?_, ?_⟩
  · intro i hi hi'
    rw [Function.update_of_ne tmp_ne_out, Function.update_of_ne]
    · exact h.tmp i (by omega) hi'
    · intro he; have := tmpName_inj he; omega
  · intro i hi hi'
    by_cases he : i = j
    · subst he; rw [Function.update_self]
    · rw [Function.update_of_ne, Function.update_of_ne]
      · exact h.out i (by omega) hi'
      · exact tmp_ne_out.symm
      · intro hh; exact he (outName_inj hi' hj hh)
  · intro f ct hf
    by_cases he : f = outName c shards.length j
    · exact Or.inr ⟨j, by omega, hj, he⟩
    · rw [Function.update_of_ne he] at hf
      by_cases he' : f = tmpName c.pre c.ext j
      · rw [he', Function.update_self] at hf; cases hf
      · rw [Function.update_of_ne he'] at hf
        rcases h.only f ct hf with ⟨i, h1, h2, h3⟩ | ⟨i, h1, h2, h3⟩
        · left
          refine ⟨i, ?_, h2, h3⟩
          have : i ≠ j := fun h => he' (h ▸ h3)
          omega
        · exact Or.inr ⟨i, by omega, h2, h3⟩

theorem renamed_complete {fs : FS T} (h : Renamed c shards shards.length fs) (hn : ¬ shards.length > 1) :
    Complete c size shards fs := by
  refine ⟨fun i hi => h.out i hi hi, fun h => absurd h hn, ?_⟩
  intro f ct hf
  rcases h.only f ct hf with ⟨i, h1, h2, _⟩ | ⟨i, _, h2, h3⟩
  · omega
  · exact Or.inl ⟨i, h2, h3⟩

theorem index_complete {fs : FS T} (h : Renamed c shards shards.length fs) (hn : shards.length > 1) :
    Complete c size shards (Function.update fs (indexName c.pre c.ext)
      (some (.index (totalBytes size shards.flatten) (entriesOf (outName c shards.length) shards)))) := by
  refine ⟨fun i hi => ?_, fun _ => by rw [Function.update_self], ?_⟩
  · rw [Function.update_of_ne (out_ne_index hn)]; exact h.out i hi hi
  · intro f ct hf
    by_cases he : f = indexName c.pre c.ext
    · exact Or.inr ⟨hn, he⟩
    · rw [Function.update_of_ne he] at hf
      rcases h.only f ct hf with ⟨i, h1, h2, _⟩ | ⟨i, _, h2, h3⟩
      · omega
      · exact Or.inl ⟨i, h2, h3⟩

/-- Shape of the remaining actions while renaming. -/
theorem renaming_todo {j : Nat} (hj : j ≤ shards.length) :
    (j < shards.length ∧ (renames c shards.length).drop j ++ indexWrite c size shards =
      .op (.rename (tmpName c.pre c.ext j) (outName c shards.length j)) ::
        ((renames c shards.length).drop (j + 1) ++ indexWrite c size shards)) ∨
    (j = shards.length ∧ (renames c shards.length).drop j ++ indexWrite c size shards =
      indexWrite c size shards) := by
  by_cases h : j < shards.length
  · left; exact ⟨h, by rw [renames_drop h]; rfl⟩
  · right
    refine ⟨by omega, ?_⟩
    rw [List.drop_of_length_le (by simp [renames]; omega)]; rfl

theorem writing_todo {k : Nat} (hk : k ≤ shards.length) :
    (∃ h : k < shards.length, (dispatches c shards).drop k ++ tailActions c size shards =
      .dispatch (tmpName c.pre c.ext k) (.shard shards[k]) ::
        ((dispatches c shards).drop (k + 1) ++ tailActions c size shards)) ∨
    (k = shards.length ∧ (dispatches c shards).drop k ++ tailActions c size shards =
      .join :: (renames c shards.length ++ indexWrite c size shards)) := by
  by_cases h : k < shards.length
  · left; exact ⟨h, by rw [dispatches_drop h]; rfl⟩
  · right
    refine ⟨by omega, ?_⟩
    rw [List.drop_of_length_le (by simp [dispatches]; omega), tailActions_eq]; rfl

theorem step_inv {r r' : Run T} (h : RunInv c size shards r) (hs : Step r r') : RunInv c size shards r' := by
  cases h with
  | @writing k hw ht =>
    cases hs with
    | dispatch =>
      rcases writing_todo (c := c) (size := size) hw.le with ⟨hk, he⟩ | ⟨hk, he⟩
      · simp only at ht
        rw [he] at ht
        simp only [List.cons.injEq, Action.dispatch.injEq] at ht
        obtain ⟨⟨rfl, rfl⟩, rfl⟩ := ht
        refine .writing (k := k + 1) ⟨by omega, ?_, ?_, ?_⟩ rfl
        · intro e he
          rcases List.mem_append.1 he with he | he
          · obtain ⟨i, hi, hik, hh⟩ := hw.pend e he
            exact ⟨i, hi, by omega, hh⟩
          · rw [List.mem_singleton] at he
            exact ⟨k, hk, by omega, he⟩
        · intro f ct hf
          obtain ⟨i, hi, hik, hh⟩ := hw.only f ct hf
          exact ⟨i, hi, by omega, hh⟩
        · intro i hi hik
          by_cases hik' : i < k
          · rcases hw.cover i hi hik' with h | h
            · exact Or.inl h
            · exact Or.inr (List.mem_append_left _ h)
          · have : i = k := by omega
            subst this
            exact Or.inr (by simp)
      · simp only at ht
        rw [he] at ht; cases ht
    | join =>
      rcases writing_todo (c := c) (size := size) hw.le with ⟨hk, he⟩ | ⟨hk, he⟩
      · simp only at ht
        rw [he] at ht; cases ht
      · simp only at ht
        rw [he] at ht
        simp only [List.cons.injEq, true_and] at ht
        subst ht
        refine .moving (j := 0) rfl (Nat.zero_le _) ⟨?_, ?_, ?_⟩ (by simp)
        · intro i _ hi
          rcases hw.cover i hi (by omega) with h | h
          · exact h
          · cases h
        · intro i h; omega
        · intro f ct hf
          obtain ⟨i, hi, _, hh, _⟩ := hw.only f ct hf
          exact Or.inl ⟨i, Nat.zero_le _, hi, hh⟩
    | op ha =>
      rcases writing_todo (c := c) (size := size) hw.le with ⟨hk, he⟩ | ⟨hk, he⟩ <;>
      · simp only at ht
        rw [he] at ht; cases ht
    | @complete fs p q n ct rest =>
      refine .writing (k := k) ⟨hw.le, ?_, ?_, ?_⟩ ht
      · intro e he
        apply hw.pend e
        rcases List.mem_append.1 he with he | he
        · exact List.mem_append_left _ he
        · exact List.mem_append_right _ (List.mem_cons_of_mem _ he)
      · obtain ⟨i, hi, hik, hh⟩ := hw.pend (n, ct) (by simp)
        cases hh
        intro f ct' hf
        by_cases hfe : f = tmpName c.pre c.ext i
        · simp only at hf
          rw [hfe, Function.update_self] at hf
          simp only [Option.some.injEq] at hf
          exact ⟨i, hi, hik, hfe, hf.symm⟩
        · simp only [Function.update_of_ne hfe] at hf
          exact hw.only f ct' hf
      · obtain ⟨i, hi, hik, hh⟩ := hw.pend (n, ct) (by simp)
        cases hh
        intro i' hi' hik'
        by_cases hii : i' = i
        · subst hii; left; simp
        · rcases hw.cover i' hi' hik' with h | h
          · left
            simp only
            rw [Function.update_of_ne]
            · exact h
            · intro hh; exact hii (tmpName_inj hh)
          · right
            simp only [List.mem_append, List.mem_cons] at h ⊢
            rcases h with h | h | h
            · exact Or.inl h
            · exfalso
              simp only [Prod.mk.injEq] at h
              exact hii (tmpName_inj h.1)
            · exact Or.inr h
  | @moving j hp hj hr ht =>
    cases hs with
    | dispatch =>
      simp only at ht
      rcases renaming_todo (c := c) (size := size) hj with ⟨hk, he⟩ | ⟨hk, he⟩
      · rw [he] at ht; cases ht
      · rw [he] at ht; unfold indexWrite at ht; split at ht <;> cases ht
    | join =>
      simp only at ht
      rcases renaming_todo (c := c) (size := size) hj with ⟨hk, he⟩ | ⟨hk, he⟩
      · rw [he] at ht; cases ht
      · rw [he] at ht; unfold indexWrite at ht; split at ht <;> cases ht
    | op ha =>
      simp only at ht hp hr
      rcases renaming_todo (c := c) (size := size) hj with ⟨hk, he⟩ | ⟨hk, he⟩
      · rw [he] at ht
        simp only [List.cons.injEq, Action.op.injEq] at ht
        obtain ⟨rfl, rfl⟩ := ht
        obtain ⟨fs', h1, h2⟩ := renamed_step hk hr
        rw [h1] at ha
        simp only [Option.some.injEq] at ha
        subst ha
        exact .moving (j := j + 1) hp (by omega) h2 rfl
      · rw [he] at ht
        unfold indexWrite at ht
        split at ht
        · rename_i hn
          simp only [List.cons.injEq, Action.op.injEq] at ht
          obtain ⟨rfl, rfl⟩ := ht
          simp only [applyOp, Option.some.injEq] at ha
          subst ha
          subst hk
          exact .done hp (index_complete hr hn) rfl
        · cases ht
    | complete =>
      simp at hp
  | done hp hc ht =>
    cases hs with
    | dispatch => cases ht
    | join => cases ht
    | op => cases ht
    | complete => simp at hp

theorem reach_inv {r r' : Run T} (h : RunInv c size shards r) (hs : Relation.ReflTransGen Step r r') :
    RunInv c size shards r' := by
  induction hs with
  | refl => exact h
  | tail _ hs ih => exact step_inv ih hs

/-- A run that cannot go on has finished, with a complete directory. -/
theorem terminal_complete {r : Run T} (h : RunInv c size shards r) (hstuck : ∀ r', ¬ Step r r') :
    r.todo = [] ∧ r.pending = [] ∧ Complete c size shards r.fs := by
  have hpend : r.pending = [] := by
    by_contra hne
    obtain ⟨fs, p, t⟩ := r
    cases p with
    | nil => exact hne rfl
    | cons e q => exact hstuck _ (.complete (p := []) (n := e.1) (c := e.2))
  cases h with
  | @writing k hw ht =>
    exfalso
    obtain ⟨fs, p, t⟩ := r
    simp only at ht hpend
    subst hpend
    rcases writing_todo (c := c) (size := size) hw.le with ⟨hk, he⟩ | ⟨hk, he⟩
    · rw [he] at ht; subst ht; exact hstuck _ .dispatch
    · rw [he] at ht; subst ht; exact hstuck _ .join
  | @moving j hp hj hr ht =>
    obtain ⟨fs, p, t⟩ := r
    simp only at ht hr
    rcases renaming_todo (c := c) (size := size) hj with ⟨hk, he⟩ | ⟨hk, he⟩
    · exfalso
      rw [he] at ht; subst ht
      obtain ⟨fs', h1, h2⟩ := renamed_step hk hr
      exact hstuck _ (.op h1)
    · rw [he] at ht
      unfold indexWrite at ht
      split at ht
      · exfalso; subst ht; exact hstuck _ (.op rfl)
      · rename_i hn
        subst hk
        exact ⟨ht, hpend, renamed_complete hr hn⟩
  | done hp hc ht => exact ⟨ht, hp, hc⟩

theorem complete_det {fs fs' : FS T} (h : Complete c size shards fs) (h' : Complete c size shards fs') :
    fs = fs' := by
  have half : ∀ {a b : FS T}, Complete c size shards a → Complete c size shards b →
      ∀ f ct, a f = some ct → b f = some ct := by
    intro a b ha hb f ct hf
    rcases ha.only f ct hf with ⟨i, hi, rfl⟩ | ⟨hn, rfl⟩
    · rw [ha.out i hi] at hf; rw [hb.out i hi]; exact hf
    · rw [ha.index hn] at hf; rw [hb.index hn]; exact hf
  funext f
  cases h1 : fs f with
  | some ct => exact (half h h' f ct h1).symm
  | none =>
    cases h2 : fs' f with
    | none => rfl
    | some ct => rw [half h' h f ct h2] at h1; cases h1

/-- Synchronous execution is one of the runs. -/
theorem sync_reach : ∀ (a : List (Action T)) (b : List (Action T)) (fs fs' : FS T),
    applyOps fs (syncOps a) = some fs' →
    Relation.ReflTransGen Step ⟨fs, [], a ++ b⟩ ⟨fs', [], b⟩ := by
  intro a
  induction a with
  | nil => intro b fs fs' h; cases h; exact .refl
  | cons x a ih =>
    intro b fs fs' h
    cases x with
    | dispatch n ct =>
      simp only [syncOps, List.filterMap_cons, applyOps, applyOp, Option.bind_some] at h
      refine .head .dispatch (.head (.complete (p := []) (q := [])) ?_)
      exact ih b _ _ h
    | join =>
      simp only [syncOps, List.filterMap_cons] at h
      exact .head .join (ih b _ _ h)
    | op o =>
      simp only [syncOps, List.filterMap_cons, applyOps] at h
      cases ho : applyOp fs o with
      | none => rw [ho] at h; cases h
      | some fs1 =>
        rw [ho, Option.bind_some] at h
        exact .head (.op ho) (ih b _ _ h)

/-- The measure of a run decreases. -/
theorem step_measure {r r' : Run T} (h : Step r r') :
    r'.pending.length + 2 * r'.todo.length < r.pending.length + 2 * r.todo.length := by
  cases h <;> simp <;> omega

/-- Synchronous execution does not raise. -/
theorem sync_ok : ∀ (acts : List (Action T)) (fs : FS T), RunInv c size shards ⟨fs, [], acts⟩ →
    ∃ fs', applyOps fs (syncOps acts) = some fs' ∧ Complete c size shards fs' := by
  intro acts
  induction acts with
  | nil =>
    intro fs h
    refine ⟨fs, rfl, (terminal_complete h ?_).2.2⟩
    intro r' hs
    have := step_measure hs
    simp at this
  | cons x a ih =>
    intro fs h
    cases x with
    | dispatch n ct =>
      have h2 : RunInv c size shards ⟨Function.update fs n (some ct), [], a⟩ :=
        step_inv (step_inv h .dispatch) (.complete (p := []) (q := []))
      obtain ⟨fs', h3, h4⟩ := ih _ h2
      exact ⟨fs', by simpa [syncOps, applyOps, applyOp] using h3, h4⟩
    | join =>
      obtain ⟨fs', h3, h4⟩ := ih _ (step_inv h .join)
      exact ⟨fs', by simpa [syncOps] using h3, h4⟩
    | op o =>
      cases ho : applyOp fs o with
      | none =>
        exfalso
        have hst : ∀ r', ¬ Step (⟨fs, [], .op o :: a⟩ : Run T) r' := by
          intro r' hs
          generalize hr : (⟨fs, [], .op o :: a⟩ : Run T) = r at hs
          cases hs with
          | dispatch => cases hr
          | join => cases hr
          | op ha => cases hr; rw [ho] at ha; cases ha
          | complete => simp at hr
        have := (terminal_complete h hst).1
        cases this
      | some fs1 =>
        obtain ⟨fs', h3, h4⟩ := ih _ (step_inv h (.op ho))
        refine ⟨fs', ?_, h4⟩
        simpa [syncOps, applyOps, ho] using h3

/-! ## Reading -/

/-- Each tensor is stored in just the shard the index names. -/
def Consistent (fs : FS T) (idx : Index) : Prop :=
  ∀ file entries k, fs file = some (.shard entries) → (∃ k', dictGet idx.tensorPaths k' = some file) →
    (dictGet entries k).isSome = true → dictGet idx.tensorPaths k = some file

/-- The open shard is one of the files named by the index. -/
def CurOk (fs : FS T) (idx : Index) (cur : Option (List (String × T))) : Prop :=
  ∀ entries, cur = some entries →
    ∃ file, fs file = some (.shard entries) ∧ ∃ k', dictGet idx.tensorPaths k' = some file

theorem getTensor_curOk {fs : FS T} {idx : Index} {cur : Option (List (String × T))} (h : CurOk fs idx cur)
    (k : String) (al : List String) (r : Bool) : CurOk fs idx (getTensor fs idx cur k al r).2 := by
  have hload : CurOk fs idx
      (match dictGet idx.tensorPaths (resolveAlias idx k al) with
        | none => ((if r then .error .keyError else .ok none : Except LoadError (Option T)), cur)
        | some file =>
          match openShard fs file with
          | .error e => (.error e, none)
          | .ok shard => ((match dictGet shard (resolveAlias idx k al) with
              | some t => .ok (some t)
              | none => .error .keyError : Except LoadError (Option T)), some shard)).2 := by
    cases hk : dictGet idx.tensorPaths (resolveAlias idx k al) with
    | none => exact h
    | some file =>
      simp only
      cases ho : openShard fs file with
      | error e => intro _ h; cases h
      | ok shard =>
        intro entries he
        simp only [Option.some.injEq] at he
        subst he
        refine ⟨file, ?_, _, hk⟩
        unfold openShard at ho
        split at ho
        · cases ho; assumption
        · cases ho
        · cases ho
  unfold getTensor
  simp only
  cases cur with
  | none => exact hload
  | some shard =>
    simp only
    split
    · exact h
    · exact hload

theorem afterHistory_curOk {fs : FS T} {idx : Index} : ∀ (hist : List Request) (cur : Option (List (String × T))),
    CurOk fs idx cur → CurOk fs idx (afterHistory fs idx cur hist) := by
  intro hist
  induction hist with
  | nil => intro cur h; exact h
  | cons q hist ih =>
    intro cur h
    cases q with
    | read k al r => exact ih _ (getTensor_curOk h k al r)
    | flush => exact ih _ (by intro _ h; cases h)

/-- With a consistent index the result does not depend on the open shard. -/
theorem getTensor_indep {fs : FS T} {idx : Index} (hc : Consistent fs idx)
    {cur : Option (List (String × T))} (h : CurOk fs idx cur) (k : String) (al : List String) (r : Bool) :
    (getTensor fs idx cur k al r).1 = (getTensor fs idx none k al r).1 := by
  unfold getTensor
  simp only
  cases cur with
  | none => rfl
  | some shard =>
    obtain ⟨file, h1, h2⟩ := h shard rfl
    simp only
    split
    · rename_i hs
      have h3 := hc file shard _ h1 h2 hs
      simp [h3, openShard, h1]
    · cases dictGet idx.tensorPaths (resolveAlias idx k al) with
      | none => rfl
      | some f => cases openShard fs f <;> rfl

theorem mem_entriesOf {nm : Nat → String} {shards : List (List (String × T))} {k f : String} :
    (k, f) ∈ entriesOf nm shards ↔ ∃ i, ∃ hi : i < shards.length, f = nm i ∧ k ∈ shards[i].map Prod.fst := by
  unfold entriesOf
  rw [List.mem_flatten]
  constructor
  · rintro ⟨l, hl, hk⟩
    obtain ⟨i, hi, rfl⟩ := List.mem_iff_getElem.1 hl
    simp only [List.getElem_mapIdx, List.mem_map, Prod.mk.injEq] at hk
    obtain ⟨e, he, rfl, rfl⟩ := hk
    exact ⟨i, by simpa using hi, rfl, List.mem_map.2 ⟨e, he, rfl⟩⟩
  · rintro ⟨i, hi, rfl, hk⟩
    obtain ⟨e, he, rfl⟩ := List.mem_map.1 hk
    refine ⟨shards[i].map (fun e => (e.1, nm i)), ?_, List.mem_map.2 ⟨e, he, rfl⟩⟩
    exact List.mem_iff_getElem.2 ⟨i, by simpa using hi, by simp⟩

end Verif.Writer
