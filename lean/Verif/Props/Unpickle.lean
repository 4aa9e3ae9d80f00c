import Verif.Model.Unpickle

/-! # C17: the restricted unpickler -/

namespace Verif.Unpickle

/-- The globals a checkpoint may refer to. -/
def allowedRefs : List (String × String) :=
  [("torch._utils", "_rebuild_tensor_v2"), ("collections", "OrderedDict"), ("numpy.core.multiarray", "scalar"),
   ("numpy", "dtype"), ("_codecs", "encode"), ("torch", "DoubleStorage"), ("torch", "FloatStorage"),
   ("torch", "HalfStorage"), ("torch", "LongStorage"), ("torch", "IntStorage"), ("torch", "ShortStorage"),
   ("torch", "CharStorage"), ("torch", "ByteStorage"), ("torch", "BoolStorage"), ("torch", "BFloat16Storage")]

/-- The objects they stand for. -/
def allowedObjects : List String :=
  ["torch._utils._rebuild_tensor_v2", "collections.OrderedDict", "numpy.core.multiarray.scalar", "codecs.encode",
   "torch.DoubleStorage", "torch.FloatStorage", "torch.HalfStorage", "torch.LongStorage", "torch.IntStorage",
   "torch.ShortStorage", "torch.CharStorage", "torch.ByteStorage", "torch.BoolStorage", "torch.BFloat16Storage"]

/-- A value built from constants and allowed objects only. -/
inductive Clean : Val → Prop
  | str {s} : Clean (.str s)
  | const : Clean .const
  | tuple {l} : (∀ v ∈ l, Clean v) → Clean (.tuple l)
  | glob {o} : o ∈ allowedObjects → Clean (.glob o)
  | result {f l} : Clean f → (∀ v ∈ l, Clean v) → Clean (.result f l)
  | deferred {s k} : Clean s → Clean (.deferred s k)

/-- An event that is allowed to happen. -/
def EventOk : Event → Prop
  | .resolved m n => (m, n) ∈ allowedRefs
  | .called f => Clean f

theorem findClass_ok {m n o : String} (h : findClass m n = .ok o) :
    (m, n) ∈ allowedRefs ∧ o ∈ allowedObjects := by
  unfold findClass at h
  cases hf : acceptable.find? (fun e => decide (e.1 = (m, n))) with
  | none => rw [hf] at h; cases h
  | some e =>
    rw [hf] at h
    simp only [Except.ok.injEq] at h
    subst h
    have h1 : e.1 = (m, n) := by simpa using List.find?_some hf
    have h2 := List.mem_of_find?_eq_some hf
    have : ∀ e ∈ acceptable, e.1 ∈ allowedRefs ∧ e.2 ∈ allowedObjects := by decide
    rw [← h1]
    exact this e h2

theorem findClass_allowed {m n : String} (h : (m, n) ∈ allowedRefs) : ∃ o, findClass m n = .ok o := by
  have : ∀ e ∈ allowedRefs, ∃ o ∈ allowedObjects, findClass e.1 e.2 = .ok o := by
    intro e he
    simp only [allowedRefs, List.mem_cons, List.not_mem_nil, or_false] at he
    rcases he with rfl | rfl | rfl | rfl | rfl | rfl | rfl | rfl | rfl | rfl | rfl | rfl | rfl | rfl | rfl <;>
      first
        | exact ⟨"torch._utils._rebuild_tensor_v2", by decide, rfl⟩
        | exact ⟨"collections.OrderedDict", by decide, rfl⟩
        | exact ⟨"numpy.core.multiarray.scalar", by decide, rfl⟩
        | exact ⟨"codecs.encode", by decide, rfl⟩
        | exact ⟨"torch.DoubleStorage", by decide, rfl⟩
        | exact ⟨"torch.FloatStorage", by decide, rfl⟩
        | exact ⟨"torch.HalfStorage", by decide, rfl⟩
        | exact ⟨"torch.LongStorage", by decide, rfl⟩
        | exact ⟨"torch.IntStorage", by decide, rfl⟩
        | exact ⟨"torch.ShortStorage", by decide, rfl⟩
        | exact ⟨"torch.CharStorage", by decide, rfl⟩
        | exact ⟨"torch.ByteStorage", by decide, rfl⟩
        | exact ⟨"torch.BoolStorage", by decide, rfl⟩
        | exact ⟨"torch.BFloat16Storage", by decide, rfl⟩
  obtain ⟨o, _, h⟩ := this _ h
  exact ⟨o, h⟩

def CleanState (s : State) : Prop := (∀ v ∈ s.stack, Clean v) ∧ ∀ e ∈ s.memo, Clean e.2

theorem step_clean {s s' : State} {op : Op} {ev : List Event} (hs : CleanState s)
    (h : step s op = .ok (s', ev)) : CleanState s' ∧ ∀ e ∈ ev, EventOk e := by
  obtain ⟨h1, h2⟩ := hs
  have hglob : ∀ st m n, (∀ v ∈ st, Clean v) → pushGlobal s st m n = .ok (s', ev) →
      CleanState s' ∧ ∀ e ∈ ev, EventOk e := by
    intro st m n hst hp
    unfold pushGlobal at hp
    cases hf : findClass m n with
    | error e => rw [hf] at hp; cases hp
    | ok o =>
      rw [hf] at hp
      simp only [Except.ok.injEq, Prod.mk.injEq] at hp
      obtain ⟨rfl, rfl⟩ := hp
      obtain ⟨a, b⟩ := findClass_ok hf
      refine ⟨⟨?_, h2⟩, ?_⟩
      · intro v hv
        rcases List.mem_cons.1 hv with rfl | hv
        · exact .glob b
        · exact hst v hv
      · intro e he
        simp only [List.mem_singleton] at he
        subst he; exact a
  have htake : ∀ k, ∀ v ∈ (s.stack.take k).reverse, Clean v :=
    fun k v hv => h1 v (List.mem_of_mem_take (List.mem_reverse.1 hv))
  have hdrop : ∀ k, ∀ v ∈ s.stack.drop k, Clean v := fun k v hv => h1 v (List.mem_of_mem_drop hv)
  have cons : ∀ {v : Val} {st : List Val}, Clean v → (∀ w ∈ st, Clean w) → ∀ w ∈ v :: st, Clean w := by
    intro v st hv hst w hw
    rcases List.mem_cons.1 hw with rfl | hw
    · exact hv
    · exact hst w hw
  have call : ∀ args f st, (∀ v ∈ Val.tuple args :: f :: st, Clean v) →
      Clean f ∧ (∀ v ∈ args, Clean v) ∧ ∀ v ∈ st, Clean v := by
    intro args f st hh
    have ha : Clean (.tuple args) := hh _ (by simp)
    cases ha with
    | tuple ha => exact ⟨hh _ (by simp), ha, fun v hv => hh v (by simp [hv])⟩
  cases op with
  | string x => cases h; exact ⟨⟨cons .str h1, h2⟩, by simp⟩
  | const => cases h; exact ⟨⟨cons .const h1, h2⟩, by simp⟩
  | tuple n =>
    simp only [step] at h
    split at h
    · cases h; exact ⟨⟨cons (.tuple (htake n)) (hdrop n), h2⟩, by simp⟩
    · cases h
  | pop =>
    simp only [step] at h
    split at h
    · rename_i st heq
      rw [heq] at h1
      cases h; exact ⟨⟨fun v hv => h1 v (by simp [hv]), h2⟩, by simp⟩
    · cases h
  | dup =>
    simp only [step] at h
    split at h
    · rename_i v st heq
      rw [heq] at h1
      cases h; exact ⟨⟨cons (h1 v (by simp)) h1, h2⟩, by simp⟩
    · cases h
  | put i =>
    simp only [step] at h
    split at h
    · rename_i v st heq
      cases h
      refine ⟨⟨h1, ?_⟩, by simp⟩
      intro e he
      rcases List.mem_cons.1 he with rfl | he
      · exact h1 v (by rw [heq]; simp)
      · exact h2 e he
    · cases h
  | get i =>
    simp only [step] at h
    split at h
    · rename_i e heq
      cases h
      exact ⟨⟨cons (h2 e (List.mem_of_find?_eq_some heq)) h1, h2⟩, by simp⟩
    · cases h
  | global m n => exact hglob _ _ _ h1 h
  | stackGlobal =>
    simp only [step] at h
    split at h
    · rename_i n m st heq
      rw [heq] at h1
      exact hglob _ _ _ (fun v hv => h1 v (by simp [hv])) h
    · cases h
  | reduce =>
    simp only [step] at h
    split at h
    · rename_i args f st heq
      rw [heq] at h1
      obtain ⟨a, b, c⟩ := call args f st h1
      cases h
      refine ⟨⟨cons (.result a b) c, h2⟩, ?_⟩
      intro e he
      simp only [List.mem_singleton] at he
      subst he; exact a
    · cases h
  | newobj =>
    simp only [step] at h
    split at h
    · rename_i args f st heq
      rw [heq] at h1
      obtain ⟨a, b, c⟩ := call args f st h1
      cases h
      refine ⟨⟨cons (.result a b) c, h2⟩, ?_⟩
      intro e he
      simp only [List.mem_singleton] at he
      subst he; exact a
    · cases h
  | inst m n k =>
    simp only [step] at h
    split at h
    · split at h
      · rename_i o hf
        obtain ⟨a, b⟩ := findClass_ok hf
        cases h
        refine ⟨⟨cons (.result (.glob b) (htake k)) (hdrop k), h2⟩, ?_⟩
        intro e he
        simp only [List.mem_cons, List.not_mem_nil, or_false] at he
        rcases he with rfl | rfl
        · exact a
        · exact .glob b
      · cases h
    · cases h
  | build =>
    simp only [step] at h
    split at h
    · rename_i a i st heq
      rw [heq] at h1
      cases h
      refine ⟨⟨fun v hv => h1 v (by simp at hv ⊢; tauto), h2⟩, ?_⟩
      intro e he
      simp only [List.mem_singleton] at he
      subst he; exact h1 _ (by simp)
    · cases h
  | persid =>
    simp only [step] at h
    split at h
    · rename_i pid st heq
      rw [heq] at h1
      split at h
      · rename_i v ev' hp
        cases h
        have hpid := h1 pid (by simp)
        unfold persistentLoad at hp
        split at hp
        · rename_i rest
          cases hpid with
          | tuple hl =>
            split at hp
            · rename_i st' key _ _
              cases hp
              have : Clean st' := hl _ (by simp)
              refine ⟨⟨cons (.deferred this) (fun v hv => h1 v (by simp [hv])), h2⟩, ?_⟩
              intro e he
              simp only [List.mem_singleton] at he
              subst he; exact this
            · cases hp
        · cases hp
      · cases h
    · cases h

theorem run_clean : ∀ (ops : List Op) (s : State), CleanState s →
    (∀ e ∈ (run s ops).1, EventOk e) ∧ ∀ s', (run s ops).2 = .ok s' → CleanState s' := by
  intro ops
  induction ops with
  | nil => intro s hs; exact ⟨by simp [run], by intro s' h; cases h; exact hs⟩
  | cons op ops ih =>
    intro s hs
    unfold run
    cases h : step s op with
    | error e => exact ⟨by simp, by simp⟩
    | ok r =>
      obtain ⟨s', ev⟩ := r
      obtain ⟨a, b⟩ := step_clean hs h
      obtain ⟨c, d⟩ := ih s' a
      refine ⟨?_, d⟩
      intro e he
      rcases List.mem_append.1 he with he | he
      · exact b e he
      · exact c e he

theorem run_append : ∀ (pre post : List Op) (s : State),
    run s (pre ++ post) = match (run s pre).2 with
      | .error e => ((run s pre).1, .error e)
      | .ok s' => ((run s pre).1 ++ (run s' post).1, (run s' post).2) := by
  intro pre
  induction pre with
  | nil => intro post s; simp [run]
  | cons op pre ih =>
    intro post s
    cases h : step s op with
    | error e => simp [run, h]
    | ok r =>
      obtain ⟨s', ev⟩ := r
      simp only [List.cons_append, run, h, ih]
      cases h2 : (run s' pre).2 <;> simp

/-- **C17** Whatever the stream, every class reference that is resolved is one of the fifteen allowed ones, and
everything that is called is built from the allowed objects and constants. -/
theorem C17_only_allowed (ops : List Op) :
    (∀ m n, Event.resolved m n ∈ (run {} ops).1 → (m, n) ∈ allowedRefs) ∧
    (∀ f, Event.called f ∈ (run {} ops).1 → Clean f) := by
  have h := (run_clean ops {} ⟨by simp, by simp⟩).1
  exact ⟨fun m n hm => h _ hm, fun f hf => h _ hf⟩

/-- **C17** The first reference to anything else - by either kind of opcode, or as the class of an INST - ends the
reading with an error, and nothing happens from then on. -/
theorem C17_foreign_stops (pre post : List Op) (s : State) (hpre : (run {} pre).2 = .ok s) (m n : String)
    (hbad : (m, n) ∉ allowedRefs) (op : Op)
    (hop : op = .global m n ∨ (op = .stackGlobal ∧ ∃ st, s.stack = .str n :: .str m :: st) ∨
      ∃ k, op = .inst m n k ∧ k ≤ s.stack.length) :
    run {} (pre ++ op :: post) = ((run {} pre).1, .error (.unsupported m n)) := by
  have hf : findClass m n = .error (.unsupported m n) := by
    cases h : findClass m n with
    | ok o => exact absurd (findClass_ok h).1 hbad
    | error e =>
      unfold findClass at h
      split at h
      · cases h
      · rw [Except.error.injEq] at h; rw [← h]
  rw [run_append, hpre]
  have hstep : step s op = .error (.unsupported m n) := by
    rcases hop with rfl | ⟨rfl, st, hst⟩ | ⟨k, rfl, hk⟩
    · simp [step, pushGlobal, hf]
    · simp [step, pushGlobal, hf, hst]
    · simp [step, hf, hk]
  simp [run, hstep]

/-- **C17** The allowed references are resolved. -/
theorem C17_allowed_resolved (m n : String) (h : (m, n) ∈ allowedRefs) (s : State) :
    ∃ s', step s (.global m n) = .ok (s', [.resolved m n]) := by
  obtain ⟨o, ho⟩ := findClass_allowed h
  exact ⟨⟨.glob o :: s.stack, s.memo⟩, by simp [step, pushGlobal, ho]⟩

/-- **C17** A persistent identifier is accepted exactly if it is a storage record, and then yields a deferred load of the key it names. -/
theorem C17_storage_only (s : State) (pid : Val) (st : List Val) (hs : s.stack = pid :: st) :
    (∀ s' ev, step s .persid = .ok (s', ev) → ∃ ty key loc size, pid = .tuple [.str "storage", ty, .str key, loc, size] ∧
      s'.stack = .deferred ty key :: st) ∧
    (∀ ty key loc size, pid = .tuple [.str "storage", ty, .str key, loc, size] → (step s .persid).isOk = true) := by
  constructor
  · intro s' ev h
    simp only [step, hs] at h
    cases hp : persistentLoad pid with
    | error e => rw [hp] at h; cases h
    | ok r =>
      obtain ⟨v, ev'⟩ := r
      rw [hp] at h
      simp only [Except.ok.injEq, Prod.mk.injEq] at h
      obtain ⟨rfl, _⟩ := h
      unfold persistentLoad at hp
      split at hp
      · split at hp
        · rename_i st' key loc size
          cases hp
          exact ⟨st', key, loc, size, rfl, rfl⟩
        · cases hp
      · cases hp
  · rintro ty key loc size rfl
    simp only [step, hs, persistentLoad]
    rfl

example : (step { stack := [.tuple [.str "storage", .glob "torch.HalfStorage", .str "0", .const, .const]] } .persid).isOk =
    true ∧ (step { stack := [.tuple [.str "storag", .glob "torch.HalfStorage", .str "0", .const, .const]] } .persid).isOk =
    false := by decide

/-- The shape of a checkpoint entry, then an attack. -/
example : (run {} [.global "torch._utils" "_rebuild_tensor_v2", .string "storage", .global "torch" "HalfStorage",
    .string "0", .string "cpu", .const, .tuple 5, .persid, .const, .tuple 2, .reduce]).2.isOk = true := by decide

example : ("os", "system") ∉ allowedRefs ∧ ∃ s, (run {} [.global "torch" "HalfStorage"]).2 = .ok s :=
  ⟨by decide, _, rfl⟩

end Verif.Unpickle
