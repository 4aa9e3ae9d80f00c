import Verif.Model.Archive

/-! # C16: lazy reads return the right bytes -/

namespace Verif.Archive

/-- The bytes a read is supposed to return: those of the storage, in the archive's `archive/` directory or else in
the directory named after the file. -/
def storageBytes (z : Zip) (name : String) : Option Bytes :=
  (z.members ("archive/data/" ++ name)).or (z.members (z.archiveName ++ "/data/" ++ name))

theorem openMember_eq (z : Zip) (name : String) : openMember z name = storageBytes z name := by
  unfold openMember storageBytes
  cases z.members ("archive/data/" ++ name) <;> rfl

/-- Reader state invariant: an open handle belongs to the remembered file. -/
def Good (z : Zip) (r : Reader) : Prop :=
  ∀ h, r.file = some h → ∃ n, r.fileName = some n ∧ storageBytes z n = some h.data ∧ h.pos ≤ h.data.length

/-- Nothing has been closed by a failed open. -/
def Fresh (r : Reader) : Prop := ∀ h, r.file = some h → h.closed = false

theorem good_init (z : Zip) : Good z {} := by intro h hh; cases hh

/-- `file_name` is set only together with `file`. -/
def Paired (r : Reader) : Prop := r.file = none → r.fileName = none

theorem openFile_spec (z : Zip) (r : Reader) (name : String) (offset : Nat) (hg : Good z r) (hp : Paired r) :
    Good z (openFile z r name offset).2 ∧ Paired (openFile z r name offset).2 ∧
    ((∃ b, storageBytes z name = some b ∧ (openFile z r name offset).1 = .ok () ∧
        (openFile z r name offset).2 = ⟨some name, some ⟨b, min offset b.length, false⟩⟩) ∨
      ((openFile z r name offset).1 = .error .noMember ∧ storageBytes z name = none) ∨
      ((openFile z r name offset).1 = .error .closedFile ∧ r.fileName = some name ∧
        ∃ h, r.file = some h ∧ h.closed = true)) := by
  unfold openFile
  by_cases h1 : r.fileName ≠ some name
  · rw [if_pos h1, openMember_eq]
    cases hb : storageBytes z name with
    | none =>
      refine ⟨?_, ?_, Or.inr (Or.inl ⟨rfl, rfl⟩)⟩
      · intro h hh
        simp only [Option.map_eq_some_iff] at hh
        obtain ⟨h0, h0f, rfl⟩ := hh
        exact hg h0 h0f
      · intro hn
        simp only [Option.map_eq_none_iff] at hn
        exact hp hn
    | some b =>
      simp only [position]
      refine ⟨?_, ?_, Or.inl ⟨b, rfl, by simp, by simp⟩⟩
      · intro h hh
        simp at hh
        subst hh
        exact ⟨name, by simp, hb, Nat.min_le_right _ _⟩
      · intro hn; simp at hn
  · rw [if_neg h1]
    have h1 : r.fileName = some name := not_not.1 h1
    cases hf : r.file with
    | none => have := hp hf; rw [h1] at this; cases this
    | some h =>
      obtain ⟨n, hn, hd, hpos⟩ := hg h hf
      rw [h1] at hn; cases hn
      by_cases hc : h.closed = true
      · simp only [hc, if_true]
        exact ⟨hg, hp, Or.inr (Or.inr ⟨by simp, h1, h, rfl, hc⟩)⟩
      · have hc : h.closed = false := by simpa using hc
        simp only [hc, Bool.false_eq_true, if_false]
        by_cases hgt : h.pos > offset
        · rw [if_pos hgt, openMember_eq, hd]
          simp only [position]
          refine ⟨?_, ?_, Or.inl ⟨h.data, rfl, by simp, by simp⟩⟩
          · intro h' hh
            simp at hh
            subst hh
            exact ⟨name, by simp, hd, Nat.min_le_right _ _⟩
          · intro hn; simp at hn
        · rw [if_neg hgt]
          simp only [position, hf, hc, Bool.false_eq_true, if_false, if_pos (Nat.le_of_not_lt hgt)]
          refine ⟨?_, ?_, Or.inl ⟨h.data, hd, trivial, ?_⟩⟩
          · intro h' hh
            simp only [Option.some.injEq] at hh
            subst hh
            exact ⟨name, h1, hd, Nat.min_le_right _ _⟩
          · intro hn; simp at hn
          · simp [h1]

theorem readAt_spec (z : Zip) (r : Reader) (name : String) (offset count : Nat) (hg : Good z r) (hp : Paired r) :
    Good z (readAt z r name offset count).2 ∧ Paired (readAt z r name offset count).2 ∧
    ((∃ b, storageBytes z name = some b ∧
        (readAt z r name offset count).1 = .ok ((b.drop offset).take count) ∧
        Fresh (readAt z r name offset count).2) ∨
      ((readAt z r name offset count).1 = .error .noMember ∧ storageBytes z name = none) ∨
      ((readAt z r name offset count).1 = .error .closedFile ∧ r.fileName = some name ∧
        ∃ h, r.file = some h ∧ h.closed = true)) := by
  obtain ⟨g, p, h⟩ := openFile_spec z r name offset hg hp
  unfold readAt
  rcases h with ⟨b, hb, h1, h2⟩ | ⟨h1, h2⟩ | ⟨h1, h2, h3⟩
  · generalize hof : openFile z r name offset = x at *
    obtain ⟨x1, x2⟩ := x
    simp only at h1 h2
    subst h1 h2
    simp only
    have hdrop : b.drop (min offset b.length) = b.drop offset := by
      by_cases hle : offset ≤ b.length
      · rw [Nat.min_eq_left hle]
      · rw [Nat.min_eq_right (by omega), List.drop_length, List.drop_of_length_le (by omega)]
    refine ⟨?_, ?_, Or.inl ⟨b, hb, by rw [hdrop], ?_⟩⟩
    · intro h' hh
      simp only [Option.some.injEq] at hh
      subst hh
      refine ⟨name, rfl, hb, ?_⟩
      simp only [List.length_take, List.length_drop]
      omega
    · intro hn; simp at hn
    · intro h' hh
      simp only [Option.some.injEq] at hh
      subst hh; rfl
  · generalize hof : openFile z r name offset = x at *
    obtain ⟨x1, x2⟩ := x
    simp only at h1
    subst h1
    exact ⟨g, p, Or.inr (Or.inl ⟨rfl, h2⟩)⟩
  · generalize hof : openFile z r name offset = x at *
    obtain ⟨x1, x2⟩ := x
    simp only at h1
    subst h1
    exact ⟨g, p, Or.inr (Or.inr ⟨rfl, h2, h3⟩)⟩

theorem buffer_spec (z : Zip) (r : Reader) (d : Deferred) (hg : Good z r) (hp : Paired r) :
    Good z (d.buffer z r).2 ∧ Paired (d.buffer z r).2 := by
  unfold Deferred.buffer
  split
  · exact ⟨hg, hp⟩
  · exact ⟨(readAt_spec z r _ _ _ hg hp).1, (readAt_spec z r _ _ _ hg hp).2.1⟩

theorem after_spec (z : Zip) : ∀ (hist : List Request) (r : Reader), Good z r → Paired r →
    Good z (after z r hist) ∧ Paired (after z r hist) := by
  intro hist
  induction hist with
  | nil => intro r h1 h2; exact ⟨h1, h2⟩
  | cons q hist ih =>
    intro r h1 h2
    cases q with
    | openAt n o => exact ih _ (openFile_spec z r n o h1 h2).1 (openFile_spec z r n o h1 h2).2.1
    | read n o c => exact ih _ (readAt_spec z r n o c h1 h2).1 (readAt_spec z r n o c h1 h2).2.1
    | tensor d => exact ih _ (buffer_spec z r d h1 h2).1 (buffer_spec z r d h1 h2).2

/-- The storages a request refers to. -/
def Request.name : Request → String
  | .openAt n _ => n
  | .read n _ _ => n
  | .tensor d => d.name

theorem after_fresh (z : Zip) : ∀ (hist : List Request) (r : Reader), Good z r → Paired r → Fresh r →
    (∀ q ∈ hist, (storageBytes z q.name).isSome = true) → Fresh (after z r hist) := by
  intro hist
  induction hist with
  | nil => intro r _ _ h3 _; exact h3
  | cons q hist ih =>
    intro r h1 h2 h3 hq
    have hq0 := hq q (by simp)
    have hq' : ∀ q ∈ hist, (storageBytes z q.name).isSome = true := fun q h => hq q (by simp [h])
    have fo : ∀ n o, (storageBytes z n).isSome = true → Fresh (openFile z r n o).2 := by
      intro n o hn
      rcases (openFile_spec z r n o h1 h2).2.2 with ⟨b, _, _, h⟩ | ⟨_, h⟩ | ⟨_, _, h, hh, hc⟩
      · rw [h]; intro h' hh; simp at hh; subst hh; rfl
      · rw [h] at hn; cases hn
      · rw [h3 h hh] at hc; cases hc
    have fr : ∀ n o c, (storageBytes z n).isSome = true → Fresh (readAt z r n o c).2 := by
      intro n o c hn
      rcases (readAt_spec z r n o c h1 h2).2.2 with ⟨b, _, _, h⟩ | ⟨_, h⟩ | ⟨_, _, h, hh, hc⟩
      · exact h
      · rw [h] at hn; cases hn
      · rw [h3 h hh] at hc; cases hc
    cases q with
    | openAt n o => exact ih _ (openFile_spec z r n o h1 h2).1 (openFile_spec z r n o h1 h2).2.1 (fo n o hq0) hq'
    | read n o c => exact ih _ (readAt_spec z r n o c h1 h2).1 (readAt_spec z r n o c h1 h2).2.1 (fr n o c hq0) hq'
    | tensor d =>
      refine ih _ (buffer_spec z r d h1 h2).1 (buffer_spec z r d h1 h2).2 ?_ hq'
      unfold Deferred.buffer
      split
      · exact h3
      · exact fr _ _ _ hq0

/-- **C16** After any history of opens and reads - forward, backward, switching files, failing - a read either returns
exactly the bytes of the storage at the offset (cut off at its end), or raises; it raises only if the storage does not
exist or (see `C16_failed_open_poisons`) an earlier open failed. -/
theorem C16_read_bytes_partial (z : Zip) (hist : List Request) (name : String) (offset count : Nat) :
    (∃ b, storageBytes z name = some b ∧
      (readAt z (after z {} hist) name offset count).1 = .ok ((b.drop offset).take count)) ∨
    ((readAt z (after z {} hist) name offset count).1 = .error .noMember ∧ storageBytes z name = none) ∨
    ((readAt z (after z {} hist) name offset count).1 = .error .closedFile ∧
      ∃ q ∈ hist, storageBytes z q.name = none) := by
  obtain ⟨hg, hp⟩ := after_spec z hist {} (good_init z) (fun _ => rfl)
  rcases (readAt_spec z _ name offset count hg hp).2.2 with ⟨b, h1, h2, _⟩ | h | ⟨h1, _, h, hh, hc⟩
  · exact Or.inl ⟨b, h1, h2⟩
  · exact Or.inr (Or.inl h)
  · refine Or.inr (Or.inr ⟨h1, ?_⟩)
    by_contra hall
    push Not at hall
    have := after_fresh z hist {} (good_init z) (fun _ => rfl) (by intro h hh; cases hh)
      (fun q hq => by
        cases hs : storageBytes z q.name with
        | none => exact absurd hs (hall q hq)
        | some b => rfl)
    rw [this h hh] at hc; cases hc

/-- **C16** for histories that only mention existing storages - the case of a checkpoint whose pickle refers to storages
it contains: every read succeeds with the right bytes. -/
theorem C16_read_bytes (z : Zip) (hist : List Request)
    (hhist : ∀ q ∈ hist, (storageBytes z q.name).isSome = true) (name : String) (b : Bytes)
    (hb : storageBytes z name = some b) (offset count : Nat) :
    (readAt z (after z {} hist) name offset count).1 = .ok ((b.drop offset).take count) := by
  rcases C16_read_bytes_partial z hist name offset count with ⟨b', h1, h2⟩ | ⟨_, h2⟩ | ⟨_, q, hq, h⟩
  · rw [hb] at h1; cases h1; exact h2
  · rw [hb] at h2; cases h2
  · have := hhist q hq
    rw [h] at this; cases this

/-- **C16** does not hold across a failed open: the handle is closed but still remembered, and reading the file that
was open before then raises although it exists. -/
theorem C16_failed_open_poisons : ∃ (z : Zip) (b : Bytes), storageBytes z "0" = some b ∧
    (readAt z {} "0" 0 1).1 = .ok [1] ∧
    (readAt z (after z {} [.read "0" 0 1, .openAt "1" 0]) "0" 0 1).1 = .error .closedFile :=
  ⟨⟨fun n => if n = "archive/data/0" then some [1, 2] else none, "pytorch_model"⟩, [1, 2],
    by decide, by decide, by decide⟩

/-! ## Elements of tensors -/

/-- Row-major (contiguous) strides of a shape. -/
def contiguous : List Nat → List Nat
  | [] => []
  | _ :: ss => ss.prod :: contiguous ss

theorem flatIndex_lt : ∀ (shape idx : List Nat), List.Forall₂ (· < ·) idx shape →
    flatIndex idx (contiguous shape) < shape.prod := by
  intro shape idx h
  induction h with
  | nil => simp [flatIndex, contiguous]
  | @cons i s is ss hi _ ih =>
    simp only [flatIndex, contiguous, List.prod_cons]
    calc i * ss.prod + flatIndex is (contiguous ss) < i * ss.prod + ss.prod := by omega
      _ = (i + 1) * ss.prod := by rw [Nat.succ_mul]
      _ ≤ s * ss.prod := Nat.mul_le_mul_right _ hi

/-- **C16** for tensors: of a contiguous tensor with at least one dimension that lies inside its storage, every element
of the loaded tensor consists of the bytes at `storage offset + position` in the storage. -/
theorem C16_tensor_elements (z : Zip) (hist : List Request)
    (hhist : ∀ q ∈ hist, (storageBytes z q.name).isSome = true) (d : Deferred) (b : Bytes)
    (hb : storageBytes z d.name = some b) (hne : d.shape ≠ [])
    (hcontig : d.stride = contiguous d.shape)
    (hfit : (d.offset + d.shape.prod) * d.itemSize ≤ b.length)
    (idx : List Nat) (hidx : List.Forall₂ (· < ·) idx d.shape) :
    ∃ buf, (d.buffer z (after z {} hist)).1 = .ok buf ∧
      element d buf idx =
        some ((b.drop ((d.offset + flatIndex idx d.stride) * d.itemSize)).take d.itemSize) := by
  have hread := C16_read_bytes z hist hhist d.name b hb d.fileOffset (d.shape.prod * d.itemSize)
  refine ⟨(b.drop d.fileOffset).take (d.shape.prod * d.itemSize), ?_, ?_⟩
  · unfold Deferred.buffer
    split
    · contradiction
    · exact hread
  · have hlt := flatIndex_lt d.shape idx hidx
    rw [← hcontig] at hlt
    have h1 : flatIndex idx d.stride * d.itemSize + d.itemSize ≤ d.shape.prod * d.itemSize := by
      rw [← Nat.succ_mul]; exact Nat.mul_le_mul_right _ hlt
    have hlen : ((b.drop d.fileOffset).take (d.shape.prod * d.itemSize)).length = d.shape.prod * d.itemSize := by
      simp only [List.length_take, List.length_drop, Deferred.fileOffset]
      rw [Nat.add_mul] at hfit
      omega
    unfold element
    rw [if_pos (by rw [hlen]; exact h1)]
    congr 1
    rw [List.drop_take, List.take_take, List.drop_drop, Nat.min_eq_left (by omega), Deferred.fileOffset,
      Nat.add_mul]

/-- The loader reads only `prod(shape)` elements, so a view with gaps (here every other element of a storage of
three) loses elements: for index 1 the buffer has no bytes although the storage does. -/
theorem C16_strided_view_truncated : ∃ (z : Zip) (d : Deferred) (b buf : Bytes),
    storageBytes z d.name = some b ∧ (d.buffer z {}).1 = .ok buf ∧
    d.shape = [2] ∧ d.stride = [2] ∧ b.length = 3 * d.itemSize ∧ d.offset = 0 ∧
    element d buf [1] = none :=
  ⟨⟨fun n => if n = "archive/data/0" then some [1, 2, 3] else none, "m"⟩, ⟨"0", 1, 0, [2], [2]⟩, [1, 2, 3], [1, 2],
    by decide, by decide, rfl, rfl, rfl, rfl, by decide⟩

/-- Scalars (tensors without dimensions) cannot be loaded. -/
theorem C16_scalar_fails (z : Zip) (r : Reader) (d : Deferred) (h : d.shape = []) :
    (d.buffer z r).1 = .error .emptyReduce := by
  unfold Deferred.buffer; rw [h]

/-- Instance: forward read, backward read, switch of files. -/
def twoFiles : Zip := ⟨fun n => if n = "archive/data/0" then some [1, 2, 3, 4] else
  if n = "m/data/1" then some [5, 6] else none, "m"⟩

example : (∀ q ∈ [Request.read "0" 2 1, .read "1" 0 9, .openAt "0" 3],
    (storageBytes twoFiles q.name).isSome = true) ∧ storageBytes twoFiles "0" = some [1, 2, 3, 4] := by decide

example : (readAt twoFiles (after twoFiles {} [.read "0" 2 1, .read "1" 0 9, .openAt "0" 3]) "0" 1 2).1 =
    .ok [2, 3] := by decide

example : List.Forall₂ (· < ·) [0, 1] [1, 2] ∧ contiguous [1, 2] = [2, 1] :=
  ⟨.cons (by decide) (.cons (by decide) .nil), rfl⟩

end Verif.Archive
