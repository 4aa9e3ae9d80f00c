import Verif.Proof.WriterRun

/-! # C10 - C15, C67: writing and reading checkpoints

`session c size saves` is everything a `TensorWriter` does for the given saves followed by `finalize`;
`applyOps (fun _ => none) (syncOps ...)` runs it synchronously in an empty directory, `Step` asynchronously. -/

namespace Verif.Writer

variable {T : Type}

/-- The directory holds the model `saves`: the index lists exactly the saved names, and after any history of
requests every saved tensor is read back. -/
def HoldsModel (fs : FS T) (saves : List (String × T)) : Prop :=
  ∃ idx, fromDisk fs = .ok idx ∧
    (∀ name, (dictGet idx.tensorPaths name).isSome = true ↔ name ∈ saves.map Prod.fst) ∧
    ∀ hist name t aliases r, (name, t) ∈ saves →
      (getTensor fs idx (afterHistory fs idx none hist) name aliases r).1 = .ok (some t)

theorem fromDisk_noModel {fs : FS T} (h : ∀ f ∈ readerNames, fs f = none) : fromDisk fs = .error .noModel := by
  have h1 := h "model.safetensors" (by decide)
  have h2 := h "model.safetensors.index.json" (by decide)
  have h3 := h "pytorch_model.bin" (by decide)
  have h4 := h "pytorch_model.bin.index.json" (by decide)
  have e1 : "model.safetensors" ++ ".index.json" = "model.safetensors.index.json" := by decide
  have e2 : "pytorch_model.bin" ++ ".index.json" = "pytorch_model.bin.index.json" := by decide
  simp [fromDisk, e1, e2, h1, h2, h3, h4]

theorem singleName_ne_indexName {p e : String} : singleName p e ≠ indexName p e := by
  intro h
  have h := congrArg (fun s => s.toList.length) h
  simp only [singleName_toList, indexName_toList, List.length_append, List.length_cons] at h
  have : ".index.json".toList.length = 11 := by decide
  omega

section
variable {c : Conf} {size : T → Nat} {saves : List (String × T)} {shards : List (List (String × T))}

/-- Which index a reader finds: files of the complete directory, overlaid on a directory `fs0` without reader
files. -/
theorem fromDisk_complete {fs fs' : FS T} (hstd : c.Standard) (hne : shards ≠ [])
    (h : Complete c size shards fs) (hsame : ∀ f, (fs f).isSome = true → fs' f = fs f)
    (hread : ∀ f ∈ readerNames, fs f = none → fs' f = none) :
    fromDisk fs' = .ok ⟨entriesOf (outName c shards.length) shards⟩ := by
  have hN : 0 < shards.length := List.length_pos_iff.2 hne
  -- what is at the reader's names
  have hbase := standard_single hstd
  have hidx := standard_index hstd
  set base := (if c.safeSerialization then "model.safetensors" else "pytorch_model.bin") with hb
  have hread' : ∀ f ∈ readerNames, f ≠ base → f ≠ base ++ ".index.json" → fs' f = none := by
    intro f hf h1 h2
    apply hread f hf
    by_contra hsome
    obtain ⟨ct, hct⟩ := Option.ne_none_iff_exists'.1 hsome
    rcases h.only f ct hct with ⟨i, hi, rfl⟩ | ⟨_, rfl⟩
    · unfold outName at hf h1
      split at hf
      · rename_i h1'
        rw [if_pos h1'] at h1
        exact h1 hbase
      · exact finalName_not_reader c _ _ hf
    · exact h2 hidx
  have hbaseR : base ∈ readerNames ∧ base ++ ".index.json" ∈ readerNames := by
    rw [hb]; cases c.safeSerialization <;> decide
  -- reading at `base`
  have hres : (match fs' (base ++ ".index.json") with
      | some (.index _ wm) => .ok ⟨wm⟩
      | some _ => .error .corrupt
      | none => fromFile fs' base : Except LoadError Index) =
        .ok ⟨entriesOf (outName c shards.length) shards⟩ ∧
      ((fs' base).isSome || (fs' (base ++ ".index.json")).isSome) = true := by
    by_cases hgt : shards.length > 1
    · have := h.index hgt
      have h' := hsame _ (by rw [this]; rfl)
      rw [this, hidx] at h'
      rw [h']; simp
    · have h1 : shards.length = 1 := by omega
      have hout := h.out 0 hN
      have hoe : outName c shards.length 0 = base := by rw [h1]; simp only [outName, if_true]; exact hbase
      have h' := hsame _ (by rw [hout]; rfl)
      rw [hout, hoe] at h'
      have hnone : fs' (base ++ ".index.json") = none := by
        apply hread _ hbaseR.2
        by_contra hsome
        obtain ⟨ct, hct⟩ := Option.ne_none_iff_exists'.1 hsome
        rw [← hidx] at hct
        rcases h.only _ ct hct with ⟨i, hi, he⟩ | ⟨hg, _⟩
        · unfold outName at he
          rw [if_pos h1] at he
          exact singleName_ne_indexName he.symm
        · omega
      rw [hnone]
      simp only [fromFile, h', Option.isSome_some, Bool.true_or, and_true]
      congr 2
      rw [← hoe]
      generalize outName c shards.length = nm
      clear hoe hout h' hread' h hsame hread hnone
      match shards, h1, hN with
      | [s], _, _ => simp [entriesOf]
  cases hs : c.safeSerialization with
  | true =>
    have hbe : base = "model.safetensors" := by rw [hb, hs]; rfl
    rw [hbe] at hres
    unfold fromDisk
    simp only [hres.2, if_true]
    exact hres.1
  | false =>
    have hbe : base = "pytorch_model.bin" := by rw [hb, hs]; rfl
    have n1 : fs' "model.safetensors" = none := hread' _ (by decide) (by rw [hbe]; decide) (by rw [hbe]; decide)
    have n2 : fs' ("model.safetensors" ++ ".index.json") = none :=
      hread' _ (by decide) (by rw [hbe]; decide) (by rw [hbe]; decide)
    rw [hbe] at hres
    unfold fromDisk
    simp only [n1, n2, Option.isSome_none, Bool.or_self, Bool.false_eq_true, if_false, hres.2, if_true]
    exact hres.1

theorem holdsModel_of_index {fs fs' : FS T} (hn : (saves.map Prod.fst).Nodup)
    (hfl : shards.flatten = saves) (h : Complete c size shards fs)
    (hsame : ∀ f, (fs f).isSome = true → fs' f = fs f)
    (hidx : fromDisk fs' = .ok ⟨entriesOf (outName c shards.length) shards⟩) :
    HoldsModel fs' saves := by
  refine ⟨_, hidx, ?_, ?_⟩
  · intro name
    rw [dictGet_isSome, entriesOf_keys, hfl]
  · have hkeys : ((entriesOf (outName c shards.length) shards).map Prod.fst).Nodup := by
      rw [entriesOf_keys, hfl]; exact hn
    have hfile : ∀ i, (hi : i < shards.length) → fs' (outName c shards.length i) = some (.shard shards[i]) := by
      intro i hi
      have := h.out i hi
      rw [hsame _ (by rw [this]; rfl), this]
    have hcons : Consistent fs' ⟨entriesOf (outName c shards.length) shards⟩ := by
      rintro file entries k hf ⟨k', hk'⟩ hk
      obtain ⟨i, hi, rfl, _⟩ := mem_entriesOf.1 (dictGet_mem hk')
      rw [hfile i hi] at hf
      cases hf
      exact dictGet_of_mem hkeys (mem_entriesOf.2 ⟨i, hi, rfl, dictGet_isSome.1 hk⟩)
    intro hist name t aliases r hmem
    rw [getTensor_indep hcons (afterHistory_curOk hist none (by intro _ h; cases h))]
    rw [← hfl] at hmem
    obtain ⟨s, hs, hts⟩ := List.mem_flatten.1 hmem
    obtain ⟨i, hi, rfl⟩ := List.mem_iff_getElem.1 hs
    have hpath : dictGet (entriesOf (outName c shards.length) shards) name =
        some (outName c shards.length i) :=
      dictGet_of_mem hkeys (mem_entriesOf.2 ⟨i, hi, rfl, List.mem_map.2 ⟨_, hts, rfl⟩⟩)
    have hsk : (shards[i].map Prod.fst).Nodup := by
      have : shards[i].Sublist saves := by
        rw [← hfl]; exact List.sublist_flatten_of_mem hs
      exact hn.sublist (this.map _)
    have hget : dictGet shards[i] name = some t := dictGet_of_mem hsk hts
    simp [getTensor, resolveAlias, hpath, openShard, hfile i hi, hget]

theorem holdsModel_complete {fs fs' : FS T} (hstd : c.Standard) (hn : (saves.map Prod.fst).Nodup)
    (hfl : shards.flatten = saves) (hne : shards ≠ []) (h : Complete c size shards fs)
    (hsame : ∀ f, (fs f).isSome = true → fs' f = fs f)
    (hread : ∀ f ∈ readerNames, fs f = none → fs' f = none) :
    HoldsModel fs' saves := holdsModel_of_index hn hfl h hsame (fromDisk_complete hstd hne h hsame hread)

/-- Which index a reader finds if the directory may contain other files. -/
theorem fromDisk_overlay {fs fs' : FS T} (hstd : c.Standard) (hne : shards ≠ [])
    (h : Complete c size shards fs) (hsame : ∀ f, (fs f).isSome = true → fs' f = fs f)
    (h1 : c.safeSerialization = false → fs' "model.safetensors" = none ∧ fs' "model.safetensors.index.json" = none)
    (h2 : shards.length = 1 → fs' ((if c.safeSerialization then "model.safetensors" else "pytorch_model.bin") ++ ".index.json") = none) :
    fromDisk fs' = .ok ⟨entriesOf (outName c shards.length) shards⟩ := by
  have hN : 0 < shards.length := List.length_pos_iff.2 hne
  have hbase := standard_single hstd
  have hidx := standard_index hstd
  set base := (if c.safeSerialization then "model.safetensors" else "pytorch_model.bin") with hb
  have hres : (match fs' (base ++ ".index.json") with
      | some (.index _ wm) => .ok ⟨wm⟩
      | some _ => .error .corrupt
      | none => fromFile fs' base : Except LoadError Index) =
        .ok ⟨entriesOf (outName c shards.length) shards⟩ ∧
      ((fs' base).isSome || (fs' (base ++ ".index.json")).isSome) = true := by
    by_cases hgt : shards.length > 1
    · have := h.index hgt
      have h' := hsame _ (by rw [this]; rfl)
      rw [this, hidx] at h'
      rw [h']; simp
    · have hl : shards.length = 1 := by omega
      have hout := h.out 0 hN
      have hoe : outName c shards.length 0 = base := by rw [hl]; simp only [outName, if_true]; exact hbase
      have h' := hsame _ (by rw [hout]; rfl)
      rw [hout, hoe] at h'
      rw [h2 hl]
      simp only [fromFile, h', Option.isSome_some, Bool.true_or, and_true]
      congr 2
      rw [← hoe]
      generalize outName c shards.length = nm
      clear hoe hout h' h hsame h1 h2
      match shards, hl, hN with
      | [s], _, _ => simp [entriesOf]
  cases hs : c.safeSerialization with
  | true =>
    have hbe : base = "model.safetensors" := by rw [hb, hs]; rfl
    rw [hbe] at hres
    unfold fromDisk
    simp only [hres.2, if_true]
    exact hres.1
  | false =>
    have hbe : base = "pytorch_model.bin" := by rw [hb, hs]; rfl
    have n1 : fs' "model.safetensors" = none := (h1 hs).1
    have n2 : fs' ("model.safetensors" ++ ".index.json") = none := (h1 hs).2
    rw [hbe] at hres
    unfold fromDisk
    simp only [n1, n2, Option.isSome_none, Bool.or_self, Bool.false_eq_true, if_false, hres.2, if_true]
    exact hres.1

end

/-- **C10** Saving distinctly named tensors into an empty directory and finalizing does not raise, and the
directory then holds exactly the saved model, for every shard limit, both formats. -/
theorem C10_read_back (c : Conf) (hstd : c.Standard) (size : T → Nat) (saves : List (String × T))
    (hn : (saves.map Prod.fst).Nodup) (hne : saves ≠ []) :
    ∃ fs, applyOps (fun _ => none) (syncOps (session c size saves)) = some fs ∧ HoldsModel fs saves := by
  obtain ⟨shards, hd, hs⟩ := session_spec c size saves hn
  rw [hs]
  obtain ⟨fs, h1, h2⟩ := sync_ok _ _ (runInv_init (c := c) (size := size) (shards := shards))
  refine ⟨fs, h1, holdsModel_complete hstd hn hd.flatten ?_ h2 (fun _ _ => rfl) (fun _ _ h => h)⟩
  rintro rfl
  exact hne hd.flatten.symm

/-- **C10**, an empty basename (as from an option left blank): it counts as none given, and the model is found where models are looked for. -/
theorem C10_blank_basename (limit : Int) (safe : Bool) (size : T → Nat) (saves : List (String × T))
    (hn : (saves.map Prod.fst).Nodup) (hne : saves ≠ []) :
    ∃ fs, applyOps (fun _ => none) (syncOps (session ⟨limit, safe, some ""⟩ size saves)) = some fs ∧ HoldsModel fs saves :=
  C10_read_back _ (by cases safe <;> rfl) size saves hn hne

/-- **C10**, names that were not saved: reading one gives nothing, or an error if asked for. -/
theorem C10_missing_name (c : Conf) (hstd : c.Standard) (size : T → Nat) (saves : List (String × T))
    (hn : (saves.map Prod.fst).Nodup) (hne : saves ≠ []) (name : String) (hname : name ∉ saves.map Prod.fst) :
    ∃ fs idx, applyOps (fun _ => none) (syncOps (session c size saves)) = some fs ∧ fromDisk fs = .ok idx ∧
      (getTensor fs idx none name [] true).1 = .error .keyError ∧
      (getTensor fs idx none name [] false).1 = .ok none := by
  obtain ⟨fs, h1, idx, h2, h3, _⟩ := C10_read_back c hstd size saves hn hne
  refine ⟨fs, idx, h1, h2, ?_⟩
  have : dictGet idx.tensorPaths name = none := by
    cases h : dictGet idx.tensorPaths name with
    | none => rfl
    | some x => exact absurd ((h3 name).1 (by rw [h]; rfl)) hname
  simp [getTensor, resolveAlias, this]

/-- **C10**, distinctness of the names is needed: a name saved twice, into different shards, is read back as the
older or the newer tensor depending on what was read before. -/
theorem C10_duplicate_name_ambiguous :
    ∃ (fs : FS Nat) (idx : Index),
      applyOps (fun _ => none) (syncOps (session ⟨10, true, none⟩ id [("x", 7), ("y", 2), ("x", 8)])) = some fs ∧
      fromDisk fs = .ok idx ∧
      (getTensor fs idx none "x" [] true).1 = .ok (some 8) ∧
      (getTensor fs idx (afterHistory fs idx none [.read "y" [] true]) "x" [] true).1 = .ok (some 7) := by
  refine ⟨_, _, rfl, rfl, rfl, rfl⟩

/-- **C11** The shard files of the finished directory: in order they contain the tensors in the order saved; with a
positive limit every shard is a single tensor or within the limit; a new shard is only started when the next tensor would
not have fitted.  Final names as the Hugging Face convention has them. -/
theorem C11_shard_limit (c : Conf) (size : T → Nat) (saves : List (String × T))
    (hn : (saves.map Prod.fst).Nodup) :
    ∃ fs, ∃ shards : List (List (String × T)),
      applyOps (fun _ => none) (syncOps (session c size saves)) = some fs ∧
      (∀ i, (hi : i < shards.length) → fs
        (if shards.length = 1 then c.pre ++ "." ++ c.ext else finalName c.pre c.ext i shards.length) =
          some (.shard shards[i])) ∧
      shards.flatten = saves ∧ (∀ s ∈ shards, s ≠ []) ∧
      (c.maxShardSize > 0 → ∀ s ∈ shards,
        s.length = 1 ∨ ((s.map (fun e => size e.2)).sum : Int) ≤ c.maxShardSize) ∧
      (∀ (i : Nat) s e s', shards[i]? = some s → shards[i + 1]? = some (e :: s') →
        c.maxShardSize > 0 ∧ (((s.map (fun e => size e.2)).sum + size e.2 : Nat) : Int) > c.maxShardSize) ∧
      (c.maxShardSize ≤ 0 → shards.length ≤ 1) := by
  obtain ⟨shards, hd, hs⟩ := session_spec c size saves hn
  rw [hs]
  obtain ⟨fs, h1, h2⟩ := sync_ok _ _ (runInv_init (c := c) (size := size) (shards := shards))
  refine ⟨fs, shards, h1, fun i hi => h2.out i hi, hd.flatten, hd.nonempty, hd.bounded, hd.greedy, ?_⟩
  intro hl
  by_contra hgt
  have hi0 : (0 : Nat) < shards.length := by omega
  have hi1 : 0 + 1 < shards.length := by omega
  have := hd.nonempty shards[0 + 1] (List.getElem_mem _)
  cases hsx : shards[0 + 1] with
  | nil => exact this hsx
  | cons e s' =>
    have hg := hd.greedy 0 shards[0] e s' (List.getElem?_eq_getElem hi0)
      (by rw [List.getElem?_eq_getElem hi1, hsx])
    omega

/-- **C12** The finished directory contains the shard files under consecutively numbered, pairwise distinct names (none
of them a temporary name), no other file except - for more than one shard - an index whose total size is the
sum of the sizes and whose map sends each saved name to the file containing it. -/
theorem C12_index_exact (c : Conf) (size : T → Nat) (saves : List (String × T))
    (hn : (saves.map Prod.fst).Nodup) :
    ∃ fs, ∃ shards : List (List (String × T)),
      applyOps (fun _ => none) (syncOps (session c size saves)) = some fs ∧ shards.flatten = saves ∧
      (∀ f, (fs f).isSome = true ↔
        (∃ i, i < shards.length ∧
          f = if shards.length = 1 then c.pre ++ "." ++ c.ext else finalName c.pre c.ext i shards.length) ∨
        (1 < shards.length ∧ f = indexName c.pre c.ext)) ∧
      (∀ i j, finalName c.pre c.ext i shards.length = finalName c.pre c.ext j shards.length → i = j) ∧
      (∀ i j, tmpName c.pre c.ext i ≠ finalName c.pre c.ext j shards.length) ∧
      (1 < shards.length → ∃ total wm, fs (indexName c.pre c.ext) = some (.index total wm) ∧
        total = (saves.map (fun e => size e.2)).sum ∧
        (wm.map Prod.fst) = saves.map Prod.fst ∧
        ∀ name file, (name, file) ∈ wm ↔ ∃ i, ∃ hi : i < shards.length,
          file = finalName c.pre c.ext i shards.length ∧ name ∈ shards[i].map Prod.fst) := by
  obtain ⟨shards, hd, hs⟩ := session_spec c size saves hn
  rw [hs]
  obtain ⟨fs, h1, h2⟩ := sync_ok _ _ (runInv_init (c := c) (size := size) (shards := shards))
  refine ⟨fs, shards, h1, hd.flatten, ?_, fun i j h => finalName_inj h, fun i j => tmpName_ne_finalName, ?_⟩
  · intro f
    constructor
    · intro hf
      obtain ⟨ct, hct⟩ := Option.isSome_iff_exists.1 hf
      rcases h2.only f ct hct with ⟨i, hi, he⟩ | ⟨hg, he⟩
      · exact Or.inl ⟨i, hi, he⟩
      · exact Or.inr ⟨hg, he⟩
    · rintro (⟨i, hi, rfl⟩ | ⟨hg, rfl⟩)
      · have := h2.out i hi
        unfold outName singleName at this
        rw [this]; rfl
      · rw [h2.index hg]; rfl
  · intro hg
    refine ⟨_, _, h2.index hg, by rw [hd.flatten]; rfl, by rw [entriesOf_keys, hd.flatten], ?_⟩
    intro name file
    rw [mem_entriesOf]
    have : ∀ i, outName c shards.length i = finalName c.pre c.ext i shards.length := by
      intro i; unfold outName; rw [if_neg (by omega)]
    simp only [this]

/-- **C12**, the names themselves: shard number `i` (from 0) of `n` is called `<prefix>-<a>-of-<b>.<extension>` with `a`
and `b` the decimal numbers `i + 1` and `n`, padded with zeros to five digits; prefix and extension are those a
reader looks for unless a base name was given. -/
theorem C12_name_format (c : Conf) (i n : Nat) : ∃ a b : List Char,
    (finalName c.pre c.ext i n).toList = c.pre.toList ++ "-".toList ++ a ++ "-of-".toList ++ b ++ ".".toList ++
      (if c.safeSerialization then "safetensors" else "bin").toList ∧
    (∀ d ∈ a, d.isDigit = true) ∧ (∀ d ∈ b, d.isDigit = true) ∧ 5 ≤ a.length ∧ 5 ≤ b.length ∧
    Nat.ofDigitChars 10 a 0 = i + 1 ∧ Nat.ofDigitChars 10 b 0 = n ∧
    (i + 1 < 10 ^ 5 → a.length = 5) ∧
    (c.overrideBasename = none → c.pre = if c.safeSerialization then "model" else "pytorch_model") ∧
    (∀ b, c.overrideBasename = some b → b ≠ "" → c.pre = b) := by
  refine ⟨(pad5 (i + 1)).toList, (pad5 n).toList, ?_, pad5_all _, pad5_all _, ?_, ?_, ?_, ?_, ?_, ?_, ?_⟩
  · simp [finalName, Conf.ext]
  · simp only [pad5_toList, ← repr_toList, List.length_append, List.length_replicate, String.length_toList]; omega
  · simp only [pad5_toList, ← repr_toList, List.length_append, List.length_replicate, String.length_toList]; omega
  · simp only [pad5_toList, Nat.ofDigitChars_append, Nat.ofDigitChars_replicate_zero,
      Nat.mul_zero, Nat.ofDigitChars_ten_toDigits]
  · simp only [pad5_toList, Nat.ofDigitChars_append, Nat.ofDigitChars_replicate_zero,
      Nat.mul_zero, Nat.ofDigitChars_ten_toDigits]
  · intro hi
    have := (Nat.length_toDigits_le_iff (b := 10) (n := i + 1) (k := 5) (by decide) (by decide)).2 hi
    rw [← repr_toList, String.length_toList] at this
    simp only [pad5_toList, ← repr_toList, List.length_append, List.length_replicate, String.length_toList]; omega
  · intro h; simp [Conf.pre, h]
  · intro b h hb; simp [Conf.pre, h, hb]

/-- What a crash may leave, by cases. -/
theorem crash_cases {c : Conf} {size : T → Nat} {shards : List (List (String × T))} {r : Run T}
    (h : RunInv c size shards r) {fs : FS T} (hc : CrashFS r fs) :
    (∀ f ∈ readerNames, fs f = none) ∨ (∃ f ct, f ∈ readerNames ∧ c.Standard ∧ f = indexName c.pre c.ext ∧
        fs f = some ct ∧ ct = .torn ∧ ∀ f' ∈ readerNames, f' ≠ f → fs f' = none) ∨
      (Complete c size shards fs) := by
  -- names that may be torn are temporary, or the index while nothing else is visible
  cases h with
  | @writing k hw ht =>
    left
    have hreader : ∀ f ∈ readerNames, ∀ i, f ≠ tmpName c.pre c.ext i :=
      fun f hf i he => tmpName_not_reader c i (he ▸ hf)
    induction hc with
    | clean =>
      intro f hf
      by_contra hne
      obtain ⟨ct, hct⟩ := Option.ne_none_iff_exists'.1 hne
      obtain ⟨i, _, _, he, _⟩ := hw.only f ct hct
      exact hreader f hf i he
    | torn _ hp ih =>
      intro f hf
      obtain ⟨i, _, _, he⟩ := hw.pend _ hp
      simp only [Prod.mk.injEq] at he
      rw [Function.update_of_ne (he.1 ▸ hreader f hf i)]
      exact ih f hf
    | tornOp _ hp ih =>
      exfalso
      rw [hp] at ht
      rcases writing_todo (c := c) (size := size) hw.le with ⟨hk, he⟩ | ⟨hk, he⟩ <;>
      · rw [he] at ht; cases ht
    | tornDispatch _ hp ih =>
      intro f hf
      rw [hp] at ht
      rcases writing_todo (c := c) (size := size) hw.le with ⟨hk, he⟩ | ⟨hk, he⟩
      · rw [he] at ht
        simp only [List.cons.injEq, Action.dispatch.injEq] at ht
        rw [Function.update_of_ne (ht.1.1 ▸ hreader f hf k)]
        exact ih f hf
      · rw [he] at ht; cases ht
  | @moving j hp hj hr ht =>
    -- which names are visible
    by_cases hcomplete : j = shards.length ∧ ¬ shards.length > 1
    · -- nothing is left to do
      right; right
      have htodo : r.todo = [] := by
        rw [ht, hcomplete.1, List.drop_of_length_le (by simp [renames])]
        simp [indexWrite, hcomplete.2]
      have hfs : fs = r.fs := by
        cases hc with
        | clean => rfl
        | torn _ h => rw [hp] at h; cases h
        | tornOp _ h => rw [htodo] at h; cases h
        | tornDispatch _ h => rw [htodo] at h; cases h
      rw [hfs]
      obtain ⟨rfl, hn⟩ := hcomplete
      exact renamed_complete hr hn
    · have hvis : ∀ f ∈ readerNames, r.fs f = none := by
        intro f hf
        by_contra hne
        obtain ⟨ct, hct⟩ := Option.ne_none_iff_exists'.1 hne
        rcases hr.only f ct hct with ⟨i, _, _, he⟩ | ⟨i, hi, hi', he⟩
        · exact tmpName_not_reader c i (he ▸ hf)
        · unfold outName at he
          split at he
          · apply hcomplete; omega
          · exact finalName_not_reader c _ _ (he ▸ hf)
      have hgen : fs = r.fs ∨ (fs = Function.update r.fs (indexName c.pre c.ext) (some .torn)) := by
        induction hc with
        | clean => exact Or.inl rfl
        | torn _ h _ => rw [hp] at h; cases h
        | @tornOp fs' n ct rest _ h ih =>
          have hn : n = indexName c.pre c.ext := by
            rcases renaming_todo (c := c) (size := size) hj with ⟨hk, he⟩ | ⟨hk, he⟩
            · rw [h, he] at ht; cases ht
            · rw [h, he] at ht
              unfold indexWrite at ht
              split at ht
              · cases ht; rfl
              · cases ht
          right
          rcases ih with h | h
          · rw [h, hn]
          · rw [h, hn, Function.update_idem]
        | tornDispatch _ h _ =>
          exfalso
          rcases renaming_todo (c := c) (size := size) hj with ⟨hk, he⟩ | ⟨hk, he⟩
          · rw [h, he] at ht; cases ht
          · rw [h, he] at ht
            unfold indexWrite at ht
            split at ht <;> cases ht
      rcases hgen with rfl | rfl
      · exact Or.inl hvis
      · by_cases hin : indexName c.pre c.ext ∈ readerNames
        · right; left
          refine ⟨_, .torn, hin, (indexName_reader c hin).1, rfl, Function.update_self .., rfl, ?_⟩
          intro f' hf' hne
          rw [Function.update_of_ne hne]
          exact hvis f' hf'
        · left
          intro f hf
          rw [Function.update_of_ne (fun h : f = indexName c.pre c.ext => hin (h ▸ hf))]
          exact hvis f hf
  | done hp hcm ht =>
    right; right
    have hfs : fs = r.fs := by
      cases hc with
      | clean => rfl
      | torn _ h => rw [hp] at h; cases h
      | tornOp _ h => rw [ht] at h; cases h
      | tornDispatch _ h => rw [ht] at h; cases h
    rw [hfs]; exact hcm

/-- **C13** Whenever an (asynchronous or synchronous) writer session in an empty directory is interrupted - between
or inside any of its file operations - a reader of what is left finds no model, or an unreadable index,
or the complete model. -/
theorem C13_crash_safe (c : Conf) (size : T → Nat) (saves : List (String × T))
    (hn : (saves.map Prod.fst).Nodup) (r : Run T)
    (hr : Relation.ReflTransGen Step ⟨fun _ => none, [], session c size saves⟩ r)
    (fs : FS T) (hc : CrashFS r fs) :
    fromDisk fs = .error .noModel ∨ fromDisk fs = .error .corrupt ∨ HoldsModel fs saves := by
  obtain ⟨shards, hd, hs⟩ := session_spec c size saves hn
  rw [hs] at hr
  have hinv := reach_inv (runInv_init (c := c) (size := size) (shards := shards)) hr
  rcases crash_cases hinv hc with h | ⟨f, ct, hf, hstd, hfe, hfs, rfl, hother⟩ | h
  · exact Or.inl (fromDisk_noModel h)
  · right; left
    have hidx := standard_index hstd
    have e1 : "model.safetensors" ++ ".index.json" = "model.safetensors.index.json" := by decide
    have e2 : "pytorch_model.bin" ++ ".index.json" = "pytorch_model.bin.index.json" := by decide
    rw [hidx] at hfe
    cases hsafe : c.safeSerialization with
    | true =>
      rw [hsafe] at hfe
      simp only [if_true] at hfe
      rw [hfe] at hfs
      unfold fromDisk
      simp only [hfs, Option.isSome_some, Bool.or_true, if_true]
    | false =>
      rw [hsafe] at hfe
      simp only [Bool.false_eq_true, if_false] at hfe
      have n1 : fs "model.safetensors" = none := hother _ (by decide) (by rw [hfe]; decide)
      have n2 : fs ("model.safetensors" ++ ".index.json") = none := hother _ (by decide) (by rw [hfe]; decide)
      rw [hfe] at hfs
      unfold fromDisk
      simp only [n1, n2, hfs, Option.isSome_none, Bool.or_self, Bool.false_eq_true, if_false, Option.isSome_some,
        Bool.or_true, if_true]
  · by_cases hne : shards = []
    · left
      apply fromDisk_noModel
      intro f _
      by_contra hsome
      obtain ⟨ct, hct⟩ := Option.ne_none_iff_exists'.1 hsome
      subst hne
      rcases h.only f ct hct with ⟨i, hi, _⟩ | ⟨hg, _⟩
      · simp at hi
      · simp at hg
    · by_cases hstd : c.Standard
      · exact Or.inr (Or.inr (holdsModel_complete hstd hn hd.flatten hne h (fun _ _ => rfl) (fun _ _ h => h)))
      · left
        apply fromDisk_noModel
        intro f hf
        by_contra hsome
        obtain ⟨ct, hct⟩ := Option.ne_none_iff_exists'.1 hsome
        rcases h.only f ct hct with ⟨i, hi, he⟩ | ⟨hg, he⟩
        · unfold outName at he
          split at he
          · exact hstd (singleName_reader c (he ▸ hf)).1
          · exact finalName_not_reader c _ _ (he ▸ hf)
        · exact hstd (indexName_reader c (he ▸ hf)).1

/-- Prefixes of the synchronous operations are reached by the step relation. -/
theorem syncOps_prefix : ∀ (acts : List (Action T)) (k : Nat), ∃ a b, acts = a ++ b ∧
    syncOps a = (syncOps acts).take k := by
  intro acts
  induction acts with
  | nil => intro k; exact ⟨[], [], rfl, by simp [syncOps]⟩
  | cons x acts ih =>
    intro k
    cases k with
    | zero => exact ⟨[], x :: acts, rfl, by simp [syncOps]⟩
    | succ k =>
      cases x with
      | dispatch n ct =>
        obtain ⟨a, b, rfl, h⟩ := ih k
        exact ⟨.dispatch n ct :: a, b, rfl, by
          simp only [syncOps, List.filterMap_cons, List.take_succ_cons] at h ⊢; rw [h]⟩
      | join =>
        obtain ⟨a, b, rfl, h⟩ := ih (k + 1)
        exact ⟨.join :: a, b, rfl, by simp only [syncOps, List.filterMap_cons] at h ⊢; exact h⟩
      | op o =>
        obtain ⟨a, b, rfl, h⟩ := ih k
        exact ⟨.op o :: a, b, rfl, by
          simp only [syncOps, List.filterMap_cons, List.take_succ_cons] at h ⊢; rw [h]⟩

/-- **C13** for the synchronous writer, stated on the sequence of its file operations: after any number `k` of them. -/
theorem C13_crash_safe_sync (c : Conf) (size : T → Nat) (saves : List (String × T))
    (hn : (saves.map Prod.fst).Nodup) (k : Nat) (fs : FS T)
    (hfs : applyOps (fun _ => none) ((syncOps (session c size saves)).take k) = some fs) :
    fromDisk fs = .error .noModel ∨ HoldsModel fs saves := by
  obtain ⟨a, b, hab, ht⟩ := syncOps_prefix (session c size saves) k
  rw [← ht] at hfs
  have hreach := sync_reach a b _ _ hfs
  rw [← hab] at hreach
  have hnt : ∀ f, fs f ≠ some .torn := by
    -- a completed operation never leaves a torn file
    obtain ⟨shards, hd, hs⟩ := session_spec c size saves hn
    rw [hs] at hreach
    have hinv := reach_inv (runInv_init (c := c) (size := size) (shards := shards)) hreach
    intro f hf
    cases hinv with
    | writing hw _ =>
      obtain ⟨i, _, _, _, h⟩ := hw.only f _ hf
      cases h
    | moving _ _ hr _ =>
      rcases hr.only f _ hf with ⟨i, h1, h2, rfl⟩ | ⟨i, h1, h2, rfl⟩
      · have := hr.tmp i h1 h2; simp only at hf this; rw [hf] at this; cases this
      · have := hr.out i h1 h2; simp only at hf this; rw [hf] at this; cases this
    | done _ hc _ =>
      rcases hc.only f _ hf with ⟨i, h1, rfl⟩ | ⟨hg, rfl⟩
      · have := hc.out i h1; simp only at hf this; rw [hf] at this; cases this
      · have := hc.index hg; simp only at hf this; rw [hf] at this; cases this
  obtain ⟨shards, hd, hs⟩ := session_spec c size saves hn
  have hreach' := hreach
  rw [hs] at hreach'
  have hinv := reach_inv (runInv_init (c := c) (size := size) (shards := shards)) hreach'
  rcases C13_crash_safe c size saves hn _ hreach fs (.clean _) with h | h | h
  · exact Or.inl h
  · exfalso
    rcases crash_cases hinv (.clean _) with h' | ⟨f, ct, _, _, _, hfs', rfl, _⟩ | h'
    · rw [fromDisk_noModel h'] at h; cases h
    · exact hnt f hfs'
    · by_cases hne : shards = []
      · have : fromDisk fs = .error .noModel := by
          apply fromDisk_noModel
          intro f _
          by_contra hsome
          obtain ⟨ct, hct⟩ := Option.ne_none_iff_exists'.1 hsome
          subst hne
          rcases h'.only f ct hct with ⟨i, hi, _⟩ | ⟨hg, _⟩
          · simp at hi
          · simp at hg
        rw [this] at h; cases h
      · by_cases hstd : c.Standard
        · have := fromDisk_complete (fs' := fs) hstd hne h' (fun _ _ => rfl) (fun _ _ h => h)
          rw [this] at h; cases h
        · have : fromDisk fs = .error .noModel := by
            apply fromDisk_noModel
            intro f hf
            by_contra hsome
            obtain ⟨ct, hct⟩ := Option.ne_none_iff_exists'.1 hsome
            rcases h'.only f ct hct with ⟨i, hi, he⟩ | ⟨hg, he⟩
            · unfold outName at he
              split at he
              · exact hstd (singleName_reader c (he ▸ hf)).1
              · exact finalName_not_reader c _ _ (he ▸ hf)
            · exact hstd (indexName_reader c (he ▸ hf)).1
          rw [this] at h; cases h
  · exact Or.inr h

/-- **C14** Background writing: every run ends (no infinite runs, no deadlock, no rename of an unwritten shard - such a
rename could not be a step), and ends with the same directory as the synchronous writer. -/
theorem C14_async_same (c : Conf) (size : T → Nat) (saves : List (String × T))
    (hn : (saves.map Prod.fst).Nodup) :
    ∃ fs, applyOps (fun _ => none) (syncOps (session c size saves)) = some fs ∧
      (∀ r, Relation.ReflTransGen Step ⟨fun _ => none, [], session c size saves⟩ r →
        (∀ r', ¬ Step r r') → r.todo = [] ∧ r.pending = [] ∧ r.fs = fs) ∧
      WellFounded (fun (r' r : Run T) => Step r r') := by
  obtain ⟨shards, hd, hs⟩ := session_spec c size saves hn
  rw [hs]
  obtain ⟨fs, h1, h2⟩ := sync_ok _ _ (runInv_init (c := c) (size := size) (shards := shards))
  refine ⟨fs, h1, ?_, ?_⟩
  · intro r hr hstuck
    have hinv := reach_inv (runInv_init (c := c) (size := size) (shards := shards)) hr
    obtain ⟨t1, t2, t3⟩ := terminal_complete hinv hstuck
    exact ⟨t1, t2, complete_det t3 h2⟩
  · exact Subrelation.wf (fun {a b} h => step_measure h)
      (measure (fun r : Run T => r.pending.length + 2 * r.todo.length)).wf

/-- **C14**, order: when a rename is executed no shard write is outstanding. -/
theorem C14_no_early_rename (c : Conf) (size : T → Nat) (saves : List (String × T))
    (hn : (saves.map Prod.fst).Nodup) (r : Run T)
    (hr : Relation.ReflTransGen Step ⟨fun _ => none, [], session c size saves⟩ r)
    (o : Op T) (rest : List (Action T)) (ht : r.todo = .op o :: rest) : r.pending = [] := by
  obtain ⟨shards, hd, hs⟩ := session_spec c size saves hn
  rw [hs] at hr
  have hinv := reach_inv (runInv_init (c := c) (size := size) (shards := shards)) hr
  cases hinv with
  | @writing k hw h =>
    exfalso
    rw [ht] at h
    rcases writing_todo (c := c) (size := size) hw.le with ⟨hk, he⟩ | ⟨hk, he⟩ <;>
    · rw [he] at h; cases h
  | moving hp _ _ _ => exact hp
  | done hp _ _ => exact hp

/-- **C15** With each tensor stored in just the shard the index names, the result of a read is the same after any
history of requests. -/
theorem C15_history_independent (fs : FS T) (idx : Index)
    (hcons : ∀ file entries k, fs file = some (.shard entries) →
      (∃ k', dictGet idx.tensorPaths k' = some file) → k ∈ entries.map Prod.fst →
      dictGet idx.tensorPaths k = some file)
    (hist hist' : List Request) (k : String) (al : List String) (r : Bool) :
    (getTensor fs idx (afterHistory fs idx none hist) k al r).1 =
      (getTensor fs idx (afterHistory fs idx none hist') k al r).1 := by
  have hc : Consistent fs idx := fun file entries k h1 h2 h3 => hcons file entries k h1 h2 (dictGet_isSome.1 h3)
  have h0 : CurOk fs idx none := by intro _ h; cases h
  rw [getTensor_indep hc (afterHistory_curOk hist none h0), getTensor_indep hc (afterHistory_curOk hist' none h0)]

/-- **C15**, the condition is needed: a tensor present in two shards is read from the open one.  Here "x" is indexed
in "a", but also stored (differently) in "b". -/
theorem C15_condition_needed : ∃ (fs : FS Nat) (idx : Index) (hist : List Request),
    (getTensor fs idx (afterHistory fs idx none []) "x" [] true).1 = .ok (some 1) ∧
    (getTensor fs idx (afterHistory fs idx none hist) "x" [] true).1 = .ok (some 2) := by
  refine ⟨fun f => if f = "a" then some (.shard [("x", 1)]) else if f = "b" then some (.shard [("x", 2), ("y", 3)])
    else none, ⟨[("x", "a"), ("y", "b")]⟩, [.read "y" [] true], ?_, ?_⟩ <;> rfl

/-! ## Writing into a used directory -/

/-- The names an operation touches. -/
def Op.names : Op T → List String
  | .write n _ => [n]
  | .rename a b => [a, b]

theorem applyOps_overlay : ∀ (ops : List (Op T)) (fs0 g fs : FS T) (S : List String),
    (∀ f, f ∉ S → g f = none) → applyOps g ops = some fs →
    ∃ S' : List String, (∀ f, f ∉ S' → fs f = none) ∧
      applyOps (fun f => if f ∈ S then g f else fs0 f) ops =
        some (fun f => if f ∈ S' then fs f else fs0 f) ∧
      (∀ f ∈ S', f ∈ S ∨ ∃ o ∈ ops, f ∈ o.names) := by
  intro ops
  induction ops with
  | nil => intro fs0 g fs S hS h; cases h; exact ⟨S, hS, rfl, fun f h => Or.inl h⟩
  | cons o ops ih =>
    intro fs0 g fs S hS h
    simp only [applyOps] at h
    cases ho : applyOp g o with
    | none => rw [ho] at h; cases h
    | some g' =>
      rw [ho, Option.bind_some] at h
      have key : (∀ f, f ∉ o.names ++ S → g' f = none) ∧
          applyOp (fun f => if f ∈ S then g f else fs0 f) o =
            some (fun f => if f ∈ o.names ++ S then g' f else fs0 f) := by
        cases o with
        | write n ct =>
          simp only [applyOp, Option.some.injEq] at ho
          subst ho
          simp only [Op.names]
          refine ⟨?_, ?_⟩
          · intro f hf
            have h1 : f ≠ n := by rintro rfl; simp at hf
            rw [Function.update_of_ne h1]
            exact hS f (fun h => hf (by simp [h]))
          · simp only [applyOp, Option.some.injEq]
            funext f
            by_cases h1 : f = n
            · subst h1; simp
            · simp [Function.update_of_ne h1, h1]
        | rename a b =>
          simp only [applyOp] at ho
          cases ha : g a with
          | none => rw [ha] at ho; cases ho
          | some ct =>
            rw [ha] at ho
            simp only [Option.some.injEq] at ho
            subst ho
            have haS : a ∈ S := by
              by_contra hn
              rw [hS a hn] at ha; cases ha
            simp only [Op.names]
            refine ⟨?_, ?_⟩
            · intro f hf
              have h1 : f ≠ a := by rintro rfl; simp at hf
              have h2 : f ≠ b := by rintro rfl; simp at hf
              rw [Function.update_of_ne h2, Function.update_of_ne h1]
              exact hS f (fun h => hf (by simp [h]))
            · simp only [applyOp, haS, if_true, ha, Option.some.injEq]
              funext f
              by_cases h2 : f = b
              · subst h2; simp
              · by_cases h1 : f = a
                · subst h1; simp [Function.update_of_ne h2]
                · simp [Function.update_of_ne h2, Function.update_of_ne h1, h1, h2]
      obtain ⟨S', h1, h2, h3⟩ := ih fs0 g' fs (o.names ++ S) key.1 h
      refine ⟨S', h1, ?_, ?_⟩
      · simp only [applyOps, key.2, Option.bind_some]; exact h2
      · intro f hf
        rcases h3 f hf with h | ⟨o', ho', hn⟩
        · rcases List.mem_append.1 h with h | h
          · exact Or.inr ⟨o, by simp, h⟩
          · exact Or.inl h
        · exact Or.inr ⟨o', by simp [ho'], hn⟩

/-- The model does not fit into one shard: at least two tensors, and more bytes than the limit. -/
def TooBig (c : Conf) (size : T → Nat) (saves : List (String × T)) : Prop :=
  0 < c.maxShardSize ∧ 2 ≤ saves.length ∧ c.maxShardSize < ((saves.map (fun e => size e.2)).sum : Int)

theorem Division.two {limit : Int} {size : T → Nat} {saves : List (String × T)} {shards : List (List (String × T))}
    (hd : Division limit size saves shards) (h0 : 0 < limit) (h2 : 2 ≤ saves.length)
    (hb : limit < ((saves.map (fun e => size e.2)).sum : Int)) : shards.length ≠ 1 := by
  intro h1
  obtain ⟨s, rfl⟩ := List.length_eq_one_iff.1 h1
  have hs : s = saves := by simpa using hd.flatten
  subst hs
  rcases hd.bounded h0 s (by simp) with h | h
  · omega
  · unfold totalBytes at h; omega

/-- **C67** (partial) Writing into a directory that already contains files, whatever they are: the directory afterwards holds the new model
*provided* it contained no index file of the format that is written, or the new model is too big for one shard (it then gets an index file of
its own), and, when pickle files are written, no safetensors model.  Without that proviso the claim is false (`C67_stale_index_shadows`,
`C67_other_format_shadows`). -/
theorem C67_used_directory_partial (c : Conf) (hstd : c.Standard) (size : T → Nat) (saves : List (String × T))
    (hn : (saves.map Prod.fst).Nodup) (hne : saves ≠ []) (fs0 : FS T)
    (hidx : fs0 (if c.safeSerialization then "model.safetensors.index.json" else "pytorch_model.bin.index.json") = none ∨ TooBig c size saves)
    (hsafe : c.safeSerialization = false → fs0 "model.safetensors" = none ∧ fs0 "model.safetensors.index.json" = none) :
    ∃ fs, applyOps fs0 (syncOps (session c size saves)) = some fs ∧ HoldsModel fs saves := by
  obtain ⟨shards, hd, hs⟩ := session_spec c size saves hn
  rw [hs]
  obtain ⟨fs, h1, h2⟩ := sync_ok _ _ (runInv_init (c := c) (size := size) (shards := shards))
  obtain ⟨S', h3, h4, _⟩ := applyOps_overlay _ fs0 (fun _ => none) fs [] (fun _ _ => rfl) h1
  have hnes : shards ≠ [] := by
    rintro rfl
    exact hne hd.flatten.symm
  have hsame : ∀ f, (fs f).isSome = true → (if f ∈ S' then fs f else fs0 f) = fs f := by
    intro f hf
    have : f ∈ S' := by
      by_contra hn
      rw [h3 f hn] at hf; cases hf
    simp [this]
  have honly := h2.only
  refine ⟨_, by simpa [dispatches] using h4, holdsModel_of_index hn hd.flatten h2 hsame (fromDisk_overlay hstd hnes h2 hsame ?_ ?_)⟩
  · intro hc
    have hbase := standard_single hstd
    have hix := standard_index hstd
    rw [hc] at hbase hix
    have key : ∀ f, f = "model.safetensors" ∨ f = "model.safetensors.index.json" → fs f = none := by
      intro f hf
      by_contra hsome
      obtain ⟨ct, hct⟩ := Option.ne_none_iff_exists'.1 hsome
      rcases honly f ct hct with ⟨i, hi, he⟩ | ⟨_, he⟩
      · unfold outName at he
        split at he
        · rw [hbase] at he; rcases hf with rfl | rfl <;> exact absurd he (by decide)
        · exact finalName_not_reader c i shards.length (by rw [← he]; rcases hf with rfl | rfl <;> decide)
      · rw [hix] at he; rcases hf with rfl | rfl <;> exact absurd he (by decide)
    constructor
    · simp only [key _ (Or.inl rfl), (hsafe hc).1, ite_self]
    · simp only [key _ (Or.inr rfl), (hsafe hc).2, ite_self]
  · intro hl
    rcases hidx with hidx | ⟨hb0, hb1, hb2⟩
    · have hix := standard_index hstd
      have hname : (if c.safeSerialization then "model.safetensors" else "pytorch_model.bin") ++ ".index.json" =
          if c.safeSerialization then "model.safetensors.index.json" else "pytorch_model.bin.index.json" := by
        cases c.safeSerialization <;> decide
      rw [hname] at hix ⊢
      have hnone : fs (if c.safeSerialization then "model.safetensors.index.json" else "pytorch_model.bin.index.json") = none := by
        by_contra hsome
        obtain ⟨ct, hct⟩ := Option.ne_none_iff_exists'.1 hsome
        rw [← hix] at hct
        rcases honly _ ct hct with ⟨i, hi, he⟩ | ⟨hg, _⟩
        · unfold outName at he
          rw [if_pos hl] at he
          exact singleName_ne_indexName he.symm
        · omega
      simp only [hnone, hidx, ite_self]
    · exact absurd hl (hd.two hb0 hb1 hb2)

/-- The names a reader of `fs` finds. -/
def foundNames (fs : FS T) : Option (List String) :=
  match fromDisk fs with
  | .ok idx => some (idx.tensorPaths.map Prod.fst)
  | .error _ => none

theorem not_holds {fs : FS T} {saves : List (String × T)} {names : List String} (h : foundNames fs = some names)
    (hx : ∃ x ∈ names, x ∉ saves.map Prod.fst) : ¬ HoldsModel fs saves := by
  rintro ⟨idx, h1, h2, _⟩
  simp only [foundNames, h1, Option.some.injEq] at h
  obtain ⟨x, hx, hn⟩ := hx
  exact hn ((h2 x).1 (dictGet_isSome.2 (h ▸ hx)))

/-- Write model `old`, then model `new` into the same directory. -/
def writeTwice (c c' : Conf) (old new : List (String × Nat)) : Option (FS Nat) :=
  (applyOps (fun _ => none) (syncOps (session c id old))).bind
    (fun fs0 => applyOps fs0 (syncOps (session c' id new)))

/-- **C67** is false in general: the index left over from a previously written larger model hides the newly
written single-shard model. -/
theorem C67_stale_index_shadows :
    ∃ fs, writeTwice ⟨10, true, none⟩ ⟨10, true, none⟩ [("a", 7), ("b", 8)] [("new", 3)] = some fs ∧
      ¬ HoldsModel fs [("new", 3)] := by
  have h : (writeTwice ⟨10, true, none⟩ ⟨10, true, none⟩ [("a", 7), ("b", 8)] [("new", 3)]).bind foundNames =
      some ["a", "b"] := by decide
  obtain ⟨fs, h1, h2⟩ := Option.bind_eq_some_iff.1 h
  exact ⟨fs, h1, not_holds h2 ⟨"a", by decide, by decide⟩⟩

/-- **C67** is false in general: a left-over safetensors file hides a newly written pickle model. -/
theorem C67_other_format_shadows :
    ∃ fs, writeTwice ⟨-1, true, none⟩ ⟨-1, false, none⟩ [("a", 7)] [("new", 3)] = some fs ∧
      ¬ HoldsModel fs [("new", 3)] := by
  have h : (writeTwice ⟨-1, true, none⟩ ⟨-1, false, none⟩ [("a", 7)] [("new", 3)]).bind foundNames =
      some ["a"] := by decide
  obtain ⟨fs, h1, h2⟩ := Option.bind_eq_some_iff.1 h
  exact ⟨fs, h1, not_holds h2 ⟨"a", by decide, by decide⟩⟩

/-! ## Instances -/

/-- Three tensors of 7, 8 and 2 bytes with a limit of 10: two shards. -/
def threeTensors : List (String × Nat) := [("a", 7), ("b", 8), ("c", 2)]

/-- The hypotheses of C10 - C14 and C67 hold for it. -/
theorem threeTensors_ok : (threeTensors.map Prod.fst).Nodup ∧ threeTensors ≠ [] ∧
    Conf.Standard ⟨10, true, none⟩ ∧ (∃ fs, CrashFS (T := Nat)
      ⟨fun _ => none, [], session ⟨10, true, none⟩ id threeTensors⟩ fs) :=
  ⟨by decide, by decide, by simp [Conf.Standard, Conf.pre], ⟨_, .clean _⟩⟩

/-- It is too big for one shard (C67). -/
example : TooBig ⟨10, true, none⟩ id threeTensors := by unfold TooBig; decide

/-- What C10 - C12 say about it, computed. -/
example : ((applyOps (fun _ => none) (syncOps (session ⟨10, true, none⟩ id threeTensors))).bind
    (fun fs => match fromDisk fs with | .ok idx => some idx.tensorPaths | .error _ => none)) =
    some [("a", "model-00001-of-00002.safetensors"), ("b", "model-00002-of-00002.safetensors"),
      ("c", "model-00002-of-00002.safetensors")] := by decide

/-- A crash after the first rename: there is no model to be found yet. -/
example : ((applyOps (fun _ => none) ((syncOps (session ⟨10, true, none⟩ id threeTensors)).take 3)).map
    (fun fs => match fromDisk fs with | .ok _ => none | .error e => some e)) = some (some .noModel) := by decide

/-- C15's condition holds for the directory written by C10, and for this one. -/
example : ∀ file entries k, (fun f => if f = "s" then some (Content.shard [("x", 1), ("y", 2)]) else none : FS Nat)
      file = some (.shard entries) → (∃ k', dictGet [("x", "s"), ("y", "s")] k' = some file) →
      k ∈ entries.map Prod.fst → dictGet [("x", "s"), ("y", "s")] k = some file := by
  rintro file entries k h _ hk
  simp only at h
  split at h
  · rename_i hf; subst hf
    simp only [Option.some.injEq, Content.shard.injEq] at h
    subst h
    simp at hk
    rcases hk with rfl | rfl <;> decide
  · cases h

end Verif.Writer
