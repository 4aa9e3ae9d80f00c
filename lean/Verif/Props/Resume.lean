import Verif.Proof.Names
import Verif.Model.Resume
import Verif.Props.Writer
import Mathlib.Data.Fintype.Pigeonhole
import Mathlib.Data.Fintype.Card

/-! # C64, C74: taking up earlier results -/

set_option linter.unusedSectionVars false

namespace Verif.Resume

open Verif.Writer
open Verif.ModelRef (Str ModelPath Ref)

variable {T : Type}

/-! ## C74 -/

/-- Names of the files an action touches. -/
def actionNames : Action T → List String
  | .dispatch n _ => [n]
  | .join => []
  | .op o => o.names

/-- All files are among the names. -/
def Within (N : List String) (fs : FS T) : Prop := ∀ f, (fs f).isSome = true → f ∈ N

theorem within_update {N : List String} {fs : FS T} {n : String} {x : Option (Content T)} (h : Within N fs) (hn : n ∈ N) :
    Within N (Function.update fs n x) := by
  intro f hf
  by_cases h1 : f = n
  · rw [h1]; exact hn
  · rw [Function.update_of_ne h1] at hf
    exact h f hf

/-- The state of a run stays within the names. -/
structure RunWithin (N : List String) (r : Run T) : Prop where
  fs : Within N r.fs
  pending : ∀ e ∈ r.pending, e.1 ∈ N
  todo : ∀ a ∈ r.todo, ∀ n ∈ actionNames a, n ∈ N

theorem step_within {N : List String} {r r' : Run T} (h : RunWithin N r) (hs : Step r r') : RunWithin N r' := by
  cases hs with
  | dispatch =>
    refine ⟨h.fs, ?_, fun a ha => h.todo a (by simp [ha])⟩
    intro e he
    rcases List.mem_append.1 he with he | he
    · exact h.pending e he
    · simp only [List.mem_singleton] at he
      subst he
      exact h.todo _ List.mem_cons_self _ (by simp [actionNames])
  | join => exact ⟨h.fs, by simp, fun a ha => h.todo a (by simp [ha])⟩
  | @op fs fs' p o rest ho =>
    refine ⟨?_, h.pending, fun a ha => h.todo a (by simp [ha])⟩
    have hn := h.todo (.op o) List.mem_cons_self
    cases o with
    | write n c =>
      simp only [applyOp, Option.some.injEq] at ho
      subst ho
      exact within_update h.fs (hn n (by simp [actionNames, Op.names]))
    | rename a b =>
      simp only [applyOp] at ho
      split at ho
      · cases ho
      · cases ho
        exact within_update (within_update h.fs (hn a (by simp [actionNames, Op.names]))) (hn b (by simp [actionNames, Op.names]))
  | @complete fs p q n c rest =>
    refine ⟨within_update h.fs (h.pending (n, c) (by simp)), ?_, h.todo⟩
    intro e he
    apply h.pending
    simp only [List.mem_append, List.mem_cons] at he ⊢
    tauto

theorem reach_within {N : List String} {r r' : Run T} (h : RunWithin N r) (hs : Relation.ReflTransGen Step r r') : RunWithin N r' := by
  induction hs with
  | refl => exact h
  | tail _ hs ih => exact step_within ih hs

theorem crash_within {N : List String} {r : Run T} (h : RunWithin N r) {fs : FS T} (hc : CrashFS r fs) : Within N fs := by
  induction hc with
  | clean => exact h.fs
  | torn _ hp ih => exact within_update ih (h.pending _ hp)
  | tornOp _ ht ih => exact within_update ih (h.todo _ (by rw [ht]; exact List.mem_cons_self) _ (by simp [actionNames, Op.names]))
  | tornDispatch _ ht ih => exact within_update ih (h.todo _ (by rw [ht]; exact List.mem_cons_self) _ (by simp [actionNames]))

/-- Names touched by a session. -/
def sessionNames (c : Conf) (size : T → Nat) (saves : List (String × T)) : List String := (session c size saves).flatMap actionNames

theorem mem_sessionNames {c : Conf} {size : T → Nat} {saves : List (String × T)} {shards : List (List (String × T))}
    (hs : session c size saves = dispatches c shards ++ tailActions c size shards) {f : String} (hf : f ∈ sessionNames c size saves) :
    (∃ i, f = tmpName c.pre c.ext i) ∨ (∃ i, i < shards.length ∧ f = outName c shards.length i) ∨
      (shards.length > 1 ∧ f = indexName c.pre c.ext) := by
  unfold sessionNames at hf
  rw [hs, tailActions_eq] at hf
  obtain ⟨a, ha, hf⟩ := List.mem_flatMap.1 hf
  simp only [List.mem_append, List.mem_cons] at ha
  rcases ha with ha | rfl | ha | ha
  · unfold dispatches at ha
    rw [List.mem_mapIdx] at ha
    obtain ⟨i, hi, rfl⟩ := ha
    simp only [actionNames, List.mem_singleton] at hf
    exact Or.inl ⟨i, hf⟩
  · simp [actionNames] at hf
  · unfold renames at ha
    obtain ⟨i, hi, rfl⟩ := List.mem_map.1 ha
    simp only [actionNames, Op.names, List.mem_cons, List.not_mem_nil, or_false] at hf
    rcases hf with hf | hf
    · exact Or.inl ⟨i, hf⟩
    · exact Or.inr (Or.inl ⟨i, List.mem_range.1 hi, hf⟩)
  · unfold indexWrite at ha
    split at ha
    · rename_i h1
      simp only [List.mem_singleton] at ha
      subst ha
      simp only [actionNames, Op.names, List.mem_singleton] at hf
      exact Or.inr (Or.inr ⟨h1, hf⟩)
    · simp at ha

/-- Writing everything into a directory with leftovers of the same session. -/
theorem rewrite_holds (c : Conf) (hstd : c.Standard) (size : T → Nat) (saves : List (String × T)) (hn : (saves.map Prod.fst).Nodup)
    (hne : saves ≠ []) (fs0 : FS T) (h0 : Within (sessionNames c size saves) fs0) :
    ∃ fs, applyOps fs0 (syncOps (session c size saves)) = some fs ∧ HoldsModel fs saves ∧ Within (sessionNames c size saves) fs := by
  obtain ⟨shards, hd, hs⟩ := session_spec c size saves hn
  obtain ⟨fs, h1, h2⟩ := sync_ok _ _ (runInv_init (c := c) (size := size) (shards := shards))
  have hs' : session c size saves = dispatches c shards ++ tailActions c size shards := hs
  rw [← hs'] at h1
  obtain ⟨S', h3, h4, h5⟩ := applyOps_overlay _ fs0 (fun _ => none) fs [] (fun _ _ => rfl) h1
  have h4' : applyOps fs0 (syncOps (session c size saves)) = some (fun f => if f ∈ S' then fs f else fs0 f) := by simpa using h4
  refine ⟨_, h4', ?_, ?_⟩
  · refine holdsModel_complete hstd hn hd.flatten ?_ h2 ?_ ?_
    · rintro rfl
      exact hne hd.flatten.symm
    · intro f hf
      have : f ∈ S' := by
        by_contra hn
        rw [h3 f hn] at hf; cases hf
      simp [this]
    · intro f hf hnone
      show (if f ∈ S' then fs f else fs0 f) = none
      split
      · exact hnone
      · by_contra hc
        have hsome : (fs0 f).isSome = true := by
          cases h : fs0 f with
          | none => exact absurd h hc
          | some x => rfl
        rcases mem_sessionNames hs' (h0 f hsome) with ⟨i, rfl⟩ | ⟨i, hi, rfl⟩ | ⟨hi, rfl⟩
        · exact tmpName_not_reader c i hf
        · rw [h2.out i hi] at hnone; cases hnone
        · rw [h2.index hi] at hnone; cases hnone
  · have hinit : RunWithin (sessionNames c size saves) ⟨fs0, [], session c size saves⟩ :=
      ⟨h0, by simp, fun a ha n hna => List.mem_flatMap.2 ⟨a, ha, hna⟩⟩
    have hreach := sync_reach (session c size saves) [] fs0 _ h4'
    rw [List.append_nil] at hreach
    exact (reach_within hinit hreach).fs

/-- What holds in every state of a history of attempts. -/
structure Good (c : Conf) (size : T → Nat) (saves : List (String × T)) (d : OutDir T) : Prop where
  within : Within (sessionNames c size saves) d.weights
  holds : "config.json" ∈ d.others → HoldsModel d.weights saves

theorem holds_present {d : OutDir T} {saves : List (String × T)} (h : HoldsModel d.weights saves) (hc : "config.json" ∈ d.others) :
    present d = true := by
  obtain ⟨idx, hidx, _⟩ := h
  unfold present
  rw [Bool.and_eq_true]
  refine ⟨by simpa using hc, ?_⟩
  by_contra hno
  have hnone : ∀ f ∈ readerNames, d.weights f = none := by
    intro f hf
    by_contra hsome
    apply hno
    rw [List.any_eq_true]
    refine ⟨f, ?_, ?_⟩
    · revert hf
      unfold readerNames checkNames
      simp only [List.mem_cons, List.not_mem_nil, or_false]
      tauto
    · cases h : d.weights f with
      | none => exact absurd h hsome
      | some x => rfl
  rw [fromDisk_noModel hnone] at hidx
  cases hidx

theorem attempt_good (c : Conf) (hstd : c.Standard) (size : T → Nat) (saves : List (String × T)) (hn : (saves.map Prod.fst).Nodup)
    (hne : saves ≠ []) (after : List String) {d d' : OutDir T} (h : Good c size saves d)
    (ha : Attempt c size saves after true d d') : Good c size saves d' := by
  cases ha with
  | skip => exact h
  | crashWriting r fs hno hr hc =>
    refine ⟨?_, ?_⟩
    · have hinit : RunWithin (sessionNames c size saves) ⟨d.weights, [], session c size saves⟩ :=
        ⟨h.within, by simp, fun a ha n hna => List.mem_flatMap.2 ⟨a, ha, hna⟩⟩
      exact crash_within (reach_within hinit hr) hc
    · intro hcfg
      exact absurd ⟨rfl, holds_present (h.holds hcfg) hcfg⟩ hno
  | afterwards fs k hno hfs =>
    obtain ⟨fs', e1, e2, e3⟩ := rewrite_holds c hstd size saves hn hne d.weights h.within
    rw [hfs] at e1
    cases e1
    exact ⟨e3, fun _ => e2⟩

/-- **C74** Whatever was cut off in earlier runs, and wherever: a merge that is skipped because its output is there already has all its
weights written. -/
theorem C74_weights (c : Conf) (hstd : c.Standard) (size : T → Nat) (saves : List (String × T)) (hn : (saves.map Prod.fst).Nodup)
    (hne : saves ≠ []) (after : List String) (d : OutDir T)
    (h : Relation.ReflTransGen (Attempt c size saves after true) ⟨fun _ => none, []⟩ d) (hp : present d = true) :
    HoldsModel d.weights saves := by
  have hg : Good c size saves d := by
    clear hp
    induction h with
    | refl => exact ⟨fun f hf => by simp at hf, fun h => by simp at h⟩
    | tail _ hs ih => exact attempt_good c hstd size saves hn hne after ih hs
  unfold present at hp
  rw [Bool.and_eq_true] at hp
  exact hg.holds (by simpa using hp.1)

/-- **C74, disagreement** If a run is cut off after the configuration is written, the files that come later (model card, tokenizer, files
copied along) are never written by any further run: the merge counts as done. -/
theorem C74_unfinished (c : Conf) (hstd : c.Standard) (size : T → Nat) (saves : List (String × T)) (hn : (saves.map Prod.fst).Nodup)
    (hne : saves ≠ []) (card : Bool) (tokenizer tagalong : List String) (f : String) (hf : f ≠ "config.json") :
    ∃ d, Attempt c size saves (afterWeights card tokenizer tagalong) true ⟨fun _ => none, []⟩ d ∧
      ∀ d', Relation.ReflTransGen (Attempt c size saves (afterWeights card tokenizer tagalong) true) d d' → d' = d ∧ f ∉ d'.others := by
  obtain ⟨fs, h1, h2, _⟩ := rewrite_holds c hstd size saves hn hne (fun _ => none) (fun f hf => by simp at hf)
  refine ⟨⟨fs, ["config.json"]⟩, ?_, ?_⟩
  · have := Attempt.afterwards (after := afterWeights card tokenizer tagalong) (lazy := true) (⟨fun _ => none, []⟩ : OutDir T) fs 1
      (by rintro ⟨_, h⟩; simp [present] at h) h1
    simpa [afterWeights] using this
  · have hp : present (⟨fs, ["config.json"]⟩ : OutDir T) = true := holds_present h2 (by simp)
    intro d' hd
    have : d' = ⟨fs, ["config.json"]⟩ := by
      induction hd with
      | refl => rfl
      | tail _ hs ih =>
        subst ih
        cases hs with
        | skip => rfl
        | crashWriting _ _ hno => exact absurd ⟨rfl, hp⟩ hno
        | afterwards _ _ hno => exact absurd ⟨rfl, hp⟩ hno
    exact ⟨this, by rw [this]; simpa using hf⟩

/-- **C74, disagreement** A run with `--no-lazy` over a finished directory that is cut off while the index is rewritten leaves a directory that
later runs take for finished although it cannot be read. -/
theorem C74_forced_rerun : ∃ (d d' : OutDir Nat), d.others = ["config.json"] ∧ HoldsModel d.weights [("a", 7), ("b", 8)] ∧
    Attempt ⟨10, true, none⟩ id [("a", 7), ("b", 8)] ["config.json"] false d d' ∧ present d' = true ∧
    Attempt ⟨10, true, none⟩ id [("a", 7), ("b", 8)] ["config.json"] true d' d' ∧ fromDisk d'.weights = .error .corrupt := by
  obtain ⟨fs, h1, h2, _⟩ := rewrite_holds (⟨10, true, none⟩ : Conf) rfl (id : Nat → Nat) [("a", 7), ("b", 8)] (by decide) (by simp)
    (fun _ => none) (fun f hf => by simp at hf)
  have hsplit : session (⟨10, true, none⟩ : Conf) (id : Nat → Nat) [("a", 7), ("b", 8)] =
      (session (⟨10, true, none⟩ : Conf) (id : Nat → Nat) [("a", 7), ("b", 8)]).take 5 ++
        [.op (.write "model.safetensors.index.json" (.index 15 [("a", "model-00001-of-00002.safetensors"),
          ("b", "model-00002-of-00002.safetensors")]))] := by rfl
  have hex : ∃ fs', applyOps fs (syncOps ((session (⟨10, true, none⟩ : Conf) (id : Nat → Nat) [("a", 7), ("b", 8)]).take 5)) = some fs' := by
    obtain ⟨fs'', e1, _, _⟩ := rewrite_holds (⟨10, true, none⟩ : Conf) rfl (id : Nat → Nat) [("a", 7), ("b", 8)] (by decide) (by simp)
      fs (by
        have hinit : RunWithin (sessionNames (⟨10, true, none⟩ : Conf) (id : Nat → Nat) [("a", 7), ("b", 8)])
            ⟨fun _ => none, [], session (⟨10, true, none⟩ : Conf) (id : Nat → Nat) [("a", 7), ("b", 8)]⟩ :=
          ⟨fun f hf => by simp at hf, by simp, fun a ha n hna => List.mem_flatMap.2 ⟨a, ha, hna⟩⟩
        have hreach := sync_reach (session (⟨10, true, none⟩ : Conf) (id : Nat → Nat) [("a", 7), ("b", 8)]) [] _ _ h1
        rw [List.append_nil] at hreach
        exact (reach_within hinit hreach).fs)
    rw [hsplit] at e1
    cases h : applyOps fs (syncOps ((session (⟨10, true, none⟩ : Conf) (id : Nat → Nat) [("a", 7), ("b", 8)]).take 5)) with
    | some x => exact ⟨x, rfl⟩
    | none =>
      exfalso
      have : ∀ (a b : List (Op Nat)) (g : FS Nat), applyOps g a = none → applyOps g (a ++ b) = none := by
        intro a b
        induction a with
        | nil => intro g h; cases h
        | cons o a ih =>
          intro g h
          simp only [List.cons_append, applyOps] at h ⊢
          cases ho : applyOp g o with
          | none => rfl
          | some g' => rw [ho] at h; exact ih g' h
      have hso : ∀ a b : List (Action Nat), syncOps (a ++ b) = syncOps a ++ syncOps b := fun a b => List.filterMap_append
      rw [hso, this _ _ _ h] at e1
      cases e1
  obtain ⟨fs', h3⟩ := hex
  have hreach := sync_reach _ [.op (.write "model.safetensors.index.json" (.index 15 [("a", "model-00001-of-00002.safetensors"),
          ("b", "model-00002-of-00002.safetensors")]))] fs fs' h3
  rw [← hsplit] at hreach
  have hp : present (⟨Function.update fs' "model.safetensors.index.json" (some .torn), ["config.json"]⟩ : OutDir Nat) = true := by
    simp [present, checkNames]
  refine ⟨⟨fs, ["config.json"]⟩, ⟨Function.update fs' "model.safetensors.index.json" (some .torn), ["config.json"]⟩, rfl, h2, ?_, hp,
    .skip _ rfl hp, ?_⟩
  · exact .crashWriting _ _ _ (by simp) hreach (.tornOp (.clean _) rfl)
  · have e : "model.safetensors" ++ ".index.json" = "model.safetensors.index.json" := by decide
    simp only [fromDisk, e, Function.update_self, Option.isSome_some, Bool.or_true, if_true]

/-- Non-vacuity of `C74_weights`: a history with an interruption after which the merge counts as done. -/
example : ∃ d : OutDir Nat, Attempt ⟨10, true, none⟩ id [("a", 7), ("b", 8)] (afterWeights true ["tokenizer.json"] []) true
    ⟨fun _ => none, []⟩ d ∧ present d = true := by
  obtain ⟨d, h1, h2⟩ := C74_unfinished (⟨10, true, none⟩ : Conf) rfl (id : Nat → Nat) [("a", 7), ("b", 8)] (by decide) (by simp) true
    ["tokenizer.json"] [] "x" (by decide)
  obtain ⟨fs, e1, e2, _⟩ := rewrite_holds (⟨10, true, none⟩ : Conf) rfl (id : Nat → Nat) [("a", 7), ("b", 8)] (by decide) (by simp)
    (fun _ => none) (fun f hf => by simp at hf)
  have := Attempt.afterwards (after := afterWeights true ["tokenizer.json"] []) (lazy := true) (⟨fun _ => none, []⟩ : OutDir Nat) fs 2
      (by rintro ⟨_, h⟩; simp [present] at h) e1
  exact ⟨_, this, holds_present e2 (by simp [afterWeights])⟩

/-! ## C64 -/

theorem merged_hit {crc : Str → Nat} {files : List String} {cache : Cache} {m l : ModelPath} {dtype : Option Str} {crash : Option Nat} {e : Entry}
    (h : cache (entryName crc m l) = some e) : merged crc files cache m l dtype crash = (cache, some (entryName crc m l)) := by
  simp only [merged, h]

theorem merged_miss {crc : Str → Nat} {files : List String} {cache : Cache} {m l : ModelPath} {dtype : Option Str}
    (h : cache (entryName crc m l) = none) : merged crc files cache m l dtype none =
      (Function.update cache (entryName crc m l) (some ⟨m, l, dtype, files⟩), some (entryName crc m l)) := by
  simp only [merged, h]

theorem merged_crash {crc : Str → Nat} {files : List String} {cache : Cache} {m l : ModelPath} {dtype : Option Str} {k : Nat}
    (h : cache (entryName crc m l) = none) : merged crc files cache m l dtype (some k) =
      (Function.update cache (entryName crc m l) (some ⟨m, l, dtype, files.take k⟩), none) := by
  simp only [merged, h]

/-- **C64** What holds: if no call was ever cut off, the entry used is a completely written model made from references with the same entry
name - the same base, revision and adapter if the checksums of the references involved do not collide. -/
theorem C64_complete_partial (crc : Str → Nat) (files : List String) (history : List Call) (hno : ∀ x ∈ history, x.crash = none)
    (m l : ModelPath) (dtype : Option Str) :
    ∃ e, (merged crc files (afterCalls crc files (fun _ => none) history) m l dtype none).2 = some (entryName crc m l) ∧
      (merged crc files (afterCalls crc files (fun _ => none) history) m l dtype none).1 (entryName crc m l) = some e ∧
      e.files = files ∧ entryName crc e.model e.lora = entryName crc m l ∧
      ((∀ x ∈ history, entryName crc x.model x.lora = entryName crc m l → x.model = m ∧ x.lora = l) → e.model = m ∧ e.lora = l) := by
  have inv : ∀ (xs : List Call) (cache : Cache), (∀ x ∈ xs, x.crash = none) → ∀ (H : List Call),
      (∀ n e, cache n = some e → e.files = files ∧ entryName crc e.model e.lora = n ∧ ∃ x ∈ H, x.model = e.model ∧ x.lora = e.lora) →
      ∀ n e, afterCalls crc files cache xs n = some e →
        e.files = files ∧ entryName crc e.model e.lora = n ∧ ∃ x ∈ H ++ xs, x.model = e.model ∧ x.lora = e.lora := by
    intro xs
    induction xs with
    | nil =>
      intro cache _ H hc n e h
      simpa using hc n e h
    | cons x xs ih =>
      intro cache hx H hc n e h
      have := ih (merged crc files cache x.model x.lora x.dtype x.crash).1 (fun y hy => hx y (List.mem_cons_of_mem _ hy)) (H ++ [x]) (by
        intro n e hne
        cases hcn : cache (entryName crc x.model x.lora) with
        | some e' =>
          rw [merged_hit hcn] at hne
          obtain ⟨h1, h2, y, hy, h3⟩ := hc n e hne
          exact ⟨h1, h2, y, by simp [hy], h3⟩
        | none =>
          rw [hx x List.mem_cons_self, merged_miss hcn] at hne
          simp only at hne
          by_cases hn : n = entryName crc x.model x.lora
          · subst hn
            simp only [Function.update_self, Option.some.injEq] at hne
            subst hne
            exact ⟨rfl, rfl, x, by simp, rfl, rfl⟩
          · rw [Function.update_of_ne hn] at hne
            obtain ⟨h1, h2, y, hy, h3⟩ := hc n e hne
            exact ⟨h1, h2, y, by simp [hy], h3⟩) n e h
      simpa [List.append_assoc] using this
  have hinv := inv history (fun _ => none) hno [] (by simp)
  cases hcn : afterCalls crc files (fun _ => none) history (entryName crc m l) with
  | some e =>
    rw [merged_hit hcn]
    obtain ⟨h1, h2, x, hx, h3, h4⟩ := hinv _ _ hcn
    refine ⟨e, rfl, hcn, h1, h2, ?_⟩
    intro hcol
    rw [← h3, ← h4] at h2 ⊢
    exact hcol x (by simpa using hx) h2
  | none =>
    rw [merged_miss hcn]
    exact ⟨⟨m, l, dtype, files⟩, rfl, by simp, rfl, rfl, fun _ => ⟨rfl, rfl⟩⟩

theorem last_digits {x y : Str} {a b : Nat} (h : x ++ '_' :: Nat.toDigits 10 a = y ++ '_' :: Nat.toDigits 10 b) : x = y ∧ a = b := by
  have hr := congrArg List.reverse h
  simp only [List.reverse_append, List.reverse_cons, List.append_assoc, List.singleton_append] at hr
  obtain ⟨h1, _, h3⟩ := Verif.Writer.digits_cancel (A := (Nat.toDigits 10 a).reverse) (B := (Nat.toDigits 10 b).reverse)
    (fun c hc => Verif.Writer.digits_all a c (List.mem_reverse.1 hc)) (fun c hc => Verif.Writer.digits_all b c (List.mem_reverse.1 hc))
    (by decide) (by decide) hr
  refine ⟨List.reverse_injective h3, ?_⟩
  have h4 := congrArg (fun s => Nat.ofDigitChars 10 s 0) (List.reverse_injective h1)
  simpa [Nat.ofDigitChars_ten_toDigits] using h4

/-- C64: the entry name tells both the model and the adapter, as long as the checksums tell them apart; underscores in names never mix
the two up. -/
theorem C64_distinct_entries (crc : Str → Nat) (m m' l l' : ModelPath) (hm : crc m.print = crc m'.print → m = m')
    (hl : crc l.print = crc l'.print → l = l') (h : entryName crc m l = entryName crc m' l') : m = m' ∧ l = l' := by
  unfold entryName uniqueId at h
  have h' : (basename m.path ++ '_' :: Nat.toDigits 10 (crc m.print) ++ '_' :: basename l.path) ++ '_' :: Nat.toDigits 10 (crc l.print) =
      (basename m'.path ++ '_' :: Nat.toDigits 10 (crc m'.print) ++ '_' :: basename l'.path) ++ '_' :: Nat.toDigits 10 (crc l'.print) := by
    simpa using h
  obtain ⟨h1, h2⟩ := last_digits h'
  have e := hl h2
  subst e
  have h3 := List.append_cancel_right h1
  exact ⟨hm (last_digits h3).2, rfl⟩

/-- An underscore-laden pair that could be mistaken for another one. -/
example : entryName (fun s => s.length) ⟨"a_1_b".toList, none⟩ ⟨"c".toList, none⟩ ≠
    entryName (fun s => s.length) ⟨"a".toList, none⟩ ⟨"b_2_c".toList, none⟩ := by decide

/-- C64: with histories free of interruptions in which no two references share a checksum, a call gets an entry made of exactly the
requested model and adapter, with all its files. -/
theorem C64_own_entry (crc : Str → Nat) (files : List String) (history : List Call) (hno : ∀ x ∈ history, x.crash = none)
    (m l : ModelPath) (dtype : Option Str)
    (hcrc : ∀ x ∈ history, (crc x.model.print = crc m.print → x.model = m) ∧ (crc x.lora.print = crc l.print → x.lora = l)) :
    ∃ e name, (merged crc files (afterCalls crc files (fun _ => none) history) m l dtype none).2 = some name ∧
      (merged crc files (afterCalls crc files (fun _ => none) history) m l dtype none).1 name = some e ∧
      e.files = files ∧ e.model = m ∧ e.lora = l := by
  obtain ⟨e, h1, h2, h3, _, h5⟩ := C64_complete_partial crc files history hno m l dtype
  obtain ⟨h6, h7⟩ := h5 (fun x hx h => C64_distinct_entries crc x.model m x.lora l (hcrc x hx).1 (hcrc x hx).2 h)
  exact ⟨e, _, h1, h2, h3, h6, h7⟩

example : ∃ e name, (merged (fun s => s.length) ["config.json"] (afterCalls (fun s => s.length) ["config.json"] (fun _ => none)
      [⟨⟨"aa".toList, none⟩, ⟨"b".toList, none⟩, none, none⟩]) ⟨"a".toList, none⟩ ⟨"b".toList, none⟩ none none).2 = some name ∧
      (merged (fun s => s.length) ["config.json"] (afterCalls (fun s => s.length) ["config.json"] (fun _ => none)
      [⟨⟨"aa".toList, none⟩, ⟨"b".toList, none⟩, none, none⟩]) ⟨"a".toList, none⟩ ⟨"b".toList, none⟩ none none).1 name = some e ∧
      e.files = ["config.json"] ∧ e.model = ⟨"a".toList, none⟩ ∧ e.lora = ⟨"b".toList, none⟩ :=
  C64_own_entry _ _ _ (by decide) _ _ _ (by decide)

/-- **C64, refuted** A call that is cut off leaves an entry that all later calls use as it is: none of them notices that files are missing or
writes them, however often it is repeated. -/
theorem C64_crash_sticks (crc : Str → Nat) (files : List String) (cache : Cache) (m l : ModelPath) (dtype : Option Str) (k : Nat)
    (hnew : cache (entryName crc m l) = none) (later : List Call) (dtype' : Option Str) (crash : Option Nat) :
    let cache' := afterCalls crc files (merged crc files cache m l dtype (some k)).1 later
    merged crc files cache' m l dtype' crash = (cache', some (entryName crc m l)) ∧
      cache' (entryName crc m l) = some ⟨m, l, dtype, files.take k⟩ := by
  have keep : ∀ (xs : List Call) (c : Cache) n e, c n = some e → afterCalls crc files c xs n = some e := by
    intro xs
    induction xs with
    | nil => intro c n e h; exact h
    | cons x xs ih =>
      intro c n e h
      apply ih
      cases hcn : c (entryName crc x.model x.lora) with
      | some e' => rw [merged_hit hcn]; exact h
      | none =>
        have hn : n ≠ entryName crc x.model x.lora := by
          rintro rfl
          rw [hcn] at h; cases h
        cases x.crash with
        | none => rw [merged_miss hcn]; simp only; rw [Function.update_of_ne hn]; exact h
        | some k => rw [merged_crash hcn]; simp only; rw [Function.update_of_ne hn]; exact h
  intro cache'
  have h1 : cache' (entryName crc m l) = some ⟨m, l, dtype, files.take k⟩ := by
    apply keep
    rw [merged_crash hnew]
    simp
  exact ⟨merged_hit h1, h1⟩

/-- **C64, refuted** The data type asked for does not matter once there is an entry. -/
theorem C64_dtype_ignored (crc : Str → Nat) (files : List String) (m l : ModelPath) (dtype dtype' : Option Str) :
    let cache := (merged crc files (fun _ => none) m l dtype none).1
    (merged crc files cache m l dtype' none).1 (entryName crc m l) = some ⟨m, l, dtype, files⟩ := by
  intro cache
  have h : cache (entryName crc m l) = some ⟨m, l, dtype, files⟩ := by
    simp [cache, merged]
  rw [merged_hit h]
  exact h

theorem basename_slash (a b : Str) (hb : '/' ∉ b) : basename (a ++ '/' :: b) = b := by
  unfold basename
  have hall : ∀ x ∈ b.reverse, (x != '/') = true := by
    intro x hx
    simp only [List.mem_reverse] at hx
    simp only [bne_iff_ne]
    rintro rfl
    exact hb hx
  rw [List.reverse_append, List.reverse_cons, List.append_assoc, List.takeWhile_append_of_pos hall]
  simp

/-- **C64, refuted** With any checksum of 32 bits there are different models (of the same base name) sharing an entry, so that one gets the
other's weights. -/
theorem C64_collision (crc : Str → Nat) (hcrc : ∀ s, crc s < 2 ^ 32) (l : ModelPath) (name : Str) (hname : '/' ∉ name) :
    ∃ m m' : ModelPath, m ≠ m' ∧ basename m.path = name ∧ basename m'.path = name ∧ entryName crc m l = entryName crc m' l := by
  let f : Nat → Fin (2 ^ 32) := fun n => ⟨crc (List.replicate n 'x' ++ '/' :: name), hcrc _⟩
  obtain ⟨a, b, hab, h⟩ := Finite.exists_ne_map_eq_of_infinite f
  have hcrc' : crc (List.replicate a 'x' ++ '/' :: name) = crc (List.replicate b 'x' ++ '/' :: name) := by
    simpa [f] using h
  refine ⟨⟨List.replicate a 'x' ++ '/' :: name, none⟩, ⟨List.replicate b 'x' ++ '/' :: name, none⟩, ?_, basename_slash _ _ hname,
    basename_slash _ _ hname, ?_⟩
  · intro he
    simp only [ModelPath.mk.injEq, and_true] at he
    have := congrArg List.length he
    simp at this
    exact hab this
  · unfold entryName uniqueId
    have h1 : (⟨List.replicate a 'x' ++ '/' :: name, none⟩ : ModelPath).print = List.replicate a 'x' ++ '/' :: name := rfl
    have h2 : (⟨List.replicate b 'x' ++ '/' :: name, none⟩ : ModelPath).print = List.replicate b 'x' ++ '/' :: name := rfl
    rw [h1, h2, hcrc', basename_slash _ _ hname, basename_slash _ _ hname]

/-- Two different models, two entries. -/
example : entryName (fun s => s.length) ⟨"org/a".toList, none⟩ ⟨"l".toList, none⟩ = "a_5_l_1".toList ∧
    entryName (fun s => s.length) ⟨"org/b".toList, some "v".toList⟩ ⟨"l".toList, none⟩ = "b_7_l_1".toList := by decide

end Verif.Resume
