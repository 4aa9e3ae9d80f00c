import Verif.Model.Output
import Verif.Props.Plan
import Verif.Props.ModelRef
import Verif.Props.Vocab

/-! # C91, C92, C93: the directory of a merged model -/

namespace Verif.Output

open Verif.ModelRef
open Verif.Config (MergeConfig OutModule OutSlice truthy)
open Verif.Plan

/-! ## C91: configuration -/

/-- Neither key lies above or below the other. -/
def Unrelated (k k' : Str) : Prop := ¬ splitChar '.' k <+: splitChar '.' k' ∧ ¬ splitChar '.' k' <+: splitChar '.' k

/-- There is an object in the configuration in which the last part of the key can be set. -/
def Settable (c : Cfg Val) (k : Str) : Prop := ∃ attrs, getParts c (splitChar '.' k).dropLast = .ok (.obj attrs)

theorem attrGet_attrSet {V : Type} (attrs : List (Str × Cfg V)) (k k' : Str) (v : Cfg V) :
    attrGet (attrSet attrs k v) k' = if k' = k then some v else attrGet attrs k' := by
  exact attrGet_set attrs k k' v

theorem setParts_keeps (v : Cfg Val) (ps : List Str) : ∀ (c c' : Cfg Val), setParts v c ps = .ok c' →
    ∀ qs, ¬ ps <+: qs → (∃ attrs, getParts c qs = .ok (.obj attrs)) → ∃ attrs, getParts c' qs = .ok (.obj attrs) := by
  induction ps with
  | nil => intro c c' _ qs h; exact absurd List.nil_prefix h
  | cons p ps ih =>
    intro c c' h qs hq hobj
    cases c with
    | leaf x => cases ps <;> simp [setParts] at h
    | obj attrs =>
      cases ps with
      | nil =>
        simp only [setParts, Except.ok.injEq] at h
        subst h
        cases qs with
        | nil => exact ⟨_, rfl⟩
        | cons q qs =>
          have hne : q ≠ p := by
            rintro rfl
            exact hq ⟨qs, rfl⟩
          simp only [getParts, attrGet_attrSet, if_neg hne] at hobj ⊢
          exact hobj
      | cons p' ps =>
        simp only [setParts] at h
        cases ha : attrGet attrs p with
        | none => simp [ha] at h
        | some sub =>
          simp only [ha] at h
          cases hs : setParts v sub (p' :: ps) with
          | error e => simp [hs] at h
          | ok sub' =>
            simp only [hs, Except.ok.injEq] at h
            subst h
            cases qs with
            | nil => exact ⟨_, rfl⟩
            | cons q qs =>
              simp only [getParts, attrGet_attrSet] at hobj ⊢
              by_cases hqp : q = p
              · subst hqp
                simp only [if_true, ha] at hobj ⊢
                refine ih sub sub' hs qs ?_ hobj
                rintro ⟨t, ht⟩
                exact hq ⟨t, by rw [← ht]; rfl⟩
              · simpa [hqp] using hobj

theorem trySet_settable (c : Cfg Val) (k k' : Str) (n : Int) (hu : Unrelated k k') (h : Settable c k') : Settable (trySet c k n) k' := by
  unfold trySet
  split
  · rename_i c' hc
    refine setParts_keeps _ _ c c' hc _ ?_ h
    intro hp
    exact hu.1 (hp.trans (List.dropLast_prefix _))
  · exact h

theorem trySet_get (c : Cfg Val) (k : Str) (n : Int) (h : Settable c k) : getConfigValue (trySet c k n) k = .ok (.leaf (.int n)) := by
  obtain ⟨c', hc⟩ := (C25_set_succeeds_iff c (.leaf (.int n)) k).2 h
  unfold trySet
  rw [hc]
  exact C25_get_set _ _ _ _ hc

theorem trySet_other (c : Cfg Val) (k k' : Str) (n : Int) (hu : Unrelated k k') :
    getConfigValue (trySet c k n) k' = getConfigValue c k' := by
  unfold trySet
  split
  · rename_i c' hc
    exact C25_others_unchanged c c' _ k k' hc hu.1 hu.2
  · rfl

theorem setLayers_other (keys : String → Option Str) (ls : List (String × Int)) (k' : Str)
    (hu : ∀ m n k, (m, n) ∈ ls → keys m = some k → Unrelated k k') (c : Cfg Val) :
    getConfigValue (setLayers keys ls c) k' = getConfigValue c k' ∧ (Settable c k' → Settable (setLayers keys ls c) k') := by
  induction ls generalizing c with
  | nil => exact ⟨rfl, id⟩
  | cons e ls ih =>
    obtain ⟨m, n⟩ := e
    unfold setLayers
    cases hk : keys m with
    | none => exact ih (fun m n k h => hu m n k (by simp [h])) c
    | some k =>
      have h0 := hu m n k (by simp) hk
      obtain ⟨h1, h2⟩ := ih (fun m n k h => hu m n k (by simp [h])) (trySet c k n)
      exact ⟨by rw [h1, trySet_other _ _ _ _ h0], fun hs => h2 (trySet_settable c k k' n h0 hs)⟩

/-- The dictionary `module_layers` has each module once. -/
theorem setLayers_get (keys : String → Option Str) (ls : List (String × Int)) (hd : (ls.map Prod.fst).Nodup)
    (m : String) (n : Int) (hm : (m, n) ∈ ls) (k : Str) (hk : keys m = some k)
    (hu : ∀ m' n' k', (m', n') ∈ ls → m' ≠ m → keys m' = some k' → Unrelated k' k) (c : Cfg Val) (hs : Settable c k) :
    getConfigValue (setLayers keys ls c) k = .ok (.leaf (.int n)) := by
  induction ls generalizing c with
  | nil => simp at hm
  | cons e ls ih =>
    obtain ⟨m0, n0⟩ := e
    simp only [List.map_cons, List.nodup_cons] at hd
    unfold setLayers
    rcases List.mem_cons.1 hm with h0 | h0
    · injection h0 with h1 h2
      subst h1 h2
      rw [hk]
      simp only
      rw [(setLayers_other keys ls k ?_ _).1]
      · exact trySet_get c k n hs
      · intro m' n' k' hm' hk'
        refine hu m' n' k' (by simp [hm']) ?_ hk'
        rintro rfl
        exact hd.1 (List.mem_map.2 ⟨(m', n'), hm', rfl⟩)
    · have hne : m0 ≠ m := by
        rintro rfl
        exact hd.1 (List.mem_map.2 ⟨(m0, n), h0, rfl⟩)
      cases hk0 : keys m0 with
      | none => exact ih hd.2 h0 (fun m' n' k' h => hu m' n' k' (by simp [h])) c hs
      | some k0 =>
        exact ih hd.2 h0 (fun m' n' k' h => hu m' n' k' (by simp [h])) _
          (trySet_settable c k0 k n0 (hu m0 n0 k0 (by simp) hne hk0) hs)

section
variable {K : Type}

theorem moduleLayers_mem {c : MergeConfig K} {ms : List String} {ls : List (String × Int)} (h : moduleLayers c ms = some ls) :
    (∀ m n, (m, n) ∈ ls ↔ m ∈ ms ∧ outLayerCount c m = some (some n)) ∧ (ls.map Prod.fst).Sublist ms := by
  induction ms generalizing ls with
  | nil => simp only [moduleLayers, Option.some.injEq] at h; subst h; simp
  | cons m0 ms ih =>
    unfold moduleLayers at h
    cases hr : moduleLayers c ms with
    | none => rw [hr] at h; cases ho : outLayerCount c m0 <;> simp [ho] at h
    | some rest =>
      rw [hr] at h
      obtain ⟨i1, i2⟩ := ih hr
      cases ho : outLayerCount c m0 with
      | none =>
        simp only [ho, Option.some.injEq] at h
        subst h
        refine ⟨?_, i2.cons _⟩
        intro m n
        rw [i1]
        constructor
        · rintro ⟨h1, h2⟩; exact ⟨by simp [h1], h2⟩
        · rintro ⟨h1, h2⟩
          rcases List.mem_cons.1 h1 with rfl | h1
          · rw [ho] at h2; cases h2
          · exact ⟨h1, h2⟩
      | some o =>
        cases o with
        | none => simp [ho] at h
        | some n0 =>
          simp only [ho, Option.some.injEq] at h
          subst h
          refine ⟨?_, List.Sublist.cons_cons m0 i2⟩
          intro m n
          rw [List.mem_cons, i1]
          constructor
          · rintro (h1 | ⟨h1, h2⟩)
            · injection h1 with h1 h2
              subst h1 h2
              exact ⟨by simp, ho⟩
            · exact ⟨by simp [h1], h2⟩
          · rintro ⟨h1, h2⟩
            rcases List.mem_cons.1 h1 with rfl | h1
            · left
              rw [ho] at h2
              simp only [Option.some.injEq] at h2
              rw [h2]
            · exact .inr ⟨h1, h2⟩

theorem dtype_key : splitChar '.' "torch_dtype".toList = ["torch_dtype".toList] := by decide

theorem setDtype_other (od dt : Option Str) (c : Cfg Val) (k : Str) (hu : Unrelated "torch_dtype".toList k) :
    getConfigValue (setDtype od dt c) k = getConfigValue c k ∧ (Settable c k → Settable (setDtype od dt c) k) := by
  have key : ∀ d : Str, getConfigValue (match c with
      | .obj attrs => .obj (attrSet attrs "torch_dtype".toList (.leaf (.str d)))
      | .leaf v => .leaf v : Cfg Val) k = getConfigValue c k ∧
      (Settable c k → Settable (match c with
      | .obj attrs => .obj (attrSet attrs "torch_dtype".toList (.leaf (.str d)))
      | .leaf v => .leaf v : Cfg Val) k) := by
    intro d
    cases c with
    | leaf v => exact ⟨rfl, id⟩
    | obj attrs =>
      have hset : setConfigValue (.obj attrs) "torch_dtype".toList (.leaf (.str d) : Cfg Val) =
          .ok (.obj (attrSet attrs "torch_dtype".toList (.leaf (.str d)))) := by
        unfold setConfigValue
        rw [dtype_key]
        rfl
      refine ⟨C25_others_unchanged _ _ _ _ k hset hu.1 hu.2, fun hs => setParts_keeps _ _ _ _ hset _ ?_ hs⟩
      intro hp
      exact hu.1 (hp.trans (List.dropLast_prefix _))
  unfold setDtype
  simp only
  split
  · exact key _
  · exact key _
  · exact ⟨rfl, id⟩

/-- The slices the configuration gives for a module. -/
def SlicesFor (c : MergeConfig K) (m : String) (slices : List (OutSlice K)) : Prop :=
  slices ≠ [] ∧ ((∃ d : OutModule K, (c.modules.getD []).find? (fun e => decide (e.1 = m)) = some (m, d) ∧ d.slices = some slices) ∨
    ((c.modules.getD []).find? (fun e => decide (e.1 = m)) = none ∧ c.slices = some slices))

theorem slicesFor_count {c : MergeConfig K} {m : String} {slices : List (OutSlice K)} (h : SlicesFor c m slices) :
    outLayerCount c m = some (countLayers slices) := by
  obtain ⟨hne, h⟩ := h
  have ht : truthy (some slices) = true := by
    cases slices with
    | nil => exact absurd rfl hne
    | cons a b => rfl
  unfold outLayerCount
  rcases h with ⟨d, h1, h2⟩ | ⟨h1, h2⟩
  · rw [h1]; simp [h2, ht]
  · rw [h1]; simp [h2, ht]

variable [Field K] [LinearOrder K] [FloorRing K]

/-- The configuration written says how many layers were planned for a module, if the architecture names a place for that number that
exists in the configuration taken over, apart from the places of other numbers. -/
theorem C91_layers (env : Env K) (c : MergeConfig K) (od dt : Option Str) (modules : List String) (hnd : modules.Nodup)
    (keys : String → Option Str) (source res : Cfg Val) (h : outConfig c od dt modules keys source = some res)
    (m : String) (hm : m ∈ modules) (k : Str) (hk : keys m = some k)
    (hsep : ∀ m' ∈ modules, m' ≠ m → ∀ k', keys m' = some k' → Unrelated k' k)
    (hdt : Unrelated "torch_dtype".toList k) (hset : Settable source k)
    (slices : List (OutSlice K)) (hs : SlicesFor c m slices) (mp : ModulePlan K)
    (hp : planModule env c m { slices := some slices } = .ok mp)
    (hfwd : ∀ s ∈ slices, ∀ src ∈ s.sources, src.start ≤ src.stop) (vocabKey : Option Str) (tokens : Nat) (pad : Option Nat)
    (hv : Unrelated ((vocabKey.filter (· ≠ [])).getD "vocab_size".toList) k) :
    getConfigValue res k = .ok (.leaf (.int mp.layers.length)) ∧
    getConfigValue (setVocab vocabKey tokens pad res) k = .ok (.leaf (.int mp.layers.length)) := by
  have hc := C27_config_count_partial env c m _ mp hp slices rfl hfwd
  unfold outConfig at h
  simp only [Option.map_eq_some_iff] at h
  obtain ⟨ls, hls, rfl⟩ := h
  obtain ⟨hmem, hsub⟩ := moduleLayers_mem hls
  have hg : getConfigValue (setLayers keys ls (setDtype od dt source)) k = .ok (.leaf (.int mp.layers.length)) := by
    refine setLayers_get keys ls (hsub.nodup hnd) m _ ((hmem m _).2 ⟨hm, ?_⟩) k hk ?_ _ ((setDtype_other od dt source k hdt).2 hset)
    · rw [slicesFor_count hs, hc]
    · intro m' n' k' h1 h2 h3
      exact hsep m' ((hmem m' n').1 h1).1 h2 k' h3
  refine ⟨hg, ?_⟩
  unfold setVocab
  rw [trySet_other _ _ _ _ hv, hg]

omit [Field K] [LinearOrder K] [FloorRing K] in
/-- Everything in the configuration taken over other than the data type, the layer counts and the vocabulary size stays. -/
theorem C91_unchanged (c : MergeConfig K) (od dt : Option Str) (modules : List String)
    (keys : String → Option Str) (source res : Cfg Val) (h : outConfig c od dt modules keys source = some res)
    (k : Str) (hdt : Unrelated "torch_dtype".toList k) (hsep : ∀ m ∈ modules, ∀ k', keys m = some k' → Unrelated k' k)
    (vocabKey : Option Str) (tokens : Nat) (pad : Option Nat)
    (hv : Unrelated ((vocabKey.filter (· ≠ [])).getD "vocab_size".toList) k) :
    getConfigValue res k = getConfigValue source k ∧
    getConfigValue (setVocab vocabKey tokens pad res) k = getConfigValue source k := by
  unfold outConfig at h
  simp only [Option.map_eq_some_iff] at h
  obtain ⟨ls, hls, rfl⟩ := h
  obtain ⟨hmem, _⟩ := moduleLayers_mem hls
  have hg : getConfigValue (setLayers keys ls (setDtype od dt source)) k = getConfigValue source k := by
    rw [(setLayers_other keys ls k (fun m n k' h1 h2 => hsep m ((hmem m n).1 h1).1 k' h2) _).1, (setDtype_other od dt source k hdt).1]
  refine ⟨hg, ?_⟩
  unfold setVocab
  rw [trySet_other _ _ _ _ hv, hg]

/-- With a new tokenizer, the vocabulary size written is the number of rows of the merged embeddings. -/
theorem C91_vocab (vocabKey : Option Str) (tokens : Nat) (pad : Option Nat) (res : Cfg Val)
    (hs : Settable res ((vocabKey.filter (· ≠ [])).getD "vocab_size".toList)) :
    getConfigValue (setVocab vocabKey tokens pad res) ((vocabKey.filter (· ≠ [])).getD "vocab_size".toList) =
      .ok (.leaf (.int (Verif.Tok.padded tokens pad))) := by
  unfold setVocab
  rw [trySet_get _ _ _ hs, (Verif.Tok.C53_padding tokens pad).1]

omit [Field K] [LinearOrder K] [FloorRing K] in
/-- The data type written is `out_dtype`, otherwise `dtype`, otherwise that of the configuration taken over. -/
theorem C91_dtype (c : MergeConfig K) (od dt : Option Str) (modules : List String) (keys : String → Option Str)
    (attrs : List (Str × Cfg Val)) (res : Cfg Val) (h : outConfig c od dt modules keys (.obj attrs) = some res)
    (hsep : ∀ m ∈ modules, ∀ k', keys m = some k' → Unrelated k' "torch_dtype".toList)
    (hod : od ≠ some []) (hdt : dt ≠ some []) :
    getConfigValue res "torch_dtype".toList =
      match od, dt with
      | some d, _ => .ok (.leaf (.str d))
      | none, some d => .ok (.leaf (.str d))
      | none, none => getConfigValue (.obj attrs) "torch_dtype".toList := by
  unfold outConfig at h
  simp only [Option.map_eq_some_iff] at h
  obtain ⟨ls, hls, rfl⟩ := h
  obtain ⟨hmem, _⟩ := moduleLayers_mem hls
  rw [(setLayers_other keys ls _ (fun m n k' h1 h2 => hsep m ((hmem m n).1 h1).1 k' h2) _).1]
  have hg : ∀ d, getConfigValue (.obj (attrSet attrs "torch_dtype".toList (.leaf (.str d))) : Cfg Val) "torch_dtype".toList =
      .ok (.leaf (.str d)) := by
    intro d
    unfold getConfigValue
    rw [dtype_key]
    simp [getParts, attrGet_attrSet]
  unfold setDtype
  cases od with
  | some d =>
    have : d ≠ [] := fun h => hod (by rw [h])
    simp only [Option.filter_some, decide_eq_true this, if_true, ne_eq]
    simpa using hg d
  | none =>
    cases dt with
    | some d =>
      have : d ≠ [] := fun h => hdt (by rw [h])
      simp only [Option.filter_none, Option.filter_some, decide_eq_true this, if_true, ne_eq]
      simpa using hg d
    | none => simp

omit [Field K] [LinearOrder K] [FloorRing K] in
/-- If the architecture does not name a place for the number of layers — no inferred one does — the configuration keeps the old number,
however many layers the merged model has. -/
theorem C91_no_key (c : MergeConfig K) (od dt : Option Str) (modules : List String) (source res : Cfg Val)
    (h : outConfig c od dt modules (fun _ => none) source = some res) (k : Str) (hdt : Unrelated "torch_dtype".toList k) :
    getConfigValue res k = getConfigValue source k := by
  unfold outConfig at h
  simp only [Option.map_eq_some_iff] at h
  obtain ⟨ls, _, rfl⟩ := h
  rw [(setLayers_other (fun _ => none) ls k (fun _ _ _ _ h => by cases h) _).1, (setDtype_other od dt source k hdt).1]

omit [Field K] [LinearOrder K] [FloorRing K] in
/-- With a base model given, which configuration is taken over does not depend on the order of a set; without one it does. -/
theorem C91_donor (c : MergeConfig K) (b : Ref) (h : c.baseModel = some b) (order : List Ref) : donor c order = some b := by
  unfold donor
  rw [h]

end

/-- A configuration with nested sections. -/
def someSource : Cfg Val :=
  .obj [("text".toList, .obj [("layers".toList, .leaf (.int 2)), ("vocab".toList, .leaf (.int 9))]), ("torch_dtype".toList, .leaf (.str "f".toList)),
    ("act".toList, .leaf (.other 3))]

/-- Three layers from slices of a model. -/
def someConfig : MergeConfig ℚ :=
  { slices := some [⟨[⟨refA, 0, 2, []⟩], none, []⟩, ⟨[⟨refA, 1, 2, []⟩], none, []⟩] }

-- the hypotheses of the theorems above hold for it
example : ∃ res mp, outConfig someConfig (some "bf".toList) none ["default"] (fun _ => some "text.layers".toList) someSource = some res ∧
    planModule sampleEnv someConfig "default" { slices := some [⟨[⟨refA, 0, 2, []⟩], none, []⟩, ⟨[⟨refA, 1, 2, []⟩], none, []⟩] } = .ok mp ∧
    SlicesFor someConfig "default" [⟨[⟨refA, 0, 2, []⟩], none, []⟩, ⟨[⟨refA, 1, 2, []⟩], none, []⟩] ∧
    Settable someSource "text.layers".toList ∧ Unrelated "torch_dtype".toList "text.layers".toList ∧
    Unrelated "text.vocab".toList "text.layers".toList ∧ Unrelated "text.layers".toList "act".toList ∧
    Settable res "text.vocab".toList ∧ mp.layers.length = 3 := by
  refine ⟨_, _, rfl, rfl, ⟨by simp, .inr ⟨rfl, rfl⟩⟩, ⟨_, rfl⟩, by unfold Unrelated; decide, by unfold Unrelated; decide,
    by unfold Unrelated; decide, ⟨_, rfl⟩, rfl⟩

/-- An architecture without a place for the number of layers: three layers are written, and a configuration that says two. -/
theorem C91_wrong_count : ∃ (c : MergeConfig ℚ) (mp : ModulePlan ℚ) (source res : Cfg Val) (slices : List (OutSlice ℚ)),
    SlicesFor c "default" slices ∧ planModule sampleEnv c "default" { slices := some slices } = .ok mp ∧ mp.layers.length = 3 ∧
    outConfig c none none ["default"] (fun _ => none) source = some res ∧
    getConfigValue res "text.layers".toList = .ok (.leaf (.int 2)) :=
  ⟨someConfig, _, someSource, _, _, ⟨by simp, .inr ⟨rfl, rfl⟩⟩, rfl, rfl, rfl, rfl⟩

/-- Without a base model, which configuration is taken over depends on the order of a set. -/
theorem C91_donor_order : ∃ (c : MergeConfig ℚ) (order order' : List Ref), order.Perm order' ∧ donor c order ≠ donor c order' :=
  ⟨{}, [refA, refB], [refB, refA], List.Perm.swap _ _ _, by decide⟩

/-! ## C92: chat template -/

theorem foldl_better (l todo : List Str) (best : Option Str) :
    (todo.foldl (better l) best = none ↔ todo = [] ∧ best = none) ∧
    ∀ t, todo.foldl (better l) best = some t →
      ((best = some t ∧ ∀ x ∈ todo, l.count x ≤ l.count t) ∨
       ∃ pre post, todo = pre ++ t :: post ∧ (∀ b, best = some b → l.count b < l.count t) ∧ (∀ x ∈ pre, l.count x < l.count t) ∧
         ∀ x ∈ post, l.count x ≤ l.count t) := by
  induction todo generalizing best with
  | nil => exact ⟨by simp, fun t h => .inl ⟨h, by simp⟩⟩
  | cons a todo ih =>
    simp only [List.foldl_cons]
    obtain ⟨i1, i2⟩ := ih (better l best a)
    constructor
    · rw [i1]
      constructor
      · rintro ⟨_, h⟩
        unfold better at h
        split at h
        · cases h
        · split at h <;> cases h
      · rintro ⟨h, _⟩; cases h
    · intro t ht
      rcases i2 t ht with ⟨h1, h2⟩ | ⟨pre, post, h1, h2, h3, h4⟩
      · unfold better at h1
        split at h1
        · injection h1 with h1
          subst h1
          exact .inr ⟨[], todo, rfl, by simp, by simp, h2⟩
        · rename_i b
          split at h1
          · rename_i hlt
            injection h1 with h1
            subst h1
            refine .inr ⟨[], todo, rfl, ?_, by simp, h2⟩
            intro b' hb'
            injection hb' with hb'
            subst hb'
            exact hlt
          · rename_i hnl
            refine .inl ⟨h1, ?_⟩
            injection h1 with h1
            subst h1
            intro x hx
            rcases List.mem_cons.1 hx with rfl | hx
            · omega
            · exact h2 x hx
      · right
        refine ⟨a :: pre, post, by rw [h1]; rfl, ?_, ?_, h4⟩
        · intro b hb
          subst hb
          unfold better at h2
          simp only at h2
          split at h2
          · rename_i hlt
            have := h2 a rfl
            omega
          · exact h2 b rfl
        · intro x hx
          rcases List.mem_cons.1 hx with rfl | hx
          · unfold better at h2
            split at h2
            · exact h2 _ rfl
            · rename_i b
              split at h2
              · exact h2 _ rfl
              · have := h2 _ rfl
                omega
          · exact h3 x hx

/-- "auto" takes a template that no other one is more frequent than among the models; only if no model has one does the tokenizer keep its
own.  Of equally frequent ones it is the one met first. -/
theorem C92_auto (loaded : List Loaded) (files : Str → Option Str) :
    (loaded.filterMap Loaded.template = [] ∧ chatTemplate (some "auto".toList) loaded files = .ok none) ∨
    ∃ t ∈ loaded.filterMap Loaded.template, chatTemplate (some "auto".toList) loaded files = .ok (some t) ∧
      (∀ t', (loaded.filterMap Loaded.template).count t' ≤ (loaded.filterMap Loaded.template).count t) ∧
      ∃ pre post, (loaded.filterMap Loaded.template).eraseDups = pre ++ t :: post ∧
        ∀ t' ∈ pre, (loaded.filterMap Loaded.template).count t' < (loaded.filterMap Loaded.template).count t := by
  have hc : chatTemplate (some "auto".toList) loaded files = .ok (mostCommon (loaded.filterMap Loaded.template)) := rfl
  rw [hc]
  generalize loaded.filterMap Loaded.template = l
  unfold mostCommon
  obtain ⟨h1, h2⟩ := foldl_better l l.eraseDups none
  cases hr : l.eraseDups.foldl (better l) none with
  | none =>
    left
    have := (h1.1 hr).1
    refine ⟨?_, rfl⟩
    cases l with
    | nil => rfl
    | cons a l => simp [List.eraseDups_cons] at this
  | some t =>
    right
    rcases h2 t hr with ⟨h3, _⟩ | ⟨pre, post, h3, _, h5, h6⟩
    · cases h3
    · have hmem : ∀ x, x ∈ l → l.count x ≤ l.count t := by
        intro x hx
        have : x ∈ l.eraseDups := List.mem_eraseDups.2 hx
        rw [h3] at this
        rcases List.mem_append.1 this with h | h
        · exact Nat.le_of_lt (h5 x h)
        · rcases List.mem_cons.1 h with rfl | h
          · exact Nat.le_refl _
          · exact h6 x h
      refine ⟨t, ?_, rfl, ?_, pre, post, h3, h5⟩
      · rw [← List.mem_eraseDups, h3]; simp
      · intro t'
        by_cases ht : t' ∈ l
        · exact hmem t' ht
        · rw [List.count_eq_zero.2 ht]; exact Nat.zero_le _

/-- So if one template is more frequent than every other, it is taken in whatever order the models are gone through. -/
theorem C92_plurality (loaded loaded' : List Loaded) (hp : loaded.Perm loaded') (files : Str → Option Str) (t : Str)
    (ht : ∀ t', t' ≠ t → (loaded.filterMap Loaded.template).count t' < (loaded.filterMap Loaded.template).count t)
    (hne : t ∈ loaded.filterMap Loaded.template) :
    chatTemplate (some "auto".toList) loaded' files = .ok (some t) := by
  have hp' := hp.filterMap Loaded.template
  rcases C92_auto loaded' files with ⟨h1, _⟩ | ⟨u, hu, h2, h3, _⟩
  · have := hp'.mem_iff.1 hne
    rw [h1] at this
    simp at this
  · by_cases he : u = t
    · rw [he] at h2; exact h2
    · have h4 := ht u he
      have h5 := h3 t
      rw [hp'.count_eq, hp'.count_eq] at h4
      omega

/-- Whether a model's tokenizer can be loaded or has a template plays no role beyond that. -/
theorem C92_ignores_missing (loaded : List Loaded) (files : Str → Option Str) (requested : Option Str) :
    chatTemplate requested (loaded.filter (fun l => l.template.isSome)) files = chatTemplate requested loaded files := by
  have : (loaded.filter (fun l => l.template.isSome)).filterMap Loaded.template = loaded.filterMap Loaded.template := by
    induction loaded with
    | nil => rfl
    | cons a l ih =>
      cases ha : a.template with
      | none => simp [ha, ih]
      | some t => simp [ha, ih]
  unfold chatTemplate
  rw [this]

/-- A template given otherwise is one that comes with mergekit, or taken literally; it is refused exactly if there is none of that name and it
is too short for a template or has no braces. -/
theorem C92_named (requested : Str) (hne : requested ≠ []) (hauto : requested ≠ "auto".toList) (loaded : List Loaded)
    (files : Str → Option Str) :
    (∀ t, files requested = some t → chatTemplate (some requested) loaded files = .ok (some t)) ∧
    (files requested = none → 20 ≤ requested.length → '{' ∈ requested → chatTemplate (some requested) loaded files = .ok (some requested)) ∧
    (chatTemplate (some requested) loaded files = .error () ↔ files requested = none ∧ (requested.length < 20 ∨ '{' ∉ requested)) := by
  cases requested with
  | nil => exact absurd rfl hne
  | cons c cs =>
    unfold chatTemplate
    simp only [if_neg hauto]
    refine ⟨fun t h => by simp only [h], ?_, ?_⟩
    · intro h h1 h2
      simp only [h]
      rw [if_neg]
      rintro (h3 | h3)
      · omega
      · exact h3 h2
    · cases hf : files (c :: cs) with
      | some t => simp
      | none =>
        simp only [true_and]
        split
        · rename_i h; exact ⟨fun _ => h, fun _ => rfl⟩
        · rename_i h; exact ⟨fun hh => by (cases hh), fun hh => absurd hh h⟩

/-- No template requested: the tokenizer keeps its own. -/
theorem C92_none (loaded : List Loaded) (files : Str → Option Str) :
    chatTemplate none loaded files = .ok none ∧ chatTemplate (some []) loaded files = .ok none := ⟨rfl, rfl⟩

/-- In a tie the result depends on the order of a set. -/
theorem C92_tie_order : ∃ (loaded loaded' : List Loaded) (files : Str → Option Str), loaded.Perm loaded' ∧
    chatTemplate (some "auto".toList) loaded files ≠ chatTemplate (some "auto".toList) loaded' files :=
  ⟨[.one "a".toList, .one "b".toList], [.one "b".toList, .one "a".toList], fun _ => none, List.Perm.swap _ _ _, by decide +kernel⟩

-- two models share a template up to surrounding space
example : chatTemplate (some "auto".toList)
    [.one "{a}".toList, .fails, .one " {b} ".toList, .several [("tool".toList, "{a}".toList), ("default".toList, "{b}".toList)], .absent] (fun _ => none) =
      .ok (some "{b}".toList) := by decide +kernel

example : ∀ t', t' ≠ "b".toList → (([Loaded.one "a".toList, .one "b".toList, .one "b".toList].filterMap Loaded.template).count t' <
    ([Loaded.one "a".toList, .one "b".toList, .one "b".toList].filterMap Loaded.template).count "b".toList) := by
  intro t' h
  have h0 : [Loaded.one "a".toList, .one "b".toList, .one "b".toList].filterMap Loaded.template = [['a'], ['b'], ['b']] := by decide +kernel
  rw [h0]
  have h1 : ¬ (['b'] : Str) = t' := fun hh => h hh.symm
  have h2 : List.count t' [(['a'] : Str), ['b'], ['b']] ≤ 1 := by
    simp only [List.count_cons, List.count_nil, beq_iff_eq, h1, if_false]
    split <;> omega
  have h3 : List.count "b".toList [(['a'] : Str), ['b'], ['b']] = 2 := by decide +kernel
  omega

example : chatTemplate (some "chatml".toList) [] (fun n => if n = "chatml".toList then some "{x}".toList else none) = .ok (some "{x}".toList) ∧
    chatTemplate (some "nonsense".toList) [] (fun _ => none) = .error () := by decide +kernel

/-! ## C93: files -/

/-- A file holds this. -/
def Has (d : Dir) (name : Str) (c : Content) : Prop := (name, c) ∈ d

theorem put_has (d : Dir) (n : Str) (c : Content) : Has (put d n c) n c := by simp [Has, put]

theorem put_keeps (d : Dir) (n m : Str) (c c' : Content) (h : Has d m c') (hne : m ≠ n) : Has (put d n c) m c' := by
  unfold Has put at *
  simp [h, hne]

theorem put_mem {d : Dir} {n m : Str} {c c' : Content} (h : Has (put d n c) m c') : (m = n ∧ c' = c) ∨ (m ≠ n ∧ Has d m c') := by
  unfold Has put at *
  simp only [List.mem_append, List.mem_filter, decide_eq_true_eq, List.mem_singleton, Prod.mk.injEq] at h
  rcases h with ⟨h1, h2⟩ | ⟨h1, h2⟩
  · exact .inr ⟨h2, h1⟩
  · exact .inl ⟨h1, h2⟩

theorem copyFiles_keeps (has files : List Str) (d : Dir) (m : Str) (c : Content) (h : Has d m c) (hm : m ∉ files) :
    Has (copyFiles has files d) m c := by
  unfold copyFiles
  induction files generalizing d with
  | nil => exact h
  | cons f fs ih =>
    simp only [List.mem_cons, not_or] at hm
    simp only [List.foldl_cons]
    refine ih _ ?_ hm.2
    split
    · exact put_keeps _ _ _ _ _ h hm.1
    · exact h

theorem copyFiles_has (has files : List Str) (d : Dir) (f : Str) (h1 : f ∈ files) (h2 : f ∈ has) :
    Has (copyFiles has files d) f .copied := by
  have keep : ∀ (fs : List Str) (d : Dir), Has d f .copied → Has (copyFiles has fs d) f .copied := by
    intro fs
    unfold copyFiles
    induction fs with
    | nil => intro d h; exact h
    | cons g fs ih =>
      intro d h
      simp only [List.foldl_cons]
      refine ih _ ?_
      split
      · by_cases hg : f = g
        · subst hg; exact put_has _ _ _
        · exact put_keeps _ _ _ _ _ h hg
      · exact h
  unfold copyFiles
  induction files generalizing d with
  | nil => simp at h1
  | cons g fs ih =>
    simp only [List.foldl_cons]
    rcases List.mem_cons.1 h1 with rfl | h1
    · rw [if_pos h2]
      exact keep fs _ (put_has _ _ _)
    · exact ih _ h1

theorem copyFiles_mem {has files : List Str} {d : Dir} {m : Str} {c : Content} (h : Has (copyFiles has files d) m c) :
    Has d m c ∨ (c = .copied ∧ m ∈ files ∧ m ∈ has) := by
  unfold copyFiles at h
  induction files generalizing d with
  | nil => exact .inl h
  | cons f fs ih =>
    simp only [List.foldl_cons] at h
    rcases ih h with h1 | ⟨h1, h2, h3⟩
    · split at h1
      · rename_i hf
        rcases put_mem h1 with ⟨h2, h3⟩ | ⟨_, h3⟩
        · exact .inr ⟨h3, by simp [h2], by rw [h2]; exact hf⟩
        · exact .inl h3
      · exact .inl h1
    · exact .inr ⟨h1, by simp [h2], h3⟩

/-- The names a merge writes itself. -/
def ownNames : List Str :=
  ["weights".toList, "config.json".toList, "README.md".toList, "mergekit_config.yml".toList, "tokenizer".toList]

theorem own_not_tokenizerFiles : ∀ n ∈ ownNames, n ∉ tokenizerFiles := by decide +kernel

theorem tokenizerStep_keeps (s : Setup) (d : Dir) (m : Str) (c : Content) (hm : m ∈ ownNames) (hne : m ≠ "tokenizer".toList)
    (h : Has d m c) : Has (tokenizerStep s d).1 m c := by
  unfold tokenizerStep
  split
  · split
    · exact h
    · exact put_keeps _ _ _ _ _ h hne
  · split
    · split
      · exact h
      · rename_i d' hd'
        unfold copyTokenizer at hd'
        split at hd'
        · cases hd'
        · split at hd'
          · injection hd' with hd'
            subst hd'
            exact copyFiles_keeps _ _ _ _ _ h (own_not_tokenizerFiles m hm)
          · split at hd'
            · split at hd'
              · cases hd'
              · injection hd' with hd'
                subst hd'
                exact put_keeps _ _ _ _ _ h hne
            · cases hd'
    · exact h

/-- What is in the output directory before the tokenizer is dealt with. -/
def written (s : Setup) (d : Dir) : Dir :=
  let d := put (put d "weights".toList .weights) "config.json".toList .config
  if s.writeCard then put (put d "README.md".toList .card) "mergekit_config.yml".toList .mergeConfig else d

theorem written_has (s : Setup) (d : Dir) : Has (written s d) "weights".toList .weights ∧ Has (written s d) "config.json".toList .config ∧
    (s.writeCard = true → Has (written s d) "README.md".toList .card ∧ Has (written s d) "mergekit_config.yml".toList .mergeConfig) := by
  unfold written
  simp only
  split
  · refine ⟨?_, ?_, fun _ => ⟨?_, ?_⟩⟩
    · exact put_keeps _ _ _ _ _ (put_keeps _ _ _ _ _ (put_keeps _ _ _ _ _ (put_has _ _ _) (by decide)) (by decide)) (by decide)
    · exact put_keeps _ _ _ _ _ (put_keeps _ _ _ _ _ (put_has _ _ _) (by decide)) (by decide)
    · exact put_keeps _ _ _ _ _ (put_has _ _ _) (by decide)
    · exact put_has _ _ _
  · rename_i h
    refine ⟨put_keeps _ _ _ _ _ (put_has _ _ _) (by decide), put_has _ _ _, fun hc => absurd hc h⟩

theorem finish_eq (s : Setup) (d : Dir) : finish s d =
    match tokenizerStep s (written s d) with
    | (d, false) => (d, false)
    | (d, true) =>
      match s.donorFiles with
      | none => (d, false)
      | some has => (copyFiles has s.tagalong d, true) := rfl

/-- A merge that returns has written the checkpoint, its configuration, the model card and configuration of the merge if wanted, and every
file the architecture asks to be taken along that the donor has; provided those do not have one of the names used for the former. -/
theorem C93_complete (s : Setup) (d d' : Dir) (h : finish s d = (d', true)) (htag : ∀ f ∈ s.tagalong, f ∉ ownNames) :
    Has d' "weights".toList .weights ∧ Has d' "config.json".toList .config ∧
    (s.writeCard = true → Has d' "README.md".toList .card ∧ Has d' "mergekit_config.yml".toList .mergeConfig) ∧
    ∃ has, s.donorFiles = some has ∧ ∀ f ∈ s.tagalong, f ∈ has → Has d' f .copied := by
  rw [finish_eq] at h
  have hw := written_has s d
  generalize written s d = w at h hw
  have hk : ∀ m c, m ∈ ownNames → m ≠ "tokenizer".toList → Has w m c → Has (tokenizerStep s w).1 m c :=
    fun m c h1 h2 h3 => tokenizerStep_keeps s w m c h1 h2 h3
  generalize tokenizerStep s w = r at h hk
  obtain ⟨d1, b⟩ := r
  cases b with
  | false => simp at h
  | true =>
    simp only at h hk
    cases hdf : s.donorFiles with
    | none => simp [hdf] at h
    | some has =>
      simp only [hdf, Prod.mk.injEq, and_true] at h
      subst h
      have hf : ∀ m c, m ∈ ownNames → m ≠ "tokenizer".toList → Has w m c → Has (copyFiles has s.tagalong d1) m c :=
        fun m c h1 h2 h3 => copyFiles_keeps _ _ _ _ _ (hk m c h1 h2 h3) (fun hm => htag m hm h1)
      refine ⟨hf _ _ (by decide) (by decide) hw.1, hf _ _ (by decide) (by decide) hw.2.1, fun hc => ⟨?_, ?_⟩, has, rfl, ?_⟩
      · exact hf _ _ (by decide) (by decide) (hw.2.2 hc).1
      · exact hf _ _ (by decide) (by decide) (hw.2.2 hc).2
      · intro f h1 h2
        exact copyFiles_has _ _ _ _ h1 h2

/-- When it has built a tokenizer, it is saved with the chat template asked for. -/
theorem C93_new_tokenizer (s : Setup) (d d' : Dir) (h : finish s d = (d', true)) (hn : s.newTokenizer = true)
    (htag : ∀ f ∈ s.tagalong, f ∉ ownNames) : ∃ t, s.template = .ok t ∧ Has d' "tokenizer".toList (.newTokenizer t) := by
  rw [finish_eq] at h
  unfold tokenizerStep at h
  rw [if_pos hn] at h
  cases ht : s.template with
  | error e => simp [ht] at h
  | ok t =>
    simp only [ht] at h
    cases hdf : s.donorFiles with
    | none => simp [hdf] at h
    | some has =>
      simp only [hdf, Prod.mk.injEq, and_true] at h
      subst h
      exact ⟨t, rfl, copyFiles_keeps _ _ _ _ _ (put_has _ _ _) (fun hm => htag _ hm (by decide))⟩

/-- The files that make up a tokenizer on disk, with what is kept beside it. -/
def filesOfTokenizer : List String :=
  ["tokenizer_config.json", "special_tokens_map.json", "tokenizer.json", "tokenizer.model", "added_tokens.json", "merges.txt",
   "chat_template.jinja", "chat_template.json", "generation_config.json", "video_preprocessor_config.json"]

theorem files_copied : ∀ f ∈ filesOfTokenizer, f.toList ∈ tokenizerFiles := by decide +kernel

/-- Otherwise, if it is to be copied and the donor has its files, these are copied unchanged; with a chat template asked for, the donor's
tokenizer is saved with it. -/
theorem C93_copied_tokenizer_partial (s : Setup) (d d' : Dir) (h : finish s d = (d', true)) (hn : s.newTokenizer = false)
    (hc : s.copyTokenizer = true) (has : List Str) (hdf : s.donorFiles = some has) (htag : ∀ f ∈ s.tagalong, f ∉ ownNames) :
    (s.templateGiven = false → "tokenizer_config.json".toList ∈ has → ("tokenizer.json".toList ∈ has ∨ "tokenizer.model".toList ∈ has) →
      ∀ f ∈ filesOfTokenizer, f.toList ∈ has → Has d' f.toList .copied) ∧
    (s.templateGiven = true → s.donorTokenizerLoads = true → ∀ t, s.template = .ok t → Has d' "tokenizer".toList (.donorTokenizer t)) := by
  rw [finish_eq] at h
  unfold tokenizerStep at h
  rw [if_neg (by simp [hn]), if_pos hc] at h
  unfold copyTokenizer at h
  simp only [hdf] at h
  constructor
  · intro h1 h2 h3 f hf hh
    have hf := files_copied f hf
    rw [if_pos (by
      rw [h1]
      simp only [Bool.not_false, Bool.true_and, Bool.and_eq_true, Bool.or_eq_true, decide_eq_true_eq]
      exact ⟨h2, h3⟩)] at h
    simp only [Prod.mk.injEq, and_true] at h
    subst h
    by_cases hft : f.toList ∈ s.tagalong
    · exact copyFiles_has _ _ _ _ hft hh
    · exact copyFiles_keeps _ _ _ _ _ (copyFiles_has _ _ _ _ hf hh) hft
  · intro h1 h2 t ht
    rw [if_neg (by rw [h1]; simp only [Bool.not_true, Bool.false_and]; simp), if_pos h2, ht] at h
    simp only [Prod.mk.injEq, and_true] at h
    subst h
    exact copyFiles_keeps _ _ _ _ _ (put_has _ _ _) (fun hm => htag _ hm (by decide))

/-- That the donor's tokenizer cannot be loaded does not fail the merge. -/
theorem C93_tolerates (s : Setup) (d : Dir) (hn : s.newTokenizer = false) (has : List Str) (hdf : s.donorFiles = some has) :
    (finish s d).2 = true := by
  rw [finish_eq]
  unfold tokenizerStep
  rw [if_neg (by simp [hn])]
  split
  · rename_i d1 hr
    exfalso
    split at hr
    · split at hr <;> simp at hr
    · simp at hr
  · rw [hdf]

/-- But that no local copy of the donor is found does, even if nothing is to be taken from it. -/
theorem C93_donor_required (s : Setup) (d : Dir) (hdf : s.donorFiles = none) : (finish s d).2 = false := by
  rw [finish_eq]
  split
  · rfl
  · rw [hdf]

/-- A chat template that is refused goes unnoticed when the tokenizer is copied: the merge succeeds, and writes no tokenizer at all (unless
the architecture takes along files of one). -/
theorem C93_template_ignored (s : Setup) (hn : s.newTokenizer = false) (hg : s.templateGiven = true)
    (ht : s.template = .error ()) (has : List Str) (hdf : s.donorFiles = some has) :
    (finish s []).2 = true ∧ ∀ f c, Has (finish s []).1 f c →
      f ∈ ["weights".toList, "config.json".toList, "README.md".toList, "mergekit_config.yml".toList] ∨ f ∈ s.tagalong := by
  refine ⟨C93_tolerates s [] hn has hdf, ?_⟩
  intro f c h
  rw [finish_eq] at h
  unfold tokenizerStep at h
  rw [if_neg (by simp [hn])] at h
  have hct : copyTokenizer s (written s []) = none := by
    unfold copyTokenizer
    simp [hdf, hg, ht]
  simp only [hct, ite_self, hdf] at h
  rcases copyFiles_mem h with h | ⟨_, h, _⟩
  · left
    unfold written at h
    simp only at h
    simp only [List.mem_cons, List.not_mem_nil, or_false]
    split at h
    · rcases put_mem h with ⟨h, _⟩ | ⟨_, h⟩
      · exact .inr (.inr (.inr h))
      · rcases put_mem h with ⟨h, _⟩ | ⟨_, h⟩
        · exact .inr (.inr (.inl h))
        · rcases put_mem h with ⟨h, _⟩ | ⟨_, h⟩
          · exact .inr (.inl h)
          · rcases put_mem h with ⟨h, _⟩ | ⟨_, h⟩
            · exact .inl h
            · simp [Has] at h
    · rcases put_mem h with ⟨h, _⟩ | ⟨_, h⟩
      · exact .inr (.inl h)
      · rcases put_mem h with ⟨h, _⟩ | ⟨_, h⟩
        · exact .inl h
        · simp [Has] at h
  · exact .inr h

/-- With a new tokenizer it fails the merge, but only after the checkpoint has been written. -/
theorem C93_template_late (s : Setup) (d : Dir) (hn : s.newTokenizer = true) (ht : s.template = .error ()) :
    (finish s d).2 = false ∧ Has (finish s d).1 "weights".toList .weights ∧ Has (finish s d).1 "config.json".toList .config := by
  rw [finish_eq]
  unfold tokenizerStep
  simp only [hn, if_true, ht]
  exact ⟨trivial, (written_has s d).1, (written_has s d).2.1⟩

/-- A run with a card, a copied tokenizer and a file to take along. -/
def someSetup : Setup :=
  { newTokenizer := false, writeCard := true, copyTokenizer := true, templateGiven := false, template := .ok none,
    donorFiles := some ["tokenizer_config.json".toList, "tokenizer.json".toList, "preprocessor_config.json".toList],
    donorTokenizerLoads := true, tagalong := ["preprocessor_config.json".toList, "video.json".toList] }

example : (finish someSetup [("old".toList, .copied)]).2 = true ∧ (∀ f ∈ someSetup.tagalong, f ∉ ownNames) ∧
    (finish someSetup [("old".toList, .copied)]).1.length = 8 := by decide +kernel

example : (finish { someSetup with newTokenizer := true } []).2 = true ∧
    (finish { someSetup with templateGiven := true, template := .error () } []).2 = true := by decide +kernel

end Verif.Output
