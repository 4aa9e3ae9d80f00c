import Verif.Props.WholeTokRows
import Verif.Props.WholeTask

/-! # C115: merges with a tokenizer, row by row, from the configuration to the files -/

set_option linter.unusedSectionVars false

namespace Verif.WholeTok

open Verif.ModelRef (Str Ref)
open Verif.LoadTask (LoadTensor WeightInfo Casts Loader ownTensors typeNames wanted)
open Verif.Tensor (Tensor)
open Verif.Tok (Tokenizer Info TokCfg TokSource Source Gapless keys padded)
open Verif.Plan
open Verif.Config
open Verif.Pipeline
open Verif.WholeMerge (Setup RunErr Stored Told planned Sections Usable Place LeftOut Readable View viewOf Ready Outcome SeenAt BaseIs Reads Says SaysOf
  storedType linearTask weightOf normalizeOf LinearEnv MethodErr)

section
variable {K : Type} [Field K] [LinearOrder K] [IsStrictOrderedRing K] [FloorRing K]

/-- The models' own tensors at a place. -/
def ownAt (own : Ref → WeightInfo → Tensor K) (ins : List (Ref × WeightInfo)) : List (Ref × Tensor K) := ins.map (fun i => (i.1, own i.1 i.2))

/-- What is right for a place with a tokenizer: the method is given the configuration's settings and, for an embedding, matrices with the row of each output
token; for anything else, the models' own tensors. -/
def TokOutcome {E : Type} (env : Env K) (c : MergeConfig K) (s : Setup K (Tensor K) E) (f : View K → List (Ref × Tensor K) → Except E (Option (Tensor K)))
    (own : Ref → WeightInfo → Tensor K) (st : TokSettings) (vocab : Ref → List (Str × Nat)) (out : List (Str × Nat)) (width : WeightInfo → Nat)
    (e : String × OutModule K) (w : WeightInfo) (sl : OutSlice K) (t : K) (ins : List (Ref × WeightInfo)) (z : Tensor K) : Prop :=
  ∃ v ts y, SeenAt env c e.2 w sl t ins v ∧ f v ts = .ok (some y) ∧ Stored s w y z ∧
    (w.isEmbed = false → ts = ownAt own ins) ∧
    (w.isEmbed = true → Reindexed st v.base vocab out (ownAt own ins) (width w) ts)

/-- All that is needed at a place with a tokenizer: the tensors are there, the type to store exists, the settings can be read and the required ones are given;
embeddings fit the vocabularies and every output token has a row somewhere, and the base model is among the sources; and the method works. -/
structure TokReady {E : Type} (env : Env K) (c : MergeConfig K) (s : Setup K (Tensor K) E)
    (f : View K → List (Ref × Tensor K) → Except E (Option (Tensor K))) (own : Ref → WeightInfo → Tensor K) (load : Ref → Option (Tokenizer Str)) (b : Ref)
    (cfg : Ref → Option Nat) (refs : List Ref) (st : TokSettings)
    (vocab : Ref → List (Str × Nat)) (out : List (Str × Nat)) (width : WeightInfo → Nat)
    (d : OutModule K) (w : WeightInfo) (sl : OutSlice K) (t : K) (ins : List (Ref × WeightInfo)) : Prop where
  loads : ∀ i ∈ ins, (wanted s.dtype i.2).execute s.casts (s.loaders i.1) = .ok (some (own i.1 i.2))
  type : storedType s.outDtype w = none ∨ ∃ n d, storedType s.outDtype w = some n ∧ (n, d) ∈ typeNames
  params : ∀ q ∈ env.params, ∃ x, Reads w.name t [sl.parameters.get q.name, d.parameters.get q.name, c.parameters.get q.name] x ∧
    (q.required = true → x ≠ none)
  modelParams : ∀ i ∈ ins, ∀ src ∈ sl.sources, src.model = i.1 → ∀ q ∈ env.tensorParams, ∃ x,
    Reads i.2.name t [src.parameters.get q.name, sl.parameters.get q.name, d.parameters.get q.name, c.parameters.get q.name] x ∧
    (q.required = true → x ≠ none ∨ BaseIs c sl i.1)
  some_source : ins ≠ []
  fits : w.isEmbed = true → Fits cfg refs vocab (ownAt own ins) (width w)
  sourced : w.isEmbed = true → Sourced load b st vocab out (ownAt own ins)
  base : w.isEmbed = true → ∀ x, BaseIs c sl x → x ∈ ins.map Prod.fst
  works : ∀ v, SeenAt env c d w sl t ins v → ∀ ts,
    (w.isEmbed = false → ts = ownAt own ins) → (w.isEmbed = true → Reindexed st v.base vocab out (ownAt own ins) (width w) ts) →
      ∃ y, f v ts = .ok (some y)

/-- **C115** Any merge method with a tokenizer, row by row, from the configuration to the files: the merge ends without an exception and keeps the tokenizer that
was built; the output lists exactly the names of the places not left out; for an embedding, the method was given for every model a matrix with as many rows as
the tokenizer has tokens (padded as asked), in which the row of a token is the model's own row for that token or the one that should stand in for it; for
anything else it was given the models' own tensors. -/
theorem C115_tokens {E : Type} (env : Env K) (hpn : (env.params.map (·.name)).Nodup) (htn : (env.tensorParams.map (·.name)).Nodup)
    (c : MergeConfig K) (l : List (String × OutModule K)) (hl : Sections env c l) (hu : Usable env l)
    (s : Setup K (Tensor K) E) (f : View K → List (Ref × Tensor K) → Except E (Option (Tensor K))) (hf : ∀ p ts, s.method p ts = f (viewOf p) ts)
    (lift : Tok.Err → E) (fresh : Tokenizer Str → Nat) (load : Ref → Option (Tokenizer Str)) (cfg : Ref → Option Nat)
    (order : List Ref → List Ref) (ho : ∀ l, (order l).Perm l) (refs : List Ref) (st : TokSettings) (hd : (st.tokens.map Prod.fst).Nodup)
    (b : Ref) (tb strip : Tokenizer Str) (info : Info Str Ref) (hbuilt : Built fresh load cfg c.baseModel refs st b tb strip info)
    (hg : Gapless info.vocab) (own : Ref → WeightInfo → Tensor K) (width : WeightInfo → Nat)
    (hready : ∀ e ∈ l, ∀ w sl t ins, Place env e.1 (e.2.slices.getD []) w sl t ins → ¬ LeftOut env w ins →
      TokReady env c s f own load b cfg refs st (Tok.vocabOf load b strip) info.vocab width e.2 w sl t ins) :
    Delivers env c l (tokSetup lift s fresh load cfg order c.baseModel refs st) info
      (TokOutcome env c s f own st (Tok.vocabOf load b strip) info.vocab width) := by
  have hre : ∀ e ∈ l, ∀ w sl t ins, Place env e.1 (e.2.slices.getD []) w sl t ins → ¬ LeftOut env w ins → ∀ v, SeenAt env c e.2 w sl t ins v →
      w.isEmbed = true → ∃ ts, (tokSetup lift s fresh load cfg order c.baseModel refs st).reindex v.base info (ownAt own ins) = .ok ts ∧
        Reindexed st v.base (Tok.vocabOf load b strip) info.vocab (ownAt own ins) (width w) ts := by
    intro e he w sl t ins hp hno v hv hem
    have hr := hready e he w sl t ins hp hno
    obtain ⟨ts, h1, h2⟩ := C115_reindexes (base := v.base) hbuilt hg hd order ho (ownAt own ins) (width w) (hr.fits hem)
      (by
        intro x hx
        have := hr.base hem x ((hv.base x).1 hx)
        simpa [ownAt, List.map_map, Function.comp_def] using this)
      (by simpa [ownAt] using hr.some_source) (hr.sourced hem)
    refine ⟨ts, ?_, h2⟩
    simp only [tokSetup, h1, Except.mapError]
  refine delivers_mono (C115_any_method env hpn htn c l hl hu (tokSetup lift s fresh load cfg order c.baseModel refs st) info
    (by simp only [tokSetup, hbuilt.built, Except.mapError]) f hf own ?_) ?_
  · intro e he w sl t ins hp hno
    have hr := hready e he w sl t ins hp hno
    refine ⟨hr.loads, hr.type, hr.params, hr.modelParams, fun v hv => ?_⟩
    unfold onTokens
    by_cases hem : w.isEmbed = true
    · rw [if_pos (by rw [hv.weight]; exact hem)]
      obtain ⟨ts, h1, h2⟩ := hre e he w sl t ins hp hno v hv hem
      obtain ⟨y, hy⟩ := hr.works v hv ts (fun hf => absurd (hem.symm.trans hf) (by simp)) (fun _ => h2)
      refine ⟨y, ?_⟩
      change ((tokSetup lift s fresh load cfg order c.baseModel refs st).reindex v.base info (ownAt own ins)).bind (f v) = _
      rw [h1]
      exact hy
    · rw [if_neg (by rw [hv.weight]; exact hem)]
      exact hr.works v hv _ (fun _ => rfl) (fun hf => absurd hf hem)
  · rintro e he w sl t ins z hp hno ⟨v, y, hv, hy, hz⟩
    have hz' : Stored s w y z := by
      cases hz with
      | unchanged h => exact .unchanged h
      | cast n d h3 h4 h5 => exact .cast n d h3 h4 h5
    unfold onTokens at hy
    by_cases hem : w.isEmbed = true
    · rw [if_pos (by rw [hv.weight]; exact hem)] at hy
      obtain ⟨ts, h1, h2⟩ := hre e he w sl t ins hp hno v hv hem
      change ((tokSetup lift s fresh load cfg order c.baseModel refs st).reindex v.base info (ownAt own ins)).bind (f v) = _ at hy
      rw [h1] at hy
      exact ⟨v, ts, y, hv, hy, hz', fun hf => absurd (hem.symm.trans hf) (by simp), fun _ => h2⟩
    · rw [if_neg (by rw [hv.weight]; exact hem)] at hy
      exact ⟨v, _, y, hv, hy, hz', fun _ => rfl, fun hf => absurd hf hem⟩

/-! ## The linear method -/

/-- The linear method in terms of what it looks up. -/
def linearView (v : View K) (ts : List (Ref × Tensor K)) : Except MethodErr (Option (Tensor K)) :=
  let weight : Ref → Option K := fun m => match v.valueOf m "weight".toList with
    | some (some (.num x)) => some x
    | _ => none
  let normalize : Bool := match v.value "normalize".toList with
    | some (some (.num n)) => decide (n ≠ 0)
    | some (some (.str s)) => decide (s ≠ [])
    | _ => false
  if ts.all (fun e => (weight e.1).isSome) then
    match Merge.linear v.weight.isEmbed normalize (fun m => (weight m).getD 0) ts with
    | .error e => .error (.merge e)
    | .ok x => .ok (some x)
  else .error .badParameter

theorem linear_view (p : Planned K) (ts : List (Ref × Tensor K)) : linearTask p ts = linearView (viewOf p) ts := rfl

/-- What the configuration says at a place: the weight of each model, and whether to normalize (yes unless said otherwise). -/
structure LinearAt (c : MergeConfig K) (d : OutModule K) (w : WeightInfo) (sl : OutSlice K) (t : K) (ins : List (Ref × WeightInfo)) (wt : Ref → K)
    (nz : Bool) : Prop where
  weight : ∀ i ∈ ins, ∀ src ∈ sl.sources, src.model = i.1 → SaysOf c d sl src i.2.name t "weight" (some (.num (wt i.1)))
  normalize : ∃ x n, Says c d sl w.name t "normalize" x ∧ x.getD (.num 1) = .num n ∧ (nz = true ↔ n ≠ 0)

/-- The mean of weighted values, or their sum. -/
def Mixed (nz : Bool) (l : List (K × K)) (x : K) : Prop :=
  if nz then x * (l.map Prod.fst).sum = (l.map (fun e => e.1 * e.2)).sum else x = (l.map (fun e => e.1 * e.2)).sum

/-- What is right for a place of a linear merge with a tokenizer: the row of each output token is the mean of the models' rows for that token; entries of other
tensors are the mean of the models' entries. -/
def LinearRows (c : MergeConfig K) (s : Setup K (Tensor K) MethodErr) (own : Ref → WeightInfo → Tensor K) (st : TokSettings)
    (vocab : Ref → List (Str × Nat)) (out : List (Str × Nat)) (width : WeightInfo → Nat) (e : String × OutModule K) (w : WeightInfo) (sl : OutSlice K) (t : K)
    (ins : List (Ref × WeightInfo)) (z : Tensor K) : Prop :=
  ∃ wt nz y, LinearAt c e.2 w sl t ins wt nz ∧ Stored s w y z ∧
    (w.isEmbed = false → (∀ i ∈ ins, y.shape = (own i.1 i.2).shape) ∧
      ∀ k, Mixed nz (ins.map (fun i => (wt i.1, (own i.1 i.2).get k))) (y.get k)) ∧
    (w.isEmbed = true → y.shape = [padded out.length st.pad, width w] ∧ ∀ tok id, (tok, id) ∈ out → ∃ row : Ref → Nat → K,
      (∀ i ∈ ins, TokenRow st.tokens (sl.baseModel.or c.baseModel) vocab (ownAt own ins) i.1 tok (row i.1)) ∧
      ∀ j < width w, Mixed nz (ins.map (fun i => (wt i.1, row i.1 j))) (rowAt y id j))

theorem seen_base {env : Env K} {c : MergeConfig K} {d : OutModule K} {w : WeightInfo} {sl : OutSlice K} {t : K} {ins : List (Ref × WeightInfo)} {v : View K}
    (hv : SeenAt env c d w sl t ins v) : v.base = sl.baseModel.or c.baseModel := by
  apply Option.ext
  intro b
  rw [hv.base b]
  unfold BaseIs
  cases sl.baseModel <;> simp

theorem linear_runs (env : Env K) (henv : LinearEnv env) {c : MergeConfig K} {d : OutModule K} {w : WeightInfo} {sl : OutSlice K} {t : K}
    {ins : List (Ref × WeightInfo)} {v : View K} (hv : SeenAt env c d w sl t ins v) (hsrc : ∀ i ∈ ins, ∃ src ∈ sl.sources, src.model = i.1)
    (wt : Ref → K) (nz : Bool) (hat : LinearAt c d w sl t ins wt nz) (ts : List (Ref × Tensor K)) (hperm : (ts.map Prod.fst).Perm (ins.map Prod.fst))
    (hne : ins ≠ []) (sh : List Nat) (hsh : ∀ e ∈ ts, e.2.shape = sh) (htot : nz = true → (ins.map (fun i => wt i.1)).sum ≠ 0) :
    ∃ y, linearView v ts = .ok (some y) ∧ y.shape = sh ∧ ∀ k, Mixed nz (ts.map (fun e => (wt e.1, e.2.get k))) (y.get k) := by
  have hw : ∀ e ∈ ts, (match v.valueOf e.1 "weight".toList with
      | some (some (.num x)) => some x
      | _ => none) = some (wt e.1) := by
    intro e he
    have hin : e.1 ∈ ins.map Prod.fst := hperm.mem_iff.1 (List.mem_map.2 ⟨e, he, rfl⟩)
    obtain ⟨i, hi, hie⟩ := List.mem_map.1 hin
    obtain ⟨src, hs, hm⟩ := hsrc i hi
    obtain ⟨x, hx, _, hval⟩ := hv.modelParam i hi src hs hm ⟨"weight".toList, true, none⟩ (by rw [henv.tensorParams]; simp)
    have := WholeMerge.reads_unique hx (hat.weight i hi src hs hm)
    subst this
    rw [← hie, hval]
    rfl
  have hn : (match v.value "normalize".toList with
      | some (some (.num n)) => decide (n ≠ 0)
      | some (some (.str s)) => decide (s ≠ [])
      | _ => false) = nz := by
    obtain ⟨x, n, hx, hxn, hnz⟩ := hat.normalize
    obtain ⟨x', hx', _, hval⟩ := hv.param ⟨"normalize".toList, false, some (.num 1)⟩ (by rw [henv.params]; simp)
    have := WholeMerge.reads_unique hx' hx
    subst this
    rw [hval]
    have : x'.or (some (.num 1)) = some (.num n) := by
      cases x' with
      | none => simp only [Option.getD_none] at hxn; simp [hxn]
      | some a => simp only [Option.getD_some] at hxn; simp [hxn]
    simp only [this]
    rw [Bool.eq_iff_iff, hnz]
    simp
  have htsne : ts ≠ [] := by
    rintro rfl
    simp at hperm
    exact hne hperm
  let wf : Ref → K := fun m => ((match v.valueOf m "weight".toList with
      | some (some (.num x)) => some x
      | _ => none) : Option K).getD 0
  have e1 : Merge.totalWeight wf ts = (ts.map (fun e => wt e.1)).sum := by
    unfold Merge.totalWeight
    congr 1
    apply List.map_congr_left
    intro e he
    simp only [wf, hw e he, Option.getD_some]
  have e2 : ∀ i, Merge.weightedSum wf ts i = (ts.map (fun e => wt e.1 * e.2.get i)).sum := by
    intro i
    unfold Merge.weightedSum
    congr 1
    apply List.map_congr_left
    intro e he
    simp only [wf, hw e he, Option.getD_some]
  have htot' : nz = true → Merge.totalWeight wf ts ≠ 0 := by
    intro h
    rw [e1]
    have h1 : (ts.map (fun e => wt e.1)).sum = (ins.map (fun i => wt i.1)).sum := by
      have := (hperm.map wt).sum_eq
      simpa [List.map_map, Function.comp_def] using this
    rw [h1]
    exact htot h
  have hmix : ∀ (y : Tensor K) k, (nz = true → y.get k * Merge.totalWeight wf ts = Merge.weightedSum wf ts k) →
      (nz = false → y.get k = Merge.weightedSum wf ts k) → Mixed nz (ts.map (fun e => (wt e.1, e.2.get k))) (y.get k) := by
    intro y k h1 h2
    unfold Mixed
    rw [List.map_map, List.map_map]
    cases nz with
    | true =>
      have := h1 rfl
      rw [e1, e2] at this
      simpa [Function.comp_def] using this
    | false =>
      have := h2 rfl
      rw [e2] at this
      simpa [Function.comp_def] using this
  have hh := Merge.C33_weighted_mean v.weight.isEmbed wf ts sh hsh htsne
  obtain ⟨y, h1, h2, h3⟩ : ∃ y, Merge.linear v.weight.isEmbed nz wf ts = .ok y ∧ y.shape = sh ∧
      ∀ k, Mixed nz (ts.map (fun e => (wt e.1, e.2.get k))) (y.get k) := by
    cases hnz : nz with
    | true =>
      obtain ⟨y, h1, h2, h3⟩ := hh.2 (htot' hnz)
      exact ⟨y, h1, h2, fun k => by rw [← hnz]; exact hmix y k (fun _ => h3 k) (by rw [hnz]; intro h; cases h)⟩
    | false =>
      obtain ⟨y, h1, h2, h3⟩ := hh.1
      exact ⟨y, h1, h2, fun k => by rw [← hnz]; exact hmix y k (by rw [hnz]; intro h; cases h) (fun _ => h3 k)⟩
  refine ⟨y, ?_, h2, h3⟩
  unfold linearView
  simp only
  rw [if_pos (by
    rw [List.all_eq_true]
    intro e he
    rw [hw e he]
    rfl)]
  simp only [hn]
  simp only [wf] at h1
  rw [h1]

/-- All that a linear merge with a tokenizer needs at a place. -/
structure LinearReady (c : MergeConfig K) (s : Setup K (Tensor K) MethodErr) (own : Ref → WeightInfo → Tensor K) (load : Ref → Option (Tokenizer Str)) (b : Ref)
    (cfg : Ref → Option Nat) (refs : List Ref) (st : TokSettings) (vocab : Ref → List (Str × Nat)) (out : List (Str × Nat)) (width : WeightInfo → Nat)
    (d : OutModule K) (w : WeightInfo) (sl : OutSlice K) (t : K) (ins : List (Ref × WeightInfo)) : Prop where
  loads : ∀ i ∈ ins, (wanted s.dtype i.2).execute s.casts (s.loaders i.1) = .ok (some (own i.1 i.2))
  type : storedType s.outDtype w = none ∨ ∃ n d, storedType s.outDtype w = some n ∧ (n, d) ∈ typeNames
  settings : ∃ wt nz, LinearAt c d w sl t ins wt nz ∧ (nz = true → (ins.map (fun i => wt i.1)).sum ≠ 0)
  some_source : ins ≠ []
  shape : w.isEmbed = false → ∃ sh, ∀ i ∈ ins, (own i.1 i.2).shape = sh
  fits : w.isEmbed = true → Fits cfg refs vocab (ownAt own ins) (width w)
  sourced : w.isEmbed = true → Sourced load b st vocab out (ownAt own ins)
  base : w.isEmbed = true → ∀ x, BaseIs c sl x → x ∈ ins.map Prod.fst

/-- **C115** A linear merge with a tokenizer, from the configuration to the files: the tokenizer that was built is kept, and in the embeddings that are written the
row of every token of that tokenizer is the mean, weighted as configured, of the rows the models have for that token - wherever these are in each model - where a
model without the token is represented by the row that should stand in for it. -/
theorem C115_linear (env : Env K) (henv : LinearEnv env)
    (c : MergeConfig K) (l : List (String × OutModule K)) (hl : Sections env c l) (hu : Usable env l)
    (s : Setup K (Tensor K) MethodErr) (hmeth : s.method = linearTask)
    (lift : Tok.Err → MethodErr) (fresh : Tokenizer Str → Nat) (load : Ref → Option (Tokenizer Str)) (cfg : Ref → Option Nat)
    (order : List Ref → List Ref) (ho : ∀ l, (order l).Perm l) (refs : List Ref) (st : TokSettings) (hd : (st.tokens.map Prod.fst).Nodup)
    (b : Ref) (tb strip : Tokenizer Str) (info : Info Str Ref) (hbuilt : Built fresh load cfg c.baseModel refs st b tb strip info)
    (hg : Gapless info.vocab) (own : Ref → WeightInfo → Tensor K) (width : WeightInfo → Nat)
    (hready : ∀ e ∈ l, ∀ w sl t ins, Place env e.1 (e.2.slices.getD []) w sl t ins → ¬ LeftOut env w ins →
      LinearReady c s own load b cfg refs st (Tok.vocabOf load b strip) info.vocab width e.2 w sl t ins) :
    Delivers env c l (tokSetup lift s fresh load cfg order c.baseModel refs st) info
      (LinearRows c s own st (Tok.vocabOf load b strip) info.vocab width) := by
  have hnd : ∀ e ∈ l, ∀ w sl t ins, Place env e.1 (e.2.slices.getD []) w sl t ins → (ins.map Prod.fst).Nodup ∧
      ∀ i ∈ ins, ∃ src ∈ sl.sources, src.model = i.1 := by
    intro e he w sl t ins hp
    obtain ⟨h1, h2⟩ := hp.models
    refine ⟨by rw [h2]; exact hu.once e he sl h1, fun i hi => ?_⟩
    have : i.1 ∈ sl.sources.map (·.model) := by rw [← h2]; exact List.mem_map.2 ⟨i, hi, rfl⟩
    obtain ⟨src, h3, h4⟩ := List.mem_map.1 this
    exact ⟨src, h3, h4⟩
  have hkeys : ∀ ins : List (Ref × WeightInfo), (ownAt own ins).map Prod.fst = ins.map Prod.fst := by
    intro ins
    simp [ownAt, List.map_map, Function.comp_def]
  have key : ∀ e ∈ l, ∀ w sl t ins, Place env e.1 (e.2.slices.getD []) w sl t ins → ¬ LeftOut env w ins → ∀ v, SeenAt env c e.2 w sl t ins v → ∀ ts,
      (w.isEmbed = false → ts = ownAt own ins) →
      (w.isEmbed = true → Reindexed st v.base (Tok.vocabOf load b strip) info.vocab (ownAt own ins) (width w) ts) →
      ∃ wt nz y, LinearAt c e.2 w sl t ins wt nz ∧ linearView v ts = .ok (some y) ∧
        (w.isEmbed = false → ∀ i ∈ ins, y.shape = (own i.1 i.2).shape) ∧
        (w.isEmbed = true → y.shape = [padded info.vocab.length st.pad, width w]) ∧
        ∀ k, Mixed nz (ts.map (fun e => (wt e.1, e.2.get k))) (y.get k) := by
    intro e he w sl t ins hp hno v hv ts h1 h2
    have hr := hready e he w sl t ins hp hno
    obtain ⟨wt, nz, hat, htot⟩ := hr.settings
    obtain ⟨_, hsrc⟩ := hnd e he w sl t ins hp
    cases hem : w.isEmbed with
    | false =>
      obtain ⟨sh, hsh⟩ := hr.shape hem
      have hts := h1 hem
      obtain ⟨y, g1, g2, g3⟩ := linear_runs env henv hv hsrc wt nz hat ts (by rw [hts, hkeys]) hr.some_source sh
        (by
          rw [hts]
          intro x hx
          obtain ⟨i, hi, rfl⟩ := List.mem_map.1 hx
          exact hsh i hi) htot
      exact ⟨wt, nz, y, hat, g1, fun _ i hi => by rw [g2, hsh i hi], by simp, g3⟩
    | true =>
      obtain ⟨hperm, hall⟩ := h2 hem
      obtain ⟨y, g1, g2, g3⟩ := linear_runs env henv hv hsrc wt nz hat ts (by rw [← hkeys]; exact hperm) hr.some_source _
        (fun x hx => (hall x hx).1) htot
      exact ⟨wt, nz, y, hat, g1, by simp, fun _ => g2, g3⟩
  refine delivers_mono (C115_tokens env (by rw [henv.params]; simp) (by rw [henv.tensorParams]; simp) c l hl hu s linearView
    (by intro p ts; rw [hmeth]; exact linear_view p ts) lift fresh load cfg order ho refs st hd b tb strip info hbuilt hg own width ?_) ?_
  · intro e he w sl t ins hp hno
    have hr := hready e he w sl t ins hp hno
    obtain ⟨wt, nz, hat, htot⟩ := hr.settings
    refine ⟨hr.loads, hr.type, ?_, ?_, hr.some_source, hr.fits, hr.sourced, hr.base, ?_⟩
    · intro q hq
      rw [henv.params, List.mem_singleton] at hq
      subst hq
      obtain ⟨x, n, hx, _⟩ := hat.normalize
      exact ⟨x, hx, by simp⟩
    · intro i hi src hs hm q hq
      rw [henv.tensorParams, List.mem_singleton] at hq
      subst hq
      exact ⟨_, hat.weight i hi src hs hm, by simp⟩
    · intro v hv ts h1 h2
      obtain ⟨_, _, y, _, hy, _⟩ := key e he w sl t ins hp hno v hv ts h1 h2
      exact ⟨y, hy⟩
  · rintro e he w sl t ins z hp hno ⟨v, ts, y, hv, hy, hz, h1, h2⟩
    obtain ⟨hn, _⟩ := hnd e he w sl t ins hp
    obtain ⟨wt, nz, y', hat, hy', g1, g2, g3⟩ := key e he w sl t ins hp hno v hv ts h1 h2
    rw [hy] at hy'
    cases hy'
    refine ⟨wt, nz, y, hat, hz, ?_, ?_⟩
    · intro hem
      refine ⟨g1 hem, fun k => ?_⟩
      have := g3 k
      rw [h1 hem] at this
      simpa [ownAt, List.map_map, Function.comp_def] using this
    · intro hem
      obtain ⟨hperm, hall⟩ := h2 hem
      rw [hkeys] at hperm
      refine ⟨g2 hem, fun tok id hin => ?_⟩
      have hbase := seen_base hv
      have hrow : ∀ m, ∃ r : Nat → K, ∀ x ∈ ts, x.1 = m → TokenRow st.tokens v.base (Tok.vocabOf load b strip) (ownAt own ins) m tok r ∧
          ∀ j < width w, rowAt x.2 id j = r j := by
        intro m
        by_cases hm : m ∈ ts.map Prod.fst
        · obtain ⟨x, hx, rfl⟩ := List.mem_map.1 hm
          obtain ⟨r, hr1, hr2⟩ := (hall x hx).2.1 tok id hin
          refine ⟨r, fun x' hx' hxx => ?_⟩
          have : x' = x := List.inj_on_of_nodup_map (hperm.nodup_iff.2 hn) hx' hx hxx
          subst this
          exact ⟨hr1, hr2⟩
        · exact ⟨fun _ => 0, fun x hx hxm => absurd (List.mem_map.2 ⟨x, hx, hxm⟩) hm⟩
      choose row hrow using hrow
      refine ⟨row, ?_, ?_⟩
      · intro i hi
        obtain ⟨x, hx, hxi⟩ := List.mem_map.1 (hperm.mem_iff.2 (List.mem_map.2 ⟨i, hi, rfl⟩))
        rw [← hbase]
        exact (hrow i.1 x hx hxi).1
      · intro j hj
        have hlen : ∀ x ∈ ts, x.2.shape.getD 1 0 = width w := by
          intro x hx
          rw [(hall x hx).1]
          rfl
        have := g3 (id * width w + j)
        have hy2 : rowAt y id j = y.get (id * width w + j) := by
          unfold rowAt
          rw [g2 hem]
          rfl
        rw [hy2]
        have e1 : ts.map (fun e => (wt e.1, e.2.get (id * width w + j))) = (ts.map Prod.fst).map (fun m => (wt m, row m j)) := by
          rw [List.map_map]
          apply List.map_congr_left
          intro x hx
          have h5 := (hrow x.1 x hx rfl).2 j hj
          unfold rowAt at h5
          rw [hlen x hx] at h5
          simp only [Function.comp_def, h5]
        have e2 : ins.map (fun i => (wt i.1, row i.1 j)) = (ins.map Prod.fst).map (fun m => (wt m, row m j)) := by
          rw [List.map_map]
          rfl
        rw [e1] at this
        rw [e2]
        have hp := hperm.map (fun m => (wt m, row m j))
        unfold Mixed at this ⊢
        rw [← (hp.map Prod.fst).sum_eq, ← (hp.map (fun e : K × K => e.1 * e.2)).sum_eq]
        exact this

end

end Verif.WholeTok
