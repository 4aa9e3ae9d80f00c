import Verif.Props.WholeTokMerge

/-! # C115: a concrete case

Model "a" knows the tokens "x" and "y", model "b" the tokens "y" and "z".  Their embeddings are merged linearly, with weights 1 and 3, for the union of the
vocabularies. -/

set_option linter.unusedSectionVars false

namespace Verif.WholeTok

open Verif.ModelRef (Str Ref)
open Verif.LoadTask (LoadTensor WeightInfo Casts Loader ownTensors typeNames wanted)
open Verif.Tensor (Tensor)
open Verif.Tok (Tokenizer Info TokCfg TokSource Source Gapless keys padded)
open Verif.Plan
open Verif.Config
open Verif.Pipeline
open Verif.WholeMerge (Setup RunErr Stored Told planned Sections Usable Place LeftOut View viewOf SeenAt BaseIs Reads Says SaysOf plainA plainB
  storedType linearTask weightOf normalizeOf LinearEnv MethodErr)

def embW : WeightInfo := { name := ['e'], isEmbed := true }

/-- An architecture with an embedding "e" and a norm "n". -/
def bookEnv : Env ℚ where
  moduleNames := ["default"]
  outPre := fun _ => [embW]
  outLayer := fun _ _ => []
  outPost := fun _ => [nm 'n' 0]
  inLayer := fun _ _ _ => []
  numLayers := fun _ _ => 1
  indexNames := fun _ => []
  params := [⟨"normalize".toList, false, some (.num 1)⟩]
  tensorParams := [⟨"weight".toList, true, none⟩]

def bookSlice : OutSlice ℚ :=
  ⟨[⟨refA, 0, 1, [("weight".toList, .scalar (.num 1))]⟩, ⟨refB, 0, 1, [("weight".toList, .scalar (.num 3))]⟩], none, []⟩

def bookConfig : MergeConfig ℚ := { slices := some [bookSlice] }
def bookModule : OutModule ℚ := ⟨some [bookSlice], none, []⟩

def tokA : Tokenizer Str := ⟨[(['x'], 0), (['y'], 1)], [], true, true⟩
def tokB : Tokenizer Str := ⟨[(['y'], 0), (['z'], 1)], [], true, true⟩
def bookLoad (m : Ref) : Option (Tokenizer Str) := if m = refA then some tokA else some tokB
def bookFresh (t : Tokenizer Str) : Nat := t.vocab.length

/-- The rows of "a" are 1 and 2, those of "b" 10 and 20. -/
def bookOwn (m : Ref) (w : WeightInfo) : Tensor ℚ :=
  if w.isEmbed then ⟨[2, 1], fun k => (if m = refA then 1 else 10) * ((k : ℚ) + 1)⟩ else ⟨[1], fun _ => if m = refA then 1 else 10⟩

def bookSetup : Setup ℚ (Tensor ℚ) MethodErr where
  casts := ⟨fun _ => .float32, fun _ x => x⟩
  loaders := fun m => { names := ["e", "n"], fetch := fun n => .ok (bookOwn m (if n = "e" then embW else nm 'n' 0)), convert := fun _ => .ok none }
  dtype := none
  outDtype := none
  method := linearTask

def bookSettings : TokSettings := { source := .union }

/-- The tokenizer built: "x", "y", "z". -/
def bookInfo : Info Str Ref :=
  ⟨[(['x'], 0), (['y'], 1), (['z'], 2)],
   [(refA, [(0, some 0), (1, some 1), (2, none)]), (refB, [(0, none), (1, some 0), (2, some 1)])],
   [(refA, [(['x'], 0), (['y'], 1)]), (refB, [(['y'], 0), (['z'], 1)])]⟩

theorem book_built : Built bookFresh bookLoad (fun _ => some 2) bookConfig.baseModel [refA, refB] bookSettings refA tokA tokA bookInfo where
  isBase := Or.inr ⟨rfl, rfl⟩
  loads := rfl
  strips := rfl
  source := Or.inr (Or.inl rfl)
  built := rfl

/-- The places: the embedding and the norm, from both models. -/
theorem book_place {w : WeightInfo} {sl : OutSlice ℚ} {t : ℚ} {ins : List (Ref × WeightInfo)} (h : Place bookEnv "default" [bookSlice] w sl t ins) :
    sl = bookSlice ∧ ins = [(refA, w), (refB, w)] ∧ (w = embW ∨ w = nm 'n' 0) := by
  cases h with
  | pre _ _ hs hw =>
    cases hs
    simp only [bookEnv, List.mem_singleton] at hw
    subst hw
    exact ⟨rfl, rfl, Or.inl rfl⟩
  | post _ _ hs hw =>
    cases hs
    simp only [bookEnv, List.mem_singleton] at hw
    subst hw
    exact ⟨rfl, rfl, Or.inr rfl⟩
  | layer j _ o k _ _ hl hw hins => simp [bookEnv] at hw

theorem book_usable : Usable bookEnv [("default", bookModule)] where
  given := by
    intro e he
    rw [List.mem_singleton] at he
    subst he
    exact ⟨bookSlice, [], rfl⟩
  even := by
    intro e he s hs
    rw [List.mem_singleton] at he
    subst he
    simp only [bookModule, Option.getD_some, List.mem_singleton] at hs
    subst hs
    simp [bookSlice]
  once := by
    intro e he s hs
    rw [List.mem_singleton] at he
    subst he
    simp only [bookModule, Option.getD_some, List.mem_singleton] at hs
    subst hs
    simp only [bookSlice, List.map_cons, List.map_nil]
    decide
  plain := by
    intro e he s hs
    rw [List.mem_singleton] at he
    subst he
    simp only [bookModule, Option.getD_some, List.mem_singleton] at hs
    subst hs
    simpa [bookSlice] using ⟨plainA, plainB⟩
  ends := by
    intro e he a b ha hb
    rw [List.mem_singleton] at he
    subst he
    cases ha; cases hb
    exact le_refl _
  weights := by
    intro e he j s o k w hl hw
    simp [bookEnv] at hw
  aliases := by
    intro e he w s t ins hp hopt
    rw [List.mem_singleton] at he
    subst he
    obtain ⟨_, _, rfl | rfl⟩ := book_place hp <;> cases hopt
  colons := by
    intro e he w s t ins hp i hi
    rw [List.mem_singleton] at he
    subst he
    obtain ⟨_, rfl, hw⟩ := book_place hp
    simp only [List.mem_cons, List.not_mem_nil, or_false] at hi
    rcases hi with rfl | rfl <;> rcases hw with rfl | rfl <;> decide
  names := by decide
  some_weight := ⟨_, List.mem_singleton.2 rfl, _, _, _, _, .pre bookSlice embW rfl (by simp [bookEnv]), by rintro ⟨h, _⟩; cases h⟩

theorem book_gapless : Gapless bookInfo.vocab := List.Perm.refl _

def bookWeight (m : Ref) : ℚ := if m = refA then 1 else 3

theorem ref_ne : refB ≠ refA := by decide

theorem book_at (w : WeightInfo) (t : ℚ) : LinearAt bookConfig bookModule w bookSlice t [(refA, w), (refB, w)] bookWeight true where
  weight := by
    intro i hi src hs hm
    simp only [bookSlice, List.mem_cons, List.not_mem_nil, or_false] at hs
    rcases hs with rfl | rfl
    · rw [← hm]
      exact .found (.scalar _)
    · rw [← hm]
      exact .found (.scalar _)
  normalize := ⟨none, 1, .unset (.unset (.unset .nothing)), rfl, by simp⟩

theorem book_fits : Fits (fun _ => some 2) [refA, refB] (Tok.vocabOf bookLoad refA tokA) (ownAt bookOwn [(refA, embW), (refB, embW)]) 1 where
  once := by simp only [ownAt, List.map_cons, List.map_nil]; decide
  known := by
    intro e he
    simp only [ownAt, List.map_cons, List.map_nil, List.mem_cons, List.not_mem_nil, or_false] at he
    rcases he with rfl | rfl <;> simp
  shape := by
    intro e he
    simp only [ownAt, List.map_cons, List.map_nil, List.mem_cons, List.not_mem_nil, or_false] at he
    rcases he with rfl | rfl
    · exact ⟨2, rfl, by decide⟩
    · exact ⟨2, rfl, by decide⟩
  keys := by
    intro e he
    simp only [ownAt, List.map_cons, List.map_nil, List.mem_cons, List.not_mem_nil, or_false] at he
    rcases he with rfl | rfl <;> decide

theorem book_sourced : Sourced bookLoad refA bookSettings (Tok.vocabOf bookLoad refA tokA) bookInfo.vocab (ownAt bookOwn [(refA, embW), (refB, embW)]) where
  held := by
    intro tok id hin _
    simp only [bookInfo, List.mem_cons, Prod.mk.injEq, List.not_mem_nil, or_false] at hin
    rcases hin with ⟨rfl, _⟩ | ⟨rfl, _⟩ | ⟨rfl, _⟩
    · exact ⟨refA, by simp [ownAt], by decide⟩
    · exact ⟨refA, by simp [ownAt], by decide⟩
    · exact ⟨refB, by simp [ownAt], by decide⟩
  configured := by intro _ _ _ c hc; cases hc
  loaded := by intro _ c _ _ hc; cases hc

theorem book_loads (m : Ref) (w : WeightInfo) (hw : w = embW ∨ w = nm 'n' 0) :
    (wanted bookSetup.dtype w).execute bookSetup.casts (bookSetup.loaders m) = .ok (some (bookOwn m w)) := by
  rcases hw with rfl | rfl <;> rfl

/-- All hypotheses of C115 are met, in whatever order python goes through the set of models. -/
theorem book_delivers (order : List Ref → List Ref) (ho : ∀ l, (order l).Perm l) :
    Delivers bookEnv bookConfig [("default", bookModule)]
      (tokSetup (fun _ => .badParameter) bookSetup bookFresh bookLoad (fun _ => some 2) order bookConfig.baseModel [refA, refB] bookSettings) bookInfo
      (LinearRows bookConfig bookSetup bookOwn bookSettings (Tok.vocabOf bookLoad refA tokA) bookInfo.vocab (fun _ => 1)) := by
  refine C115_linear bookEnv ⟨rfl, rfl⟩ _ _ (.slices _ _ "default" rfl rfl rfl) book_usable bookSetup rfl _ bookFresh bookLoad _ order ho _ _
    (by simp [bookSettings]) refA tokA tokA bookInfo book_built book_gapless bookOwn (fun _ => 1) ?_
  intro e he w sl t ins hp hno
  rw [List.mem_singleton] at he
  subst he
  obtain ⟨rfl, rfl, hw⟩ := book_place hp
  refine ⟨?_, Or.inl ?_, ⟨bookWeight, true, book_at w t, ?_⟩, by simp, ?_, ?_, ?_, ?_⟩
  · intro i hi
    simp only [List.mem_cons, List.not_mem_nil, or_false] at hi
    rcases hi with rfl | rfl <;> exact book_loads _ w hw
  · rcases hw with rfl | rfl <;> rfl
  · intro _
    simp [bookWeight, ref_ne]
    norm_num
  · intro hem
    rcases hw with rfl | rfl
    · cases hem
    · refine ⟨[1], fun i hi => ?_⟩
      simp only [List.mem_cons, List.not_mem_nil, or_false] at hi
      rcases hi with rfl | rfl <;> rfl
  · intro hem
    rcases hw with rfl | rfl
    · exact book_fits
    · cases hem
  · intro hem
    rcases hw with rfl | rfl
    · exact book_sourced
    · cases hem
  · rintro _ x (h | ⟨_, h⟩) <;> cases h

theorem book_has {m : Ref} {tok : Str} {r : Nat → ℚ} (h : Has (Tok.vocabOf bookLoad refA tokA) (ownAt bookOwn [(refA, embW), (refB, embW)]) m tok r) :
    (m = refA ∧ tok = ['x'] ∧ r 0 = 1) ∨ (m = refA ∧ tok = ['y'] ∧ r 0 = 2) ∨ (m = refB ∧ tok = ['y'] ∧ r 0 = 10) ∨
      (m = refB ∧ tok = ['z'] ∧ r 0 = 20) := by
  obtain ⟨t, k, hm, hk, rfl⟩ := h
  have hr : ∀ (m : Ref) (k : Nat), rowAt (bookOwn m embW) k 0 = (if m = refA then 1 else 10) * ((k : ℚ) + 1) := by
    intro m k
    simp [rowAt, bookOwn, embW]
  simp only [ownAt, List.map_cons, List.map_nil, List.mem_cons, Prod.mk.injEq, List.not_mem_nil, or_false] at hm
  rcases hm with ⟨rfl, rfl⟩ | ⟨rfl, rfl⟩
  · have : (tok, k) ∈ [((['x'] : Str), 0), (['y'], 1)] := hk
    simp only [List.mem_cons, Prod.mk.injEq, List.not_mem_nil, or_false] at this
    rcases this with ⟨rfl, rfl⟩ | ⟨rfl, rfl⟩
    · exact Or.inl ⟨rfl, rfl, by rw [hr]; norm_num⟩
    · exact Or.inr (Or.inl ⟨rfl, rfl, by rw [hr]; norm_num⟩)
  · have : (tok, k) ∈ [((['y'] : Str), 0), (['z'], 1)] := hk
    simp only [List.mem_cons, Prod.mk.injEq, List.not_mem_nil, or_false] at this
    rcases this with ⟨rfl, rfl⟩ | ⟨rfl, rfl⟩
    · exact Or.inr (Or.inr (Or.inl ⟨rfl, rfl, by rw [hr, if_neg ref_ne]; norm_num⟩))
    · exact Or.inr (Or.inr (Or.inr ⟨rfl, rfl, by rw [hr, if_neg ref_ne]; norm_num⟩))

/-- The row of "y" is each model's own; "a", which lacks "z", is given that of "b". -/
theorem book_rows {m : Ref} {tok : Str} {r : Nat → ℚ}
    (h : TokenRow bookSettings.tokens none (Tok.vocabOf bookLoad refA tokA) (ownAt bookOwn [(refA, embW), (refB, embW)]) m tok r) :
    (tok = ['y'] → m = refA → r 0 = 2) ∧ (tok = ['y'] → m = refB → r 0 = 10) ∧ (tok = ['z'] → m = refA ∨ m = refB → r 0 = 20) := by
  have hno : ∀ {m tok}, tok ∉ keys (Tok.vocabOf bookLoad refA tokA m) → tok = ['y'] → m = refA ∨ m = refB → False := by
    rintro m tok hn rfl (rfl | rfl)
    · exact hn (by decide)
    · exact hn (by decide)
  have hba := ref_ne
  cases h with
  | own r _ hh =>
    rcases book_has hh with ⟨rfl, rfl, h⟩ | ⟨rfl, rfl, h⟩ | ⟨rfl, rfl, h⟩ | ⟨rfl, rfl, h⟩
    · exact ⟨by simp, by simp, by simp⟩
    · exact ⟨fun _ _ => h, fun _ e => absurd e.symm hba, by simp⟩
    · exact ⟨fun _ e => absurd e hba, fun _ _ => h, by simp⟩
    · exact ⟨by simp, by simp, fun _ _ => h⟩
  | source c r hc => cases hc
  | base b r _ _ hb => cases hb
  | mean ms rs _ hlack _ hnd hms hrs =>
    refine ⟨fun e h => (hno hlack e (Or.inl h)).elim, fun e h => (hno hlack e (Or.inr h)).elim, ?_⟩
    rintro rfl _
    have hmem : ∀ m', m' ∈ ms ↔ m' = refB := by
      intro m'
      rw [hms]
      simp only [ownAt, List.map_cons, List.map_nil, List.mem_cons, List.not_mem_nil, or_false]
      constructor
      · rintro ⟨rfl | rfl, hk⟩
        · exact absurd hk (by decide)
        · rfl
      · rintro rfl
        exact ⟨Or.inr rfl, by decide⟩
    have : ms = [refB] := by
      cases ms with
      | nil => exact absurd ((hmem refB).2 rfl) (by simp)
      | cons a ms =>
        have ha := (hmem a).1 (by simp)
        cases ms with
        | nil => rw [ha]
        | cons a' ms =>
          have ha' := (hmem a').1 (by simp)
          simp [ha, ha'] at hnd
    subst this
    cases hrs with
    | cons h1 h2 =>
      cases h2
      rcases book_has h1 with ⟨h, _⟩ | ⟨h, _⟩ | ⟨_, h, _⟩ | ⟨_, _, h⟩
      · exact absurd h hba
      · exact absurd h hba
      · exact absurd h (by simp)
      · simp [meanOf, h]

/-- The embedding written has (2 + 3 * 10) / 4 = 8 for "y", which is at row 1 of "a" and row 0 of "b", and 20 for "z". -/
example (pop : ∀ n, Graph.PopOracle n) : ∃ mods trace fs idx, plan bookEnv bookConfig = .ok mods ∧
    runTasks (jobs ℚ bookSetup.dtype) (fun _ => "") (fun _ => 0)
      (execJob (tokSetup (fun _ => .badParameter) bookSetup bookFresh bookLoad (fun _ => some 2) id bookConfig.baseModel [refA, refB] bookSettings))
      pop (targets (planned mods)) = some (trace, .finished) ∧
    ∃ z : Tensor ℚ, z.shape = [3, 1] ∧ rowAt z 1 0 = 8 ∧ rowAt z 2 0 = 20 ∧
      (Writer.getTensor fs idx (Writer.afterHistory fs idx none []) "e" [] true).1 = .ok (some z) := by
  obtain ⟨mods, hp, trace, h, _, fs, _, _, idx, _, _, hval⟩ := book_delivers id (fun _ => .refl _) (fun _ => "") (fun _ => 0) pop ⟨100, true, none⟩
    (fun _ => 4) (by constructor <;> rfl)
  refine ⟨mods, trace, fs, idx, hp, h, ?_⟩
  obtain ⟨z, ⟨wt, nz, y, hat, hz, _, hy⟩, hread⟩ := hval _ (List.mem_singleton.2 rfl) _ _ _ _
    (.pre (env := bookEnv) (n := "default") bookSlice embW rfl (by simp [bookEnv])) (by rintro ⟨h, _⟩; cases h)
  have hyz : z = y := by
    cases hz with
    | unchanged _ => rfl
    | cast n d h => cases h
  subst hyz
  obtain ⟨hsh, hrows⟩ := hy rfl
  have hnz : nz = true := by
    obtain ⟨x, n, hx, hxn, hiff⟩ := hat.normalize
    have := WholeMerge.reads_unique hx (.unset (.unset (.unset .nothing)))
    subst this
    rw [hiff]
    rintro rfl
    simp at hxn
  subst hnz
  have hwa : wt refA = 1 := by
    have := WholeMerge.reads_unique (hat.weight (refA, embW) (by simp [bookSlice]) ⟨refA, 0, 1, [("weight".toList, .scalar (.num 1))]⟩
      (by simp [bookSlice]) rfl) (.found (.scalar (.num 1)))
    simpa using this
  have hwb : wt refB = 3 := by
    have := WholeMerge.reads_unique (hat.weight (refB, embW) (by simp [bookSlice]) ⟨refB, 0, 1, [("weight".toList, .scalar (.num 3))]⟩
      (by simp [bookSlice]) rfl) (.found (.scalar (.num 3)))
    simpa using this
  refine ⟨z, hsh, ?_, ?_, hread [] [] true⟩
  · obtain ⟨row, h1, h2⟩ := hrows ['y'] 1 (by simp [bookInfo])
    have ra := (book_rows (h1 (refA, embW) (by simp [bookSlice]))).1 rfl rfl
    have rb := (book_rows (h1 (refB, embW) (by simp [bookSlice]))).2.1 rfl rfl
    have := h2 0 (by simp)
    simp only [Mixed, bookSlice, List.map_cons, List.map_nil, List.sum_cons, List.sum_nil, hwa, hwb, ra, rb, if_true] at this
    linarith
  · obtain ⟨row, h1, h2⟩ := hrows ['z'] 2 (by simp [bookInfo])
    have ra := (book_rows (h1 (refA, embW) (by simp [bookSlice]))).2.2 rfl (Or.inl rfl)
    have rb := (book_rows (h1 (refB, embW) (by simp [bookSlice]))).2.2 rfl (Or.inr rfl)
    have := h2 0 (by simp)
    simp only [Mixed, bookSlice, List.map_cons, List.map_nil, List.sum_cons, List.sum_nil, hwa, hwb, ra, rb, if_true] at this
    linarith

/-- The hypotheses of `C115_base_missing_fails` are met: "b" as base model of a place that has only "a". -/
example (ts : List (Ref × Tensor ℚ)) :
    reindexTensors id bookSettings.tokens bookSettings.pad (some refB) bookInfo [(refA, bookOwn refA embW)] ≠ .ok ts := by
  refine C115_base_missing_fails book_built book_gapless id (fun _ => .refl _) refB (by simp) _ 1 ?_ ?_ ['y'] 1 0 ?_ ?_ ?_ ?_ ts
  · intro e he
    rw [List.mem_singleton] at he
    subst he
    exact ⟨2, rfl⟩
  · simp [ref_ne]
  · simp [bookInfo]
  · decide
  · decide
  · intro c hc; cases hc

end Verif.WholeTok
