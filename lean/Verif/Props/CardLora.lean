import Verif.Model.CardLora
import Verif.Props.Card

/-! # C139: cards of extracted adapters -/

namespace Verif.Card

open Verif.ModelRef (Str Ref)

/-! ## Specification -/

/-- The lines that are not blank of what the card says about the adapter. -/
def about (card : Str) : List Str := (between cs!"## LoRA Details" cs!"### Parameters" (linesOf card)).filter (fun l => decide (l ≠ []))

/-- The command shown. -/
def command (card : Str) : List Str := between cs!"```sh" cs!"```" (linesOf card)

/-- The models of the hub named in the metadata, as YAML items. -/
def peftItems (card : Str) : List Str := between cs!"base_model:" cs!"library_name: peft" (linesOf card)

/-- A line cut at blanks. -/
def pieces : Str → List Str
  | [] => [[]]
  | c :: cs =>
    if c = ' ' then [] :: pieces cs
    else match pieces cs with
      | [] => [[c]]
      | l :: ls => (c :: l) :: ls

/-- The words a shell makes of a line, if there is nothing special in it: what is between blanks. -/
def words (line : Str) : List Str := (pieces line).filter (fun w => decide (w ≠ []))

/-- Nothing special for a shell: letters, digits and some signs. -/
def Tame (s : Str) : Prop := s ≠ [] ∧ ∀ c ∈ s, c.isAlphanum = true ∨ c ∈ cs!"-_./=+:@,%"

/-- What the card says about the vocabularies: how to load the adapter, if their sizes differ. -/
inductive Resized (b f : Nat) : List Str → Prop
  | same : b = f → Resized b f []
  | larger : b < f → Resized b f [cs!" [!WARNING]", cs!"> The vocabulary size has been extended from the base model's " ++ Nat.toDigits 10 b ++ cs!" to " ++ Nat.toDigits 10 f ++
      cs!". To load this adapter, you must first call `model.resize_token_embeddings(" ++ Nat.toDigits 10 f ++ cs!")`."]
  | smaller : f < b → Resized b f [cs!" [!WARNING]", cs!"> The vocabulary size has been reduced from the base model's " ++ Nat.toDigits 10 b ++ cs!" to " ++ Nat.toDigits 10 f ++
      cs!". To load this adapter, you must first call `model.resize_token_embeddings(" ++ Nat.toDigits 10 f ++ cs!")`."]

/-- Names without line breaks. -/
structure Short (w : World) (refs : List Ref) (out : Str) : Prop where
  title : '\n' ∉ out
  model : ∀ m ∈ refs, '\n' ∉ m.model.path ∧ '\n' ∉ w.dumped m.model.path
  lora : ∀ m ∈ refs, ∀ l, m.lora = some l → '\n' ∉ l.path ∧ '\n' ∉ w.dumped l.path

/-! ## Lemmas -/

theorem basename_line {s : Str} (h : '\n' ∉ s) : '\n' ∉ Resume.basename s := by
  unfold Resume.basename
  intro hm
  exact h (List.mem_reverse.1 (List.takeWhile_sublist _ |>.subset (List.mem_reverse.1 hm)))

theorem digits_line (n : Nat) : '\n' ∉ Nat.toDigits 10 n := by
  intro h
  have := Nat.isDigit_of_mem_toDigits (by decide) (by decide) h
  revert this
  decide

/-- The parts of a card. -/
structure LoraMade (w : World) (base model : Ref) (argv : List Str) (out : Str) (b f : Nat) (card : Str) (bases : List Str) (tf tb : Str) : Prop where
  hub : hfPaths w [base, model] = .ok bases
  tuned : modelMd w model = .ok tf
  on : modelMd w base = .ok tb
  whole : card = fillLora (metadata w bases [cs!"mergekit", cs!"peft"] cs!"peft") (if Resume.basename out = [] then cs!"Untitled LoRA Model (1)" else Resume.basename out)
          (cs!"This LoRA adapter was extracted from " ++ tf ++ cs!" and uses " ++ tb ++ cs!" as a base." ++ warning (some b) (some f)) (joinWords argv)

theorem loraReadme_made {w : World} {base model : Ref} {argv : List Str} {out : Str} {b f : Nat} {card : Str} (h : loraReadme w base model argv out b f = .ok card) :
    ∃ bases tf tb, LoraMade w base model argv out b f card bases tf tb := by
  unfold loraReadme generateCardLora at h
  simp only at h
  split at h
  · cases h
  · rename_i bases hb
    split at h
    · cases h
    · rename_i tf htf
      split at h
      · cases h
      · rename_i tb htb
        exact ⟨bases, tf, tb, hb, htf, htb, (Except.ok.inj h).symm⟩

/-- The lines of the warning. -/
def warnLines (b f : Nat) : List Str :=
  if b = f then []
  else [[], cs!" [!WARNING]", cs!"> The vocabulary size has been " ++ (if f > b then cs!"extended" else cs!"reduced") ++ cs!" from the base model's " ++ Nat.toDigits 10 b ++ cs!" to " ++ Nat.toDigits 10 f ++
      cs!". To load this adapter, you must first call `model.resize_token_embeddings(" ++ Nat.toDigits 10 f ++ cs!")`."]

theorem warning_lines (t : Str) (ht : '\n' ∉ t) {b f : Nat} (hb : 0 < b) (hf : 0 < f) : linesOf (t ++ warning (some b) (some f)) = t :: warnLines b f := by
  unfold warning warnLines
  dsimp only
  by_cases h : b = f
  · rw [if_neg (by intro hc; exact hc.2.2 h), if_pos h, List.append_nil, linesOf_single _ ht]
  · rw [if_pos ⟨by omega, by omega, h⟩, if_neg h]
    have e : t ++ (cs!"\n\n [!WARNING]\n> The vocabulary size has been " ++ (if f > b then cs!"extended" else cs!"reduced") ++ cs!" from the base model's " ++ Nat.toDigits 10 b ++ cs!" to " ++
        Nat.toDigits 10 f ++ cs!". To load this adapter, you must first call `model.resize_token_embeddings(" ++ Nat.toDigits 10 f ++ cs!")`.") =
        t ++ '\n' :: ([] ++ '\n' :: (cs!" [!WARNING]" ++ '\n' :: (cs!"> The vocabulary size has been " ++ (if f > b then cs!"extended" else cs!"reduced") ++ cs!" from the base model's " ++ Nat.toDigits 10 b ++ cs!" to " ++
        Nat.toDigits 10 f ++ cs!". To load this adapter, you must first call `model.resize_token_embeddings(" ++ Nat.toDigits 10 f ++ cs!")`."))) := by
      simp [List.append_assoc]
    rw [e, linesOf_append, linesOf_append, linesOf_append, linesOf_single _ ht, linesOf_single [] (by simp), linesOf_single cs!" [!WARNING]" (by decide), linesOf_single _ ?_]
    · rfl
    · have := digits_line b
      have := digits_line f
      simp only [List.mem_append, not_or]
      refine ⟨⟨⟨⟨⟨⟨⟨⟨by decide, ?_⟩, by decide⟩, ?_⟩, by decide⟩, ?_⟩, by decide⟩, ?_⟩, by decide⟩
      · split <;> decide
      all_goals assumption

theorem joinWords_line {argv : List Str} (h : ∀ s ∈ argv, '\n' ∉ s) : '\n' ∉ joinWords argv := by
  induction argv with
  | nil => simp [joinWords]
  | cons a l ih =>
    cases l with
    | nil => simpa [joinWords] using h
    | cons b l =>
      have : joinWords (a :: b :: l) = a ++ ' ' :: joinWords (b :: l) := rfl
      rw [this]
      simp only [List.mem_append, List.mem_cons, not_or]
      exact ⟨h a (by simp), by decide, ih (fun s hs => h s (by simp [hs]))⟩

/-- The lines of a card. -/
theorem loraMade_lines {w : World} {base model : Ref} {argv : List Str} {out : Str} {b f : Nat} {card : Str} {bases : List Str} {tf tb : Str} (hs : Short w [base, model] out)
    (hb : 0 < b) (hf : 0 < f) (h : LoraMade w base model argv out b f card bases tf tb) :
    linesOf card = cs!"---" :: (metadata w bases [cs!"mergekit", cs!"peft"] cs!"peft" ++ ([cs!"---",
      cs!"# " ++ (if Resume.basename out = [] then cs!"Untitled LoRA Model (1)" else Resume.basename out), [],
      cs!"This is a LoRA extracted from a language model. It was extracted using [mergekit](https://github.com/arcee-ai/mergekit).", []] ++
      cs!"## LoRA Details" :: ([] :: (cs!"This LoRA adapter was extracted from " ++ tf ++ cs!" and uses " ++ tb ++ cs!" as a base.") :: (warnLines b f ++ [[]]) ++
      cs!"### Parameters" :: ([[], cs!"The following command was used to extract this LoRA adapter:", []] ++
      cs!"```sh" :: (linesOf (joinWords argv) ++ [cs!"```", []]))))) := by
  have hshown : ∀ m ∈ [base, model], ∀ t, ShownModel w m t → '\n' ∉ t := fun m hm t ht =>
    shownModel_line ht (hs.model m hm).1 (fun l hl => (hs.lora m hm l hl).1)
  have htf : '\n' ∉ tf := hshown model (by simp) tf (modelMd_ok h.tuned)
  have htb : '\n' ∉ tb := hshown base (by simp) tb (modelMd_ok h.on)
  have hml : ∀ l ∈ metadata w bases [cs!"mergekit", cs!"peft"] cs!"peft", '\n' ∉ l := by
    intro l hl
    have hbs : ∀ p ∈ bases, '\n' ∉ w.dumped p := by
      intro p hp
      obtain ⟨h1, h2⟩ := hfPaths_ok h.hub
      have hsub : p ∈ [base, model].flatMap paths := by
        classical
        have : ∃ hub : Str → Bool, ∀ p ∈ [base, model].flatMap paths, Hub w p (hub p) :=
          ⟨fun p => if hp : p ∈ [base, model].flatMap paths then (h1 p hp).choose else false, fun p hp => by
            simp only [dif_pos hp]
            exact (h1 p hp).choose_spec⟩
        obtain ⟨hub, hhub⟩ := this
        rw [h2 hub hhub] at hp
        exact (List.mem_filter.1 hp).1
      obtain ⟨m, hm, hpm⟩ := List.mem_flatMap.1 hsub
      unfold paths at hpm
      rcases List.mem_cons.1 hpm with rfl | hpm
      · exact (hs.model m hm).2
      · obtain ⟨l, hl, rfl⟩ := List.mem_map.1 hpm
        exact (hs.lora m hm l (by simpa using hl)).2
    unfold metadata at hl
    simp only [List.mem_append, List.mem_cons, List.mem_map, List.not_mem_nil, or_false] at hl
    rcases hl with ((hl | rfl) | rfl | ⟨p, rfl | rfl, rfl⟩) | rfl
    · cases bases with
      | nil =>
        simp only [List.mem_singleton] at hl
        subst hl
        decide
      | cons x bases =>
        simp only [List.mem_cons, List.mem_map] at hl
        rcases hl with rfl | ⟨p, hp, rfl⟩
        · decide
        · have := hbs p (List.mem_cons.2 hp)
          simp only [List.mem_append, not_or]
          exact ⟨by decide, this⟩
    all_goals decide
  have e1 : linesOf (cs!"# " ++ (if Resume.basename out = [] then cs!"Untitled LoRA Model (1)" else Resume.basename out)) =
      [cs!"# " ++ (if Resume.basename out = [] then cs!"Untitled LoRA Model (1)" else Resume.basename out)] := by
    apply linesOf_single
    have := basename_line hs.title
    simp only [List.mem_append, not_or]
    refine ⟨by decide, ?_⟩
    split
    · decide
    · exact this
  have e2 := warning_lines (cs!"This LoRA adapter was extracted from " ++ tf ++ cs!" and uses " ++ tb ++ cs!" as a base.") (by
    simp only [List.mem_append, not_or]
    exact ⟨⟨⟨⟨by decide, htf⟩, by decide⟩, htb⟩, by decide⟩) hb hf
  rw [h.whole]
  unfold fillLora
  rw [linesOf_join _ (by simp)]
  simp only [List.flatMap_cons, List.flatMap_nil, linesOf_join (metadata w bases [cs!"mergekit", cs!"peft"] cs!"peft") (by simp [metadata]), flatMap_single _ hml, e1, e2]
  rw [linesOf_single cs!"---" (by decide), linesOf_single [] (by decide),
    linesOf_single cs!"This is a LoRA extracted from a language model. It was extracted using [mergekit](https://github.com/arcee-ai/mergekit)." (by decide),
    linesOf_single cs!"## LoRA Details" (by decide), linesOf_single cs!"### Parameters" (by decide),
    linesOf_single cs!"The following command was used to extract this LoRA adapter:" (by decide), linesOf_single cs!"```sh" (by decide), linesOf_single cs!"```" (by decide)]
  simp only [List.append_assoc, List.cons_append, List.nil_append]

theorem not_peftdata (w : World) (bases : List Str) (c : Char) (rest : Str) (h : c ≠ 'b' ∧ c ≠ 'l' ∧ c ≠ 't' ∧ c ≠ '-') :
    c :: rest ∉ metadata w bases [cs!"mergekit", cs!"peft"] cs!"peft" := by
  intro hl
  unfold metadata at hl
  simp only [List.mem_append, List.mem_cons, List.mem_map, List.not_mem_nil, or_false] at hl
  rcases hl with ((hl | hl) | hl | ⟨p, hp, hl⟩) | hl
  · cases bases with
    | nil =>
      simp only [List.mem_singleton, List.cons.injEq] at hl
      exact h.1 hl.1
    | cons x bases =>
      simp only [List.mem_cons, List.mem_map, List.cons.injEq] at hl
      rcases hl with hl | ⟨p, _, hl⟩
      · exact h.1 hl.1
      · simp only [List.cons_append, List.cons.injEq] at hl
        exact h.2.2.2 hl.1.symm
  · simp only [List.cons_append, List.cons.injEq] at hl
    exact h.2.1 hl.1
  · simp only [List.cons.injEq] at hl
    exact h.2.2.1 hl.1
  · simp only [List.cons_append, List.cons.injEq] at hl
    exact h.2.2.2 hl.1.symm
  · cases hl

theorem params_not_warn (b f : Nat) : cs!"### Parameters" ∉ warnLines b f := by
  unfold warnLines
  split
  · simp
  · simp [List.cons_append]

theorem sh_not_warn (b f : Nat) : cs!"```sh" ∉ warnLines b f := by
  unfold warnLines
  split
  · simp
  · simp [List.cons_append]

theorem pieces_ne (s : Str) : pieces s ≠ [] := by
  cases s with
  | nil => simp [pieces]
  | cons c cs =>
    unfold pieces
    split
    · simp
    · split <;> simp

theorem pieces_append (a b : Str) : pieces (a ++ ' ' :: b) = pieces a ++ pieces b := by
  induction a with
  | nil => simp [pieces]
  | cons c a ih =>
    rw [List.cons_append, pieces]
    by_cases hc : c = ' '
    · rw [if_pos hc, ih, pieces, if_pos hc, List.cons_append]
    · rw [if_neg hc, ih]
      have : pieces (c :: a) = match pieces a with
        | [] => [[c]]
        | l :: ls => (c :: l) :: ls := by rw [pieces, if_neg hc]
      rw [this]
      cases h : pieces a with
      | nil => exact absurd h (pieces_ne a)
      | cons l ls => rfl

theorem pieces_single (s : Str) (h : ' ' ∉ s) : pieces s = [s] := by
  induction s with
  | nil => rfl
  | cons c s ih =>
    rw [List.mem_cons, not_or] at h
    rw [pieces, if_neg (Ne.symm h.1), ih h.2]

theorem pieces_no_blank (s : Str) : ∀ p ∈ pieces s, ' ' ∉ p := by
  induction s with
  | nil => simp [pieces]
  | cons c s ih =>
    intro p hp
    rw [pieces] at hp
    by_cases hc : c = ' '
    · rw [if_pos hc] at hp
      rcases List.mem_cons.1 hp with rfl | hp
      · simp
      · exact ih p hp
    · rw [if_neg hc] at hp
      cases h : pieces s with
      | nil => exact absurd h (pieces_ne s)
      | cons l ls =>
        rw [h] at hp ih
        rcases List.mem_cons.1 hp with rfl | hp
        · simp only [List.mem_cons, not_or]
          exact ⟨Ne.symm hc, ih l (by simp)⟩
        · exact ih p (List.mem_cons_of_mem _ hp)

theorem words_join {argv : List Str} (h : ∀ s ∈ argv, s ≠ [] ∧ ' ' ∉ s) : words (joinWords argv) = argv := by
  unfold words
  induction argv with
  | nil => rfl
  | cons a l ih =>
    have ha := h a (by simp)
    cases l with
    | nil =>
      have : joinWords [a] = a := rfl
      rw [this, pieces_single a ha.2]
      simp [ha.1]
    | cons b l =>
      have : joinWords (a :: b :: l) = a ++ ' ' :: joinWords (b :: l) := rfl
      rw [this, pieces_append, pieces_single a ha.2, List.filter_append, ih (fun s hs => h s (List.mem_cons_of_mem _ hs))]
      simp [ha.1]

theorem tame_free {s : Str} (h : Tame s) : s ≠ [] ∧ ' ' ∉ s ∧ '\n' ∉ s := by
  refine ⟨h.1, ?_, ?_⟩ <;>
  · intro hc
    have := h.2 _ hc
    revert this
    decide

theorem command_lines {w : World} {base model : Ref} {argv : List Str} {out : Str} {b f : Nat} {card : Str} (hs : Short w [base, model] out)
    (hb : 0 < b) (hf : 0 < f) (h : loraReadme w base model argv out b f = .ok card) (hq : cs!"```" ∉ linesOf (joinWords argv)) : command card = linesOf (joinWords argv) := by
  obtain ⟨bases, tf, tb, hm⟩ := loraReadme_made h
  unfold command
  rw [loraMade_lines hs hb hf hm, between_skip (by decide), between_skips (not_peftdata w bases _ _ (by decide)), between_skips, between_skip (by decide), between_skips,
    between_skip (by decide), between_skips, between_hit hq]
  · decide
  · have := sh_not_warn b f
    simp only [List.mem_append, List.mem_cons, List.not_mem_nil, or_false, not_or]
    exact ⟨by decide, by simp [List.cons_append], this, by decide⟩
  · simp [List.cons_append]

/-! ## Theorems -/

/-- **C139** What the card says about the adapter: the model it was extracted from, its base, each with a link if it is taken for a model of the hub, and, exactly if the
vocabularies differ in size, the size to which embeddings must be resized. -/
theorem C139_about (w : World) (base model : Ref) (argv : List Str) (out : Str) {b f : Nat} (hb : 0 < b) (hf : 0 < f) (card : Str) (hs : Short w [base, model] out)
    (h : loraReadme w base model argv out b f = .ok card) :
    ∃ t t' rest, ShownModel w model t ∧ ShownModel w base t' ∧ Resized b f rest ∧
      about card = (cs!"This LoRA adapter was extracted from " ++ t ++ cs!" and uses " ++ t' ++ cs!" as a base.") :: rest := by
  obtain ⟨bases, tf, tb, hm⟩ := loraReadme_made h
  refine ⟨tf, tb, (warnLines b f).filter (fun l => decide (l ≠ [])), modelMd_ok hm.tuned, modelMd_ok hm.on, ?_, ?_⟩
  · unfold warnLines
    split
    · rename_i h; exact .same h
    · rename_i h
      by_cases hlt : b < f
      · have := Resized.larger hlt
        simpa [if_pos hlt] using this
      · have := Resized.smaller (show f < b by omega)
        simpa [if_neg hlt] using this
  · unfold about
    rw [loraMade_lines hs hb hf hm, between_skip (by decide), between_skips (not_peftdata w bases _ _ (by decide)), between_skips, between_hit]
    · simp
    · have := params_not_warn b f
      simp only [List.mem_append, List.mem_cons, List.not_mem_nil, or_false, not_or]
      exact ⟨by decide, by simp [List.cons_append], this, by decide⟩
    · simp [List.cons_append]

/-- **C139** The command shown gives the adapter again: a shell reads the words of the command from it, if there is nothing special in them. -/
theorem C139_command (w : World) (base model : Ref) (argv : List Str) (out : Str) {b f : Nat} (hb : 0 < b) (hf : 0 < f) (card : Str) (hs : Short w [base, model] out)
    (h : loraReadme w base model argv out b f = .ok card) (htame : ∀ s ∈ argv, Tame s) : ∃ line, command card = [line] ∧ words line = argv := by
  have hline := joinWords_line (fun s hs => (tame_free (htame s hs)).2.2)
  refine ⟨joinWords argv, ?_, words_join (fun s hs => ⟨(tame_free (htame s hs)).1, (tame_free (htame s hs)).2.1⟩)⟩
  rw [command_lines hs hb hf h, linesOf_single _ hline]
  rw [linesOf_single _ hline, List.mem_singleton]
  intro hc
  have hq : '`' ∈ joinWords argv := by rw [← hc]; decide
  have : ∀ l : List Str, (∀ s ∈ l, Tame s) → '`' ∉ joinWords l := by
    intro l
    induction l with
    | nil => simp [joinWords]
    | cons a l ih =>
      intro hl
      have ha : '`' ∉ a := by
        intro hm
        have := (hl a (by simp)).2 _ hm
        revert this
        decide
      cases l with
      | nil => simpa [joinWords] using ha
      | cons b l =>
        have e : joinWords (a :: b :: l) = a ++ ' ' :: joinWords (b :: l) := rfl
        rw [e]
        simp only [List.mem_append, List.mem_cons, not_or]
        exact ⟨ha, by decide, ih (fun s hs => hl s (List.mem_cons_of_mem _ hs))⟩
  exact this argv htame hq

/-- **C139** It does not if there is a blank in one of them, because nothing is quoted. -/
theorem C139_blank (w : World) (base model : Ref) (argv : List Str) (out : Str) {b f : Nat} (hb : 0 < b) (hf : 0 < f) (card : Str) (hs : Short w [base, model] out)
    (h : loraReadme w base model argv out b f = .ok card) (hq : cs!"```" ∉ linesOf (joinWords argv)) {s : Str} (hin : s ∈ argv) (hblank : ' ' ∈ s) :
    words (joinLines (command card)) ≠ argv := by
  rw [command_lines hs hb hf h hq, join_linesOf]
  intro he
  rw [← he] at hin
  exact pieces_no_blank _ s (List.mem_filter.1 hin).1 hblank

/-- **C139** The metadata name exactly those paths of the two models that are taken for paths of the hub. -/
theorem C139_hub (w : World) (base model : Ref) (argv : List Str) (out : Str) {b f : Nat} (hb : 0 < b) (hf : 0 < f) (card : Str) (hs : Short w [base, model] out)
    (h : loraReadme w base model argv out b f = .ok card) :
    ∃ hub : Str → Bool, (∀ p ∈ paths base ++ paths model, Hub w p (hub p)) ∧
      (((paths base ++ paths model).filter hub = [] ∧ cs!"base_model: []" ∈ linesOf card) ∨
        ((paths base ++ paths model).filter hub ≠ [] ∧ peftItems card = ((paths base ++ paths model).filter hub).map (fun p => cs!"- " ++ w.dumped p))) := by
  obtain ⟨bases, tf, tb, hm⟩ := loraReadme_made h
  have hlines := loraMade_lines hs hb hf hm
  obtain ⟨h1, h2⟩ := hfPaths_ok hm.hub
  have hflat : [base, model].flatMap paths = paths base ++ paths model := by simp
  rw [hflat] at h1 h2
  classical
  refine ⟨fun p => if hp : p ∈ paths base ++ paths model then (h1 p hp).choose else false, ?_, ?_⟩
  · intro p hp
    simp only [dif_pos hp]
    exact (h1 p hp).choose_spec
  · have e := h2 (fun p => if hp : p ∈ paths base ++ paths model then (h1 p hp).choose else false) (fun p hp => by
      simp only [dif_pos hp]
      exact (h1 p hp).choose_spec)
    rw [← e]
    cases hbs : bases with
    | nil =>
      refine Or.inl ⟨rfl, ?_⟩
      rw [hlines, hbs]
      simp [metadata]
    | cons p ps =>
      refine Or.inr ⟨by simp, ?_⟩
      rw [← hbs]
      unfold peftItems
      rw [hlines]
      have hmeta : metadata w bases [cs!"mergekit", cs!"peft"] cs!"peft" =
          cs!"base_model:" :: (bases.map (fun p => cs!"- " ++ w.dumped p) ++ cs!"library_name: peft" :: [cs!"tags:", cs!"- mergekit", cs!"- peft", []]) := by
        unfold metadata
        rw [hbs]
        simp
      rw [hmeta, between_skip (by decide), List.cons_append, List.append_assoc, List.cons_append]
      refine between_hit ?_
      intro hl
      obtain ⟨q, _, hq⟩ := List.mem_map.1 hl
      simp at hq

/-- **C139** Exactly when the card can be written: every path of the two models is not empty, and if it is a relative path with at most one slash that exists here, the hub must
answer.  Otherwise the extraction fails after the adapter has been written. -/
theorem C139_written (w : World) (base model : Ref) (argv : List Str) (out : Str) (b f : Nat) :
    (∃ card, loraReadme w base model argv out b f = .ok card) ↔ ∀ p ∈ paths base ++ paths model, CanShow w p := by
  have hflat : [base, model].flatMap paths = paths base ++ paths model := by simp
  constructor
  · rintro ⟨card, h⟩ p hp
    obtain ⟨bases, tf, tb, hm⟩ := loraReadme_made h
    obtain ⟨x, hx⟩ := (hfPaths_ok hm.hub).1 p (by rw [hflat]; exact hp)
    exact (canShow_iff w p).2 ⟨x, (isHf_iff w p x).2 hx⟩
  · intro h
    obtain ⟨ps, hps⟩ := hfPaths_total w [base, model] (by rw [hflat]; exact h)
    obtain ⟨t, ht⟩ := modelMd_total w model (fun p hp => h p (List.mem_append_right _ hp))
    obtain ⟨t', ht'⟩ := modelMd_total w base (fun p hp => h p (List.mem_append_left _ hp))
    unfold loraReadme generateCardLora
    simp only [hps, ht, ht']
    exact ⟨_, rfl⟩

/-! ## Concrete cases -/

theorem lora_short : Short someWorld [hubA, hubB] cs!"out/l" := by
  refine ⟨by decide, ?_, ?_⟩
  · intro m hm
    simp only [List.mem_cons, List.not_mem_nil, or_false] at hm
    rcases hm with rfl | rfl <;> decide
  · intro m hm l hl
    simp only [List.mem_cons, List.not_mem_nil, or_false] at hm
    rcases hm with rfl | rfl
    · cases hl
    · cases hl; decide

theorem lora_shown : ∀ p ∈ paths hubA ++ paths hubB, CanShow someWorld p := by
  intro p hp
  have : p = cs!"org/a" ∨ p = cs!"org/b" ∨ p = cs!"org/l" := by simpa [paths, hubA, hubB] using hp
  rcases this with rfl | rfl | rfl <;> exact ⟨by simp, Or.inr (Or.inr (Or.inr (Or.inl rfl)))⟩

/-- A card that meets the hypotheses, with a larger vocabulary. -/
example : ∃ card, loraReadme someWorld hubA hubB [cs!"mergekit-extract-lora", cs!"--model", cs!"org/b+org/l"] cs!"out/l" 32000 32002 = .ok card ∧
    words (joinLines (command card)) = [cs!"mergekit-extract-lora", cs!"--model", cs!"org/b+org/l"] ∧
    ∃ t t' line, about card = [t, t', line] ∧ t' = cs!" [!WARNING]" := by
  obtain ⟨card, h⟩ := (C139_written someWorld hubA hubB [cs!"mergekit-extract-lora", cs!"--model", cs!"org/b+org/l"] cs!"out/l" 32000 32002).2 lora_shown
  obtain ⟨line, h1, h2⟩ := C139_command _ _ _ _ _ (by omega) (by omega) card lora_short h (by
    intro s hs
    simp only [List.mem_cons, List.not_mem_nil, or_false] at hs
    rcases hs with rfl | rfl | rfl <;> exact ⟨by simp, by decide⟩)
  obtain ⟨t, t', rest, -, -, hr, ha⟩ := C139_about _ _ _ _ _ (by omega) (by omega) card lora_short h
  refine ⟨card, h, by rw [h1]; exact h2, ?_⟩
  rw [ha]
  cases hr with
  | same h => exact absurd h (by omega)
  | larger _ => exact ⟨_, _, _, rfl, rfl⟩
  | smaller h => exact absurd h (by omega)

/-- A directory with a blank in its name. -/
example : ∃ card, loraReadme someWorld hubA hubB [cs!"mergekit-extract-lora", cs!"--out-path", cs!"my lora"] cs!"out/l" 5 5 = .ok card ∧
    words (joinLines (command card)) ≠ [cs!"mergekit-extract-lora", cs!"--out-path", cs!"my lora"] := by
  obtain ⟨card, h⟩ := (C139_written someWorld hubA hubB [cs!"mergekit-extract-lora", cs!"--out-path", cs!"my lora"] cs!"out/l" 5 5).2 lora_shown
  exact ⟨card, h, C139_blank _ _ _ _ _ (by omega) (by omega) card lora_short h (by decide) (s := cs!"my lora") (by simp) (by decide)⟩

end Verif.Card
