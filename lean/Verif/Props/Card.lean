import Verif.Model.Card
import Mathlib.Data.List.Basic

/-! # C111: model cards -/

set_option linter.unusedSectionVars false

namespace Verif.Card

open Verif.ModelRef (Str Ref)
open Verif.Config (MergeConfig)

/-! ## Specification: reading a card line by line -/

/-- The lines of a text. -/
def linesOf : Str → List Str
  | [] => [[]]
  | c :: cs =>
    if c = '\n' then [] :: linesOf cs
    else match linesOf cs with
      | [] => [[c]]
      | l :: ls => (c :: l) :: ls

/-- The lines after the first line `start`, up to the next line `stop`. -/
def between (start stop : Str) (ls : List Str) : List Str := ((ls.dropWhile (fun l => decide (l ≠ start))).drop 1).takeWhile (fun l => decide (l ≠ stop))

/-- The bullets of the list of models. -/
def listed (card : Str) : List Str :=
  (between cs!"### Models Merged" cs!"### Configuration" (linesOf card)).filter (fun l => decide (cs!"* " <+: l))

/-- The configuration shown. -/
def shown (card : Str) : List Str := between cs!"```yaml" cs!"```" (linesOf card)

/-- The models of the hub named in the metadata, as YAML items. -/
def hubItems (card : Str) : List Str := between cs!"base_model:" cs!"library_name: transformers" (linesOf card)

/-- The sentence about the method. -/
def sentence (card : Str) : List Str :=
  (between cs!"### Merge Method" cs!"### Models Merged" (linesOf card)).filter (fun l => decide (l ≠ []))

/-- A path taken as one of the hub: not absolute, with at most one slash, and either not existing here or existing there. -/
inductive Hub (w : World) (p : Str) : Bool → Prop
  | absolute : (∃ c rest, p = c :: rest ∧ (c = '/' ∨ c = '~')) → Hub w p false
  | deep : p ≠ [] → 1 < p.count '/' → Hub w p false
  | absent (c : Char) (rest : Str) : p = c :: rest → c ≠ '/' → c ≠ '~' → p.count '/' ≤ 1 → w.exists_ p = false → Hub w p true
  | asked (c : Char) (rest : Str) (b : Bool) : p = c :: rest → c ≠ '/' → c ≠ '~' → p.count '/' ≤ 1 → w.exists_ p = true → w.hub p = .is b → Hub w p b
  | notName (c : Char) (rest : Str) : p = c :: rest → c ≠ '/' → c ≠ '~' → p.count '/' ≤ 1 → w.exists_ p = true → w.hub p = .badName → Hub w p false

/-- A path as shown: with a link if it is one of the hub. -/
inductive Shown (w : World) (p : Str) : Str → Prop
  | link : Hub w p true → Shown w p (cs!"[" ++ p ++ cs!"](https://huggingface.co/" ++ p ++ cs!")")
  | plain : Hub w p false → Shown w p p

/-- A model as shown. -/
inductive ShownModel (w : World) (m : Ref) : Str → Prop
  | plain (t : Str) : m.lora = none → Shown w m.model.path t → ShownModel w m t
  | adapted (l : ModelRef.ModelPath) (t t' : Str) : m.lora = some l → Shown w m.model.path t → Shown w l.path t' → ShownModel w m (t ++ cs!" + " ++ t')

/-- A method as shown: by its pretty name if it has one, with a link if there is a reference. -/
inductive ShownMethod (w : World) (method : Str) : Str → Prop
  | unknown : w.methods method = none → ShownMethod w method method
  | known (name : Str) (pretty url : Option Str) (s : Str) : w.methods method = some (name, pretty, url) →
      ((∃ c cs, pretty = some (c :: cs) ∧ s = c :: cs) ∨ ((pretty = none ∨ pretty = some []) ∧ s = name)) →
      (url = none ∨ ∃ u, url = some u ∧ ∀ c ∈ u, c = ' ' ∨ c = '\n' ∨ c = '\t' ∨ c = '\r') → ShownMethod w method s
  | linked (name : Str) (pretty : Option Str) (u s : Str) : w.methods method = some (name, pretty, some u) →
      ((∃ c cs, pretty = some (c :: cs) ∧ s = c :: cs) ∨ ((pretty = none ∨ pretty = some []) ∧ s = name)) →
      (∃ c ∈ u, c ≠ ' ' ∧ c ≠ '\n' ∧ c ≠ '\t' ∧ c ≠ '\r') → ShownMethod w method (cs!"[" ++ s ++ cs!"](" ++ u ++ cs!")")

/-- The configuration mentions a model. -/
inductive Mentions {K : Type} (c : MergeConfig K) (m : Ref) : Prop
  | base : c.baseModel = some m → Mentions c m
  | model (l : List (Config.InModel K)) (x : Config.InModel K) : c.models = some l → x ∈ l → x.model = m → Mentions c m
  | slice (l : List (Config.OutSlice K)) (s : Config.OutSlice K) (x : Config.InSlice K) : c.slices = some l → s ∈ l → x ∈ s.sources → x.model = m →
      Mentions c m
  | moduleModel (ms : List (String × Config.OutModule K)) (d : String × Config.OutModule K) (l : List (Config.InModel K)) (x : Config.InModel K) :
      c.modules = some ms → d ∈ ms → d.2.models = some l → x ∈ l → x.model = m → Mentions c m
  | moduleSlice (ms : List (String × Config.OutModule K)) (d : String × Config.OutModule K) (l : List (Config.OutSlice K)) (s : Config.OutSlice K)
      (x : Config.InSlice K) : c.modules = some ms → d ∈ ms → d.2.slices = some l → s ∈ l → x ∈ s.sources → x.model = m → Mentions c m

/-- `refs` are the models of the configuration, each once, in any order. -/
structure Refs {K : Type} (c : MergeConfig K) (refs : List Ref) : Prop where
  once : refs.Nodup
  all : ∀ m, m ∈ refs ↔ m ∈ c.referencedModels

/-- Names without line breaks. -/
structure OneLine (w : World) (method : Str) (refs : List Ref) (name : Str) : Prop where
  title : '\n' ∉ name
  called : '\n' ∉ method
  registered : ∀ n p u, w.methods method = some (n, p, u) → '\n' ∉ n ∧ (∀ x, p = some x → '\n' ∉ x) ∧ ∀ x, u = some x → '\n' ∉ x
  model : ∀ m ∈ refs, '\n' ∉ m.model.path ∧ '\n' ∉ w.dumped m.model.path
  lora : ∀ m ∈ refs, ∀ l, m.lora = some l → '\n' ∉ l.path ∧ '\n' ∉ w.dumped l.path

/-! ## Lemmas -/

theorem linesOf_ne (s : Str) : linesOf s ≠ [] := by
  cases s with
  | nil => simp [linesOf]
  | cons c cs =>
    unfold linesOf
    split
    · simp
    · split <;> simp

theorem linesOf_append (a b : Str) : linesOf (a ++ '\n' :: b) = linesOf a ++ linesOf b := by
  induction a with
  | nil => simp [linesOf]
  | cons c a ih =>
    rw [List.cons_append, linesOf]
    by_cases hc : c = '\n'
    · rw [if_pos hc, ih, linesOf, if_pos hc, List.cons_append]
    · rw [if_neg hc, ih]
      have : linesOf (c :: a) = match linesOf a with
        | [] => [[c]]
        | l :: ls => (c :: l) :: ls := by rw [linesOf, if_neg hc]
      rw [this]
      cases h : linesOf a with
      | nil => exact absurd h (linesOf_ne a)
      | cons l ls => rfl

theorem linesOf_single (s : Str) (h : '\n' ∉ s) : linesOf s = [s] := by
  induction s with
  | nil => rfl
  | cons c s ih =>
    rw [List.mem_cons, not_or] at h
    rw [linesOf, if_neg (Ne.symm h.1), ih h.2]

theorem linesOf_join (ls : List Str) (h : ls ≠ []) : linesOf (joinLines ls) = ls.flatMap linesOf := by
  induction ls with
  | nil => exact absurd rfl h
  | cons l ls ih =>
    cases ls with
    | nil => simp [joinLines]
    | cons l' ls =>
      have : joinLines (l :: l' :: ls) = l ++ '\n' :: joinLines (l' :: ls) := rfl
      rw [this, linesOf_append, ih (by simp), List.flatMap_cons (xs := l' :: ls)]

theorem join_linesOf (s : Str) : joinLines (linesOf s) = s := by
  induction s with
  | nil => rfl
  | cons c s ih =>
    rw [linesOf]
    by_cases hc : c = '\n'
    · rw [if_pos hc]
      cases h : linesOf s with
      | nil => exact absurd h (linesOf_ne s)
      | cons l ls =>
        rw [joinLines, ← h, ih, hc]
        · rfl
        · simp
    · rw [if_neg hc]
      cases h : linesOf s with
      | nil => exact absurd h (linesOf_ne s)
      | cons l ls =>
        rw [h] at ih
        simp only
        cases ls with
        | nil => simp only [joinLines] at ih ⊢; rw [ih]
        | cons l' ls =>
          rw [joinLines] at ih ⊢
          · rw [List.cons_append, ih]
          · simp
          · simp

theorem flatMap_single (ls : List Str) (h : ∀ l ∈ ls, '\n' ∉ l) : ls.flatMap linesOf = ls := by
  induction ls with
  | nil => rfl
  | cons l ls ih => rw [List.flatMap_cons, linesOf_single l (h l (by simp)), ih (fun x hx => h x (by simp [hx]))]; rfl

/-- The lines of a bulleted list. -/
def orBlank (ls : List Str) : List Str := if ls = [] then [[]] else ls

theorem linesOf_orBlank (ls : List Str) (h : ∀ l ∈ ls, '\n' ∉ l) : linesOf (joinLines ls) = orBlank ls := by
  unfold orBlank
  split
  · rename_i h; subst h; rfl
  · rename_i hne; rw [linesOf_join ls hne, flatMap_single ls h]

/-- A card by lines. -/
theorem fill_lines (meta' : List Str) (hm : meta' ≠ []) (hml : ∀ l ∈ meta', '\n' ∉ l) (name method baseText : Str) (models : List Str) (yaml : Str)
    (hn : '\n' ∉ name) (hme : '\n' ∉ method) (hb : '\n' ∉ baseText) (hmo : ∀ l ∈ models, '\n' ∉ l) :
    linesOf (fill meta' name method baseText models yaml) =
      cs!"---" :: (meta' ++ ([cs!"---", cs!"# " ++ name, [],
    cs!"This is a merge of pre-trained language models created using [mergekit](https://github.com/cg123/mergekit).", [],
    cs!"## Merge Details"] ++ cs!"### Merge Method" :: ([[],
    cs!"This model was merged using the " ++ method ++ cs!" merge method" ++ baseText ++ cs!".", []] ++
    cs!"### Models Merged" :: ([[], cs!"The following models were included in the merge:"] ++ orBlank models ++ [[]] ++
    cs!"### Configuration" :: ([[], cs!"The following YAML configuration was used to produce this model:", []] ++
    cs!"```yaml" :: (linesOf yaml ++ [cs!"```", []])))))) := by
  unfold fill
  rw [linesOf_join _ (by simp)]
  simp only [List.flatMap_cons, List.flatMap_nil, linesOf_join meta' hm, flatMap_single meta' hml, linesOf_orBlank models hmo]
  have e1 : linesOf (cs!"# " ++ name) = [cs!"# " ++ name] := linesOf_single _ (by simpa using hn)
  have e2 : linesOf (cs!"This model was merged using the " ++ method ++ cs!" merge method" ++ baseText ++ cs!".") =
      [cs!"This model was merged using the " ++ method ++ cs!" merge method" ++ baseText ++ cs!"."] := by
    apply linesOf_single
    simp only [List.mem_append, not_or]
    exact ⟨⟨⟨⟨by decide, hme⟩, by decide⟩, hb⟩, by decide⟩
  rw [e1, e2]
  rw [linesOf_single cs!"---" (by decide), linesOf_single [] (by decide),
    linesOf_single cs!"This is a merge of pre-trained language models created using [mergekit](https://github.com/cg123/mergekit)." (by decide),
    linesOf_single cs!"## Merge Details" (by decide), linesOf_single cs!"### Merge Method" (by decide),
    linesOf_single cs!"### Models Merged" (by decide), linesOf_single cs!"The following models were included in the merge:" (by decide),
    linesOf_single cs!"### Configuration" (by decide),
    linesOf_single cs!"The following YAML configuration was used to produce this model:" (by decide),
    linesOf_single cs!"```yaml" (by decide), linesOf_single cs!"```" (by decide)]
  simp only [List.append_assoc, List.cons_append, List.nil_append]

theorem between_skip {start stop l : Str} {ls : List Str} (h : l ≠ start) : between start stop (l :: ls) = between start stop ls := by
  unfold between
  rw [List.dropWhile_cons_of_pos (by simpa using h)]

theorem between_skips {start stop : Str} {before ls : List Str} (h : start ∉ before) :
    between start stop (before ++ ls) = between start stop ls := by
  induction before with
  | nil => rfl
  | cons l before ih =>
    rw [List.mem_cons, not_or] at h
    rw [List.cons_append, between_skip (Ne.symm h.1), ih h.2]

theorem between_hit {start stop : Str} {mid after : List Str} (h : stop ∉ mid) : between start stop (start :: (mid ++ stop :: after)) = mid := by
  unfold between
  rw [List.dropWhile_cons_of_neg (by simp)]
  simp only [List.drop_succ_cons, List.drop_zero]
  rw [List.takeWhile_append_of_pos (by
    intro l hl
    simp only [decide_eq_true_eq]
    rintro rfl
    exact h hl)]
  simp

theorem isHf_iff (w : World) (p : Str) (b : Bool) : isHf w p = .ok b ↔ Hub w p b := by
  constructor
  · intro h
    unfold isHf at h
    cases p with
    | nil => cases h
    | cons c rest =>
      simp only at h
      split at h
      · rename_i hc
        cases h
        rcases hc with hc | hc | hc
        · exact .absolute ⟨c, rest, rfl, Or.inl hc⟩
        · exact .absolute ⟨c, rest, rfl, Or.inr hc⟩
        · exact .deep (by simp) hc
      · rename_i hc
        rw [not_or, not_or] at hc
        split at h
        · rename_i he
          cases h
          exact .absent c rest rfl hc.1 hc.2.1 (by omega) (by simpa using he)
        · rename_i he
          have he : w.exists_ (c :: rest) = true := by simpa using he
          split at h
          · rename_i b' hb
            cases h
            exact .asked c rest _ rfl hc.1 hc.2.1 (by omega) he hb
          · rename_i hb
            cases h
            exact .notName c rest rfl hc.1 hc.2.1 (by omega) he hb
          · cases h
  · intro h
    cases h with
    | absolute h =>
      obtain ⟨c, rest, rfl, h⟩ := h
      unfold isHf
      simp only
      rw [if_pos (by rcases h with h | h <;> simp [h])]
    | deep hne h =>
      cases p with
      | nil => exact absurd rfl hne
      | cons c rest =>
        unfold isHf
        simp only
        rw [if_pos (Or.inr (Or.inr h))]
    | absent c rest hp h1 h2 h3 h4 =>
      subst hp
      unfold isHf
      simp only
      rw [if_neg (by rw [not_or, not_or]; exact ⟨h1, h2, by omega⟩), if_pos (by simp [h4])]
    | asked c rest _ hp h1 h2 h3 h4 h5 =>
      subst hp
      unfold isHf
      simp only
      rw [if_neg (by rw [not_or, not_or]; exact ⟨h1, h2, by omega⟩), if_neg (by simp [h4]), h5]
    | notName c rest hp h1 h2 h3 h4 h5 =>
      subst hp
      unfold isHf
      simp only
      rw [if_neg (by rw [not_or, not_or]; exact ⟨h1, h2, by omega⟩), if_neg (by simp [h4]), h5]

theorem maybeLink_ok {w : World} {p t : Str} (h : maybeLink w p = .ok t) : Shown w p t := by
  unfold maybeLink at h
  split at h
  · cases h
  · rename_i hb
    cases h
    exact .link ((isHf_iff _ _ _).1 hb)
  · rename_i hb
    cases h
    exact .plain ((isHf_iff _ _ _).1 hb)

theorem modelMd_ok {w : World} {m : Ref} {t : Str} (h : modelMd w m = .ok t) : ShownModel w m t := by
  unfold modelMd at h
  split at h
  · cases h
  · rename_i t1 h1
    split at h
    · rename_i hl
      cases h
      exact .plain _ hl (maybeLink_ok h1)
    · rename_i l hl
      split at h
      · cases h
      · rename_i t2 h2
        cases h
        exact .adapted l _ _ hl (maybeLink_ok h1) (maybeLink_ok h2)

theorem bullets_ok {w : World} {base : Option Ref} {refs : List Ref} {ts : List Str} (h : bullets w base refs = .ok ts) :
    List.Forall₂ (fun m t => ∃ s, ShownModel w m s ∧ t = cs!"* " ++ s) (refs.filter (fun m => decide (some m ≠ base))) ts := by
  induction refs generalizing ts with
  | nil => cases h; exact .nil
  | cons m refs ih =>
    unfold bullets at h
    split at h
    · rename_i hb
      rw [List.filter_cons_of_neg (by simpa using hb)]
      exact ih h
    · rename_i hb
      rw [List.filter_cons_of_pos (by simpa using hb)]
      split at h
      · cases h
      · rename_i t ht
        split at h
        · cases h
        · rename_i ts' hts
          cases h
          exact .cons ⟨_, modelMd_ok ht, rfl⟩ (ih hts)

theorem bullets_star {w : World} {base : Option Ref} {refs : List Ref} {ts : List Str} (h : bullets w base refs = .ok ts) :
    ∀ l ∈ ts, ∃ s, l = cs!"* " ++ s := by
  intro l hl
  have := bullets_ok h
  generalize refs.filter (fun m => decide (some m ≠ base)) = fl at this
  clear h
  induction this with
  | nil => cases hl
  | cons h _ ih =>
    rcases List.mem_cons.1 hl with rfl | hl
    · obtain ⟨s, _, rfl⟩ := h
      exact ⟨s, rfl⟩
    · exact ih hl

/-- The paths of a model. -/
def paths (m : Ref) : List Str := m.model.path :: (m.lora.toList.map (·.path))

theorem hfPaths_ok {w : World} {refs : List Ref} {ps : List Str} (h : hfPaths w refs = .ok ps) :
    (∀ p ∈ refs.flatMap paths, ∃ b, Hub w p b) ∧ ∀ hub : Str → Bool, (∀ p ∈ refs.flatMap paths, Hub w p (hub p)) →
      ps = (refs.flatMap paths).filter hub := by
  induction refs generalizing ps with
  | nil =>
    cases h
    exact ⟨fun p hp => absurd hp (by simp), fun _ _ => rfl⟩
  | cons m refs ih =>
    unfold hfPaths at h
    have uniq : ∀ {p : Str} {b b' : Bool}, isHf w p = .ok b → Hub w p b' → b = b' := by
      intro p b b' h1 h2
      rw [(isHf_iff w p b').2 h2] at h1
      cases h1
      rfl
    split at h
    · cases h
    · rename_i b hb
      split at h
      · rename_i hl
        split at h
        · cases h
        · rename_i ps' hps
          cases h
          obtain ⟨i1, i2⟩ := ih hps
          rw [List.flatMap_cons]
          have hp : paths m = [m.model.path] := by simp [paths, hl]
          rw [hp]
          constructor
          · intro p hp
            rw [List.mem_append, List.mem_singleton] at hp
            rcases hp with rfl | hp
            · exact ⟨b, (isHf_iff _ _ _).1 hb⟩
            · exact i1 p hp
          · intro hub hhub
            rw [i2 hub (fun p hp => hhub p (by simp only [List.mem_append]; exact Or.inr hp)), List.filter_append]
            congr 1
            have := uniq hb (hhub m.model.path (by simp))
            rw [List.filter_cons, List.filter_nil, ← this]
      · rename_i l hl
        split at h
        · cases h
        · rename_i b' hb'
          split at h
          · cases h
          · rename_i ps' hps
            cases h
            obtain ⟨i1, i2⟩ := ih hps
            rw [List.flatMap_cons]
            have hp : paths m = [m.model.path] ++ [l.path] := by simp [paths, hl]
            rw [hp]
            constructor
            · intro p hp
              simp only [List.mem_append, List.mem_singleton] at hp
              rcases hp with (rfl | rfl) | hp
              · exact ⟨b, (isHf_iff _ _ _).1 hb⟩
              · exact ⟨b', (isHf_iff _ _ _).1 hb'⟩
              · exact i1 p hp
            · intro hub hhub
              rw [i2 hub (fun p hp => hhub p (by simp only [List.mem_append]; exact Or.inr hp)), List.filter_append, List.filter_append]
              congr 1
              have e1 := uniq hb (hhub m.model.path (by simp))
              have e2 := uniq hb' (hhub l.path (by simp))
              rw [List.filter_cons, List.filter_nil, List.filter_cons, List.filter_nil, ← e1, ← e2]

theorem shown_line {w : World} {p t : Str} (h : Shown w p t) (hp : '\n' ∉ p) : '\n' ∉ t := by
  cases h with
  | link _ =>
    simp only [List.mem_append, not_or]
    exact ⟨⟨⟨⟨by decide, hp⟩, by decide⟩, hp⟩, by decide⟩
  | plain _ => exact hp

theorem shownModel_line {w : World} {m : Ref} {t : Str} (h : ShownModel w m t) (hm : '\n' ∉ m.model.path)
    (hl : ∀ l, m.lora = some l → '\n' ∉ l.path) : '\n' ∉ t := by
  cases h with
  | plain _ _ h => exact shown_line h hm
  | adapted l _ _ hl' h h' =>
    simp only [List.mem_append, not_or]
    exact ⟨⟨shown_line h hm, by decide⟩, shown_line h' (hl l hl')⟩

theorem methodMd_line {w : World} {method : Str} (h : '\n' ∉ method)
    (hr : ∀ n p u, w.methods method = some (n, p, u) → '\n' ∉ n ∧ (∀ x, p = some x → '\n' ∉ x) ∧ ∀ x, u = some x → '\n' ∉ x) :
    '\n' ∉ methodMd w method := by
  unfold methodMd
  split
  · exact h
  · rename_i n p u hm
    obtain ⟨h1, h2, h3⟩ := hr n p u hm
    have hs : '\n' ∉ prettyOr n p := by
      unfold prettyOr
      split
      · exact h2 _ rfl
      · exact h1
    split
    · split
      · simp only [List.mem_append, not_or]
        exact ⟨⟨⟨⟨by decide, hs⟩, by decide⟩, h3 _ rfl⟩, by decide⟩
      · exact hs
    · exact hs

theorem methodMd_shown (w : World) (method : Str) : ShownMethod w method (methodMd w method) := by
  unfold methodMd
  split
  · rename_i h; exact .unknown h
  · rename_i n p u h
    have hs : (∃ c cs, p = some (c :: cs) ∧ prettyOr n p = c :: cs) ∨ ((p = none ∨ p = some []) ∧ prettyOr n p = n) := by
      clear h
      rcases p with _ | _ | ⟨c, cs⟩
      · exact Or.inr ⟨Or.inl rfl, rfl⟩
      · exact Or.inr ⟨Or.inr rfl, rfl⟩
      · exact Or.inl ⟨c, cs, rfl, rfl⟩
    cases u with
    | none => exact .known n p none _ h hs (Or.inl rfl)
    | some u =>
      simp only
      split
      · rename_i hb
        refine .linked n p u _ h hs ?_
        unfold notBlank at hb
        rw [List.any_eq_true] at hb
        obtain ⟨c, hc, hcb⟩ := hb
        refine ⟨c, hc, ?_⟩
        simp only [Bool.not_eq_true', Bool.or_eq_false_iff, decide_eq_false_iff_not] at hcb
        exact ⟨hcb.1.1.1, hcb.1.1.2, hcb.1.2, hcb.2⟩
      · rename_i hb
        refine .known n p (some u) _ h hs (Or.inr ⟨u, rfl, ?_⟩)
        intro c hc
        unfold notBlank at hb
        rw [List.any_eq_true] at hb
        by_contra hno
        rw [not_or, not_or, not_or] at hno
        exact hb ⟨c, hc, by simp [hno.1, hno.2.1, hno.2.2.1, hno.2.2.2]⟩

theorem mentions_iff {K : Type} (c : MergeConfig K) (m : Ref) : Mentions c m ↔ m ∈ c.referencedModels := by
  unfold MergeConfig.referencedModels
  simp only [List.mem_append, List.mem_map, List.mem_flatMap, Option.mem_toList]
  constructor
  · intro h
    cases h with
    | base h => exact Or.inl (Or.inl (Or.inl h))
    | model l x hl hx hm => exact Or.inl (Or.inl (Or.inr ⟨x, by rw [hl]; exact hx, hm⟩))
    | slice l s x hl hs hx hm => exact Or.inl (Or.inr ⟨s, by rw [hl]; exact hs, x, hx, hm⟩)
    | moduleModel ms d l x hms hd hl hx hm => exact Or.inr ⟨d, by rw [hms]; exact hd, Or.inl ⟨x, by rw [hl]; exact hx, hm⟩⟩
    | moduleSlice ms d l s x hms hd hl hs hx hm =>
      exact Or.inr ⟨d, by rw [hms]; exact hd, Or.inr ⟨s, by rw [hl]; exact hs, x, hx, hm⟩⟩
  · rintro (((h | ⟨x, hx, hm⟩) | ⟨s, hs, x, hx, hm⟩) | ⟨d, hd, ⟨x, hx, hm⟩ | ⟨s, hs, x, hx, hm⟩⟩)
    · exact .base h
    · cases hl : c.models with
      | none => rw [hl] at hx; cases hx
      | some l => rw [hl] at hx; exact .model l x hl hx hm
    · cases hl : c.slices with
      | none => rw [hl] at hs; cases hs
      | some l => rw [hl] at hs; exact .slice l s x hl hs hx hm
    · cases hms : c.modules with
      | none => rw [hms] at hd; cases hd
      | some ms =>
        rw [hms] at hd
        cases hl : d.2.models with
        | none => rw [hl] at hx; cases hx
        | some l => rw [hl] at hx; exact .moduleModel ms d l x hms hd hl hx hm
    · cases hms : c.modules with
      | none => rw [hms] at hd; cases hd
      | some ms =>
        rw [hms] at hd
        cases hl : d.2.slices with
        | none => rw [hl] at hs; cases hs
        | some l => rw [hl] at hs; exact .moduleSlice ms d l s x hms hd hl hs hx hm

/-- What a card is made of. -/
structure Made {K : Type} (w : World) (c : MergeConfig K) (method : Str) (refs : List Ref) (yaml name card : Str) (bases models : List Str)
    (baseText : Str) : Prop where
  hub : hfPaths w refs = .ok bases
  list : bullets w (actualBase method c.baseModel) refs = .ok models
  text : (actualBase method c.baseModel = none ∧ baseText = []) ∨
    ∃ b t, actualBase method c.baseModel = some b ∧ ShownModel w b t ∧ baseText = cs!" using " ++ t ++ cs!" as a base"
  whole : card = fill (metadata w bases [cs!"mergekit", cs!"merge"] cs!"transformers")
    (if name = [] then cs!"Untitled Model (1)" else name) (methodMd w method) baseText models yaml

theorem generateCard_made {K : Type} {w : World} {c : MergeConfig K} {method : Str} {refs : List Ref} {yaml name card : Str}
    (h : generateCard w c method refs yaml name = .ok card) : ∃ bases models baseText, Made w c method refs yaml name card bases models baseText := by
  unfold generateCard at h
  simp only at h
  split at h
  · cases h
  · rename_i bases hb
    split at h
    · cases h
    · rename_i baseText ht
      split at h
      · cases h
      · rename_i models hm
        refine ⟨bases, models, baseText, hb, hm, ?_, (Except.ok.inj h).symm⟩
        split at ht
        · rename_i hn
          cases ht
          exact Or.inl ⟨hn, rfl⟩
        · rename_i b hsome
          split at ht
          · cases ht
          · rename_i t hmd
            cases ht
            exact Or.inr ⟨b, t, hsome, modelMd_ok hmd, rfl⟩

/-- The lines of a card. -/
theorem made_lines {K : Type} {w : World} {c : MergeConfig K} {method : Str} {refs : List Ref} {yaml name card : Str}
    {bases models : List Str} {baseText : Str} (hr : Refs c refs) (ho : OneLine w method refs name)
    (h : Made w c method refs yaml name card bases models baseText) :
    linesOf card = cs!"---" :: (metadata w bases [cs!"mergekit", cs!"merge"] cs!"transformers" ++ ([cs!"---",
      cs!"# " ++ (if name = [] then cs!"Untitled Model (1)" else name), [],
      cs!"This is a merge of pre-trained language models created using [mergekit](https://github.com/cg123/mergekit).", [],
      cs!"## Merge Details"] ++ cs!"### Merge Method" :: ([[],
      cs!"This model was merged using the " ++ methodMd w method ++ cs!" merge method" ++ baseText ++ cs!".", []] ++
      cs!"### Models Merged" :: ([[], cs!"The following models were included in the merge:"] ++ orBlank models ++ [[]] ++
      cs!"### Configuration" :: ([[], cs!"The following YAML configuration was used to produce this model:", []] ++
      cs!"```yaml" :: (linesOf yaml ++ [cs!"```", []])))))) := by
  have hlines : ∀ m ∈ refs, ∀ t, ShownModel w m t → '\n' ∉ t := fun m hm t ht =>
    shownModel_line ht (ho.model m hm).1 (fun l hl => (ho.lora m hm l hl).1)
  rw [h.whole]
  refine fill_lines _ ?_ ?_ _ _ _ _ _ ?_ (methodMd_line ho.called ho.registered) ?_ ?_
  · simp [metadata]
  · intro l hl
    have hb : ∀ p ∈ bases, '\n' ∉ w.dumped p := by
      intro p hp
      obtain ⟨h1, h2⟩ := hfPaths_ok h.hub
      have hsub : p ∈ refs.flatMap paths := by
        classical
        have : ∃ hub : Str → Bool, ∀ p ∈ refs.flatMap paths, Hub w p (hub p) :=
          ⟨fun p => if hp : p ∈ refs.flatMap paths then (h1 p hp).choose else false, fun p hp => by
            simp only [dif_pos hp]
            exact (h1 p hp).choose_spec⟩
        obtain ⟨hub, hhub⟩ := this
        rw [h2 hub hhub] at hp
        exact (List.mem_filter.1 hp).1
      obtain ⟨m, hm, hpm⟩ := List.mem_flatMap.1 hsub
      unfold paths at hpm
      rcases List.mem_cons.1 hpm with rfl | hpm
      · exact (ho.model m hm).2
      · obtain ⟨l, hl, rfl⟩ := List.mem_map.1 hpm
        exact (ho.lora m hm l (by simpa using hl)).2
    unfold metadata at hl
    simp only [List.mem_append, List.mem_cons, List.mem_map, List.not_mem_nil, or_false] at hl
    rcases hl with ((hl | rfl) | rfl | ⟨p, rfl | rfl, rfl⟩) | rfl
    · cases bases with
      | nil =>
        simp only [List.mem_singleton] at hl
        subst hl
        decide
      | cons x bases =>
        simp only [List.mem_cons, List.mem_map] at hl
        rcases hl with rfl | ⟨p, hp, rfl⟩
        · decide
        · have := hb p (List.mem_cons.2 hp)
          simp only [List.mem_append, not_or]
          exact ⟨by decide, this⟩
    · decide
    · decide
    · decide
    · decide
    · decide
  · split
    · decide
    · exact ho.title
  · rcases h.text with ⟨_, rfl⟩ | ⟨b, t, hb, ht, rfl⟩
    · decide
    · have : c.baseModel = some b := by
        unfold actualBase at hb
        split at hb
        · cases hb
        · exact hb
      have hbr : b ∈ refs := (hr.all b).2 ((mentions_iff c b).1 (.base this))
      simp only [List.mem_append, not_or]
      exact ⟨⟨by decide, hlines b hbr t ht⟩, by decide⟩
  · intro l hl
    have hf := bullets_ok h.list
    obtain ⟨m, hm, s, hs, rfl⟩ : ∃ m ∈ refs, ∃ s, ShownModel w m s ∧ l = cs!"* " ++ s := by
      clear h
      have hsub : ∀ m ∈ refs.filter (fun m => decide (some m ≠ actualBase method c.baseModel)), m ∈ refs := fun m hm => (List.mem_filter.1 hm).1
      generalize refs.filter (fun m => decide (some m ≠ actualBase method c.baseModel)) = fl at hf hsub
      induction hf with
      | nil => cases hl
      | @cons m t fl ts h _ ih =>
        rcases List.mem_cons.1 hl with rfl | hl
        · exact ⟨m, hsub m (by simp), h⟩
        · exact ih hl (fun m hm => hsub m (by simp [hm]))
    have := hlines m hm s hs
    simp only [List.mem_append, not_or]
    exact ⟨by decide, this⟩

theorem not_metadata (w : World) (bases : List Str) (c : Char) (rest : Str) (h : c ≠ 'b' ∧ c ≠ 'l' ∧ c ≠ 't' ∧ c ≠ '-') :
    c :: rest ∉ metadata w bases [cs!"mergekit", cs!"merge"] cs!"transformers" := by
  intro hl
  unfold metadata at hl
  simp only [List.mem_append, List.mem_cons, List.mem_map, List.not_mem_nil, or_false] at hl
  rcases hl with ((hl | hl) | hl | ⟨p, hp, hl⟩) | hl
  · cases bases with
    | nil =>
      simp only [List.mem_singleton, List.cons.injEq] at hl
      exact h.1 hl.1
    | cons x bases =>
      simp only [List.mem_cons, List.mem_map, List.cons.injEq] at hl
      rcases hl with hl | ⟨p, _, hl⟩
      · exact h.1 hl.1
      · simp only [List.cons_append, List.cons.injEq] at hl
        exact h.2.2.2 hl.1.symm
  · simp only [List.cons_append, List.cons.injEq] at hl
    exact h.2.1 hl.1
  · simp only [List.cons.injEq] at hl
    exact h.2.2.1 hl.1
  · simp only [List.cons_append, List.cons.injEq] at hl
    exact h.2.2.2 hl.1.symm
  · cases hl

/-! ## Theorems -/

/-- **C111** The list of models of a card has one bullet for every model of the configuration but the base named in the sentence about the
method; the base is not named there for `slerp`, which lists both models. -/
theorem C111_models {K : Type} (w : World) (c : MergeConfig K) (method : Str) (refs : List Ref) (yaml name card : Str) (hr : Refs c refs)
    (ho : OneLine w method refs name) (h : generateCard w c method refs yaml name = .ok card) :
    ∃ (base : Option Ref) (rest : List Ref),
      base = (if method = cs!"slerp" then none else c.baseModel) ∧
      (∀ m, Mentions c m ↔ base = some m ∨ m ∈ rest) ∧ (∀ m ∈ rest, base ≠ some m) ∧ rest.Nodup ∧
      List.Forall₂ (fun m l => ∃ s, ShownModel w m s ∧ l = cs!"* " ++ s) rest (listed card) ∧
      ∃ called, ShownMethod w method called ∧
        ((base = none ∧ sentence card = [cs!"This model was merged using the " ++ called ++ cs!" merge method."]) ∨
          ∃ b s, base = some b ∧ ShownModel w b s ∧
            sentence card = [cs!"This model was merged using the " ++ called ++ cs!" merge method using " ++ s ++ cs!" as a base."]) := by
  obtain ⟨bases, models, baseText, hm⟩ := generateCard_made h
  have hlines := made_lines hr ho hm
  have hbul := bullets_ok hm.list
  have hstar := bullets_star hm.list
  refine ⟨actualBase method c.baseModel, refs.filter (fun m => decide (some m ≠ actualBase method c.baseModel)), rfl, ?_, ?_, hr.once.filter _, ?_,
    methodMd w method, methodMd_shown w method, ?_⟩
  · intro m
    rw [mentions_iff, ← hr.all m, List.mem_filter, decide_eq_true_eq]
    constructor
    · intro hm
      by_cases hb : actualBase method c.baseModel = some m
      · exact Or.inl hb
      · exact Or.inr ⟨hm, Ne.symm hb⟩
    · rintro (hb | hm)
      · refine (hr.all m).2 ((mentions_iff c m).1 (.base ?_))
        unfold actualBase at hb
        split at hb
        · cases hb
        · exact hb
      · exact hm.1
  · intro m hm
    exact Ne.symm (by simpa using (List.mem_filter.1 hm).2)
  · have e : between cs!"### Models Merged" cs!"### Configuration" (linesOf card) =
        [[], cs!"The following models were included in the merge:"] ++ orBlank models ++ [[]] := by
      rw [hlines]
      rw [between_skip (by decide), between_skips (not_metadata w bases _ _ (by decide)), between_skips, between_skip (by decide), between_skips,
        between_hit]
      · simp only [List.mem_append, List.mem_cons, List.not_mem_nil, or_false, not_or]
        refine ⟨⟨⟨by decide, by decide⟩, ?_⟩, by decide⟩
        unfold orBlank
        split
        · decide
        · intro hl
          obtain ⟨s, hs⟩ := hstar _ hl
          simp at hs
      · simp [List.cons_append]
      · simp [List.cons_append]
    unfold listed
    rw [e]
    have : ([[], cs!"The following models were included in the merge:"] ++ orBlank models ++ [[]]).filter (fun l => decide (cs!"* " <+: l)) = models := by
      rw [List.filter_append, List.filter_append]
      have e1 : List.filter (fun l => decide (cs!"* " <+: l)) [[], cs!"The following models were included in the merge:"] = [] := by decide
      have e2 : List.filter (fun l => decide (cs!"* " <+: l)) [([] : Str)] = [] := by decide
      rw [e1, e2, List.nil_append, List.append_nil]
      unfold orBlank
      split
      · rename_i h
        rw [h]
        decide
      · rw [List.filter_eq_self]
        intro l hl
        obtain ⟨s, rfl⟩ := hstar l hl
        simp only [decide_eq_true_eq]
        exact ⟨s, rfl⟩
    rw [this]
    exact hbul
  · have e : between cs!"### Merge Method" cs!"### Models Merged" (linesOf card) =
        [[], cs!"This model was merged using the " ++ methodMd w method ++ cs!" merge method" ++ baseText ++ cs!".", []] := by
      rw [hlines]
      rw [between_skip (by decide), between_skips (not_metadata w bases _ _ (by decide)), between_skips, between_hit]
      · simp [List.cons_append]
      · simp [List.cons_append]
    have e' : sentence card = [cs!"This model was merged using the " ++ methodMd w method ++ cs!" merge method" ++ baseText ++ cs!"."] := by
      unfold sentence
      rw [e]
      simp
    rw [e']
    rcases hm.text with ⟨h1, h2⟩ | ⟨b, t, h1, h2, h3⟩
    · subst h2
      exact Or.inl ⟨h1, by simp⟩
    · subst h3
      exact Or.inr ⟨b, t, h1, h2, by simp⟩

/-- **C111** The configuration is shown as it was given, and can be copied from the card, if it has no line of three backquotes. -/
theorem C111_config {K : Type} (w : World) (c : MergeConfig K) (method : Str) (refs : List Ref) (yaml name card : Str) (hr : Refs c refs)
    (ho : OneLine w method refs name) (h : generateCard w c method refs yaml name = .ok card) (hy : cs!"```" ∉ linesOf yaml) :
    joinLines (shown card) = yaml := by
  obtain ⟨bases, models, baseText, hm⟩ := generateCard_made h
  have hlines := made_lines hr ho hm
  have hbul := bullets_ok hm.list
  have hstar := bullets_star hm.list
  have e : shown card = linesOf yaml := by
    unfold shown
    rw [hlines]
    rw [between_skip (by decide), between_skips (not_metadata w bases _ _ (by decide)), between_skips, between_skip (by decide), between_skips,
      between_skip (by decide), between_skips, between_skip (by decide), between_skips, between_hit hy]
    · decide
    · simp only [List.mem_append, List.mem_cons, List.not_mem_nil, or_false, not_or]
      refine ⟨⟨⟨by decide, by decide⟩, ?_⟩, by decide⟩
      unfold orBlank
      split
      · decide
      · intro hl
        obtain ⟨s, hs⟩ := hstar _ hl
        simp at hs
    · simp [List.cons_append]
    · simp [List.cons_append]
  rw [e, join_linesOf]

/-- **C111** The metadata name exactly those paths of models and adapters that are taken for paths of the hub. -/
theorem C111_hub {K : Type} (w : World) (c : MergeConfig K) (method : Str) (refs : List Ref) (yaml name card : Str) (hr : Refs c refs)
    (ho : OneLine w method refs name) (h : generateCard w c method refs yaml name = .ok card) :
    ∃ hub : Str → Bool, (∀ m, Mentions c m → ∀ p ∈ paths m, Hub w p (hub p)) ∧
      (((refs.flatMap paths).filter hub = [] ∧ cs!"base_model: []" ∈ linesOf card) ∨
        ((refs.flatMap paths).filter hub ≠ [] ∧ hubItems card = ((refs.flatMap paths).filter hub).map (fun p => cs!"- " ++ w.dumped p))) := by
  obtain ⟨bases, models, baseText, hm⟩ := generateCard_made h
  have hlines := made_lines hr ho hm
  obtain ⟨h1, h2⟩ := hfPaths_ok hm.hub
  classical
  refine ⟨fun p => if hp : p ∈ refs.flatMap paths then (h1 p hp).choose else false, ?_, ?_⟩
  · intro m hme p hp
    have : p ∈ refs.flatMap paths := List.mem_flatMap.2 ⟨m, (hr.all m).2 ((mentions_iff c m).1 hme), hp⟩
    simp only [dif_pos this]
    exact (h1 p this).choose_spec
  · have e := h2 (fun p => if hp : p ∈ refs.flatMap paths then (h1 p hp).choose else false) (fun p hp => by
      simp only [dif_pos hp]
      exact (h1 p hp).choose_spec)
    rw [← e]
    cases hb : bases with
    | nil =>
      refine Or.inl ⟨rfl, ?_⟩
      rw [hlines, hb]
      simp [metadata]
    | cons p ps =>
      refine Or.inr ⟨by simp, ?_⟩
      rw [← hb]
      unfold hubItems
      rw [hlines]
      have hmeta : metadata w bases [cs!"mergekit", cs!"merge"] cs!"transformers" =
          cs!"base_model:" :: (bases.map (fun p => cs!"- " ++ w.dumped p) ++ cs!"library_name: transformers" :: [cs!"tags:", cs!"- mergekit", cs!"- merge", []]) := by
        unfold metadata
        rw [hb]
        simp
      rw [hmeta, between_skip (by decide), List.cons_append, List.append_assoc, List.cons_append]
      refine between_hit ?_
      intro hl
      obtain ⟨q, _, hq⟩ := List.mem_map.1 hl
      simp at hq

/-- A path can be shown: it is not empty, and the hub answers if asked. -/
def CanShow (w : World) (p : Str) : Prop :=
  p ≠ [] ∧ (p.head? = some '/' ∨ p.head? = some '~' ∨ 1 < p.count '/' ∨ w.exists_ p = false ∨ w.hub p ≠ .failed)

theorem canShow_iff (w : World) (p : Str) : CanShow w p ↔ ∃ b, isHf w p = .ok b := by
  cases p with
  | nil => simp [CanShow, isHf]
  | cons c rest =>
    simp only [CanShow, ne_eq, reduceCtorEq, not_false_eq_true, List.head?_cons, Option.some.injEq, true_and, isHf]
    split
    · rename_i h
      refine ⟨fun _ => ⟨_, rfl⟩, fun _ => ?_⟩
      rcases h with h | h | h
      · exact Or.inl h
      · exact Or.inr (Or.inl h)
      · exact Or.inr (Or.inr (Or.inl h))
    · rename_i h
      rw [not_or, not_or] at h
      split
      · rename_i he
        exact ⟨fun _ => ⟨_, rfl⟩, fun _ => Or.inr (Or.inr (Or.inr (Or.inl (by simpa using he))))⟩
      · rename_i he
        cases hh : w.hub (c :: rest) with
        | is b => exact ⟨fun _ => ⟨_, rfl⟩, fun _ => Or.inr (Or.inr (Or.inr (Or.inr (by simp))))⟩
        | badName => exact ⟨fun _ => ⟨_, rfl⟩, fun _ => Or.inr (Or.inr (Or.inr (Or.inr (by simp))))⟩
        | failed =>
          constructor
          · rintro (h' | h' | h' | h' | h')
            · exact absurd h' h.1
            · exact absurd h' h.2.1
            · exact absurd h' h.2.2
            · rw [h'] at he; simp at he
            · exact absurd rfl h'
          · rintro ⟨b, hb⟩
            cases hb

theorem modelMd_total (w : World) (m : Ref) (h : ∀ p ∈ paths m, CanShow w p) : ∃ t, modelMd w m = .ok t := by
  have hl : ∀ p ∈ paths m, ∃ t, maybeLink w p = .ok t := by
    intro p hp
    obtain ⟨b, hb⟩ := (canShow_iff w p).1 (h p hp)
    unfold maybeLink
    rw [hb]
    cases b <;> exact ⟨_, rfl⟩
  unfold modelMd
  obtain ⟨t, ht⟩ := hl m.model.path (by simp [paths])
  rw [ht]
  cases hlo : m.lora with
  | none => exact ⟨_, rfl⟩
  | some l =>
    obtain ⟨t', ht'⟩ := hl l.path (by simp [paths, hlo])
    simp only [ht']
    exact ⟨_, rfl⟩

theorem hfPaths_total (w : World) (refs : List Ref) (h : ∀ p ∈ refs.flatMap paths, CanShow w p) : ∃ ps, hfPaths w refs = .ok ps := by
  induction refs with
  | nil => exact ⟨_, rfl⟩
  | cons m refs ih =>
    rw [List.flatMap_cons] at h
    obtain ⟨ps, hps⟩ := ih (fun p hp => h p (List.mem_append_right _ hp))
    obtain ⟨b, hb⟩ := (canShow_iff w _).1 (h m.model.path (List.mem_append_left _ (by simp [paths])))
    unfold hfPaths
    rw [hb]
    cases hlo : m.lora with
    | none => simp only [hps]; exact ⟨_, rfl⟩
    | some l =>
      obtain ⟨b', hb'⟩ := (canShow_iff w _).1 (h l.path (List.mem_append_left _ (by simp [paths, hlo])))
      simp only [hb', hps]
      exact ⟨_, rfl⟩

theorem bullets_total (w : World) (base : Option Ref) (refs : List Ref) (h : ∀ p ∈ refs.flatMap paths, CanShow w p) :
    ∃ ts, bullets w base refs = .ok ts := by
  induction refs with
  | nil => exact ⟨_, rfl⟩
  | cons m refs ih =>
    rw [List.flatMap_cons] at h
    obtain ⟨ts, hts⟩ := ih (fun p hp => h p (List.mem_append_right _ hp))
    obtain ⟨t, ht⟩ := modelMd_total w m (fun p hp => h p (List.mem_append_left _ hp))
    unfold bullets
    rw [ht, hts]
    split
    · exact ⟨_, rfl⟩
    · exact ⟨_, rfl⟩

/-- **C111** Exactly when the card can be written: every path of a model or adapter of the configuration is not empty, and if it is a relative path
with at most one slash that exists here, the hub must answer.  Otherwise the merge fails after the weights have been written. -/
theorem C111_written {K : Type} (w : World) (c : MergeConfig K) (method : Str) (refs : List Ref) (yaml name : Str) (hr : Refs c refs) :
    (∃ card, generateCard w c method refs yaml name = .ok card) ↔ ∀ m, Mentions c m → ∀ p ∈ paths m, CanShow w p := by
  constructor
  · rintro ⟨card, h⟩ m hme p hp
    obtain ⟨bases, models, baseText, hm⟩ := generateCard_made h
    obtain ⟨b, hb⟩ := (hfPaths_ok hm.hub).1 p (List.mem_flatMap.2 ⟨m, (hr.all m).2 ((mentions_iff c m).1 hme), hp⟩)
    exact (canShow_iff w p).2 ⟨b, (isHf_iff w p b).2 hb⟩
  · intro h
    have hall : ∀ p ∈ refs.flatMap paths, CanShow w p := by
      intro p hp
      obtain ⟨m, hm, hpm⟩ := List.mem_flatMap.1 hp
      exact h m ((mentions_iff c m).2 ((hr.all m).1 hm)) p hpm
    obtain ⟨ps, hps⟩ := hfPaths_total w refs hall
    obtain ⟨ts, hts⟩ := bullets_total w (actualBase method c.baseModel) refs hall
    unfold generateCard
    simp only [hps, hts]
    cases hb : actualBase method c.baseModel with
    | none => simp only [hb] at hts ⊢; exact ⟨_, rfl⟩
    | some b =>
      have hbase : c.baseModel = some b := by
        unfold actualBase at hb
        split at hb
        · cases hb
        · exact hb
      obtain ⟨t, ht⟩ := modelMd_total w b (fun p hp => h b (.base hbase) p hp)
      simp only [ht]
      exact ⟨_, rfl⟩

/-- **C111** The two files hold the same configuration: that given, or if none was given the one written by the program. -/
theorem C111_files {K : Type} (w : World) (c : MergeConfig K) (method : Str) (refs : List Ref) (source : Option Str) (own out readme yml : Str)
    (hr : Refs c refs) (ho : OneLine w method refs (Resume.basename out))
    (h : cardFiles w c method refs source own out = .ok (readme, yml)) :
    (∀ s, source = some s → s ≠ [] → yml = s) ∧ (source = none → yml = own) ∧ (cs!"```" ∉ linesOf yml → joinLines (shown readme) = yml) := by
  unfold cardFiles at h
  simp only at h
  split at h
  · cases h
  · rename_i t ht
    simp only [Except.ok.injEq, Prod.mk.injEq] at h
    obtain ⟨rfl, hy⟩ := h
    refine ⟨?_, ?_, ?_⟩
    · rintro s rfl hs
      cases s with
      | nil => exact absurd rfl hs
      | cons x xs => exact hy.symm
    · rintro rfl
      exact hy.symm
    · rw [hy] at ht
      exact C111_config w c method refs yml _ _ hr ho ht

/-- The card does not tell revisions apart: merging two revisions of a model lists the same bullet twice. -/
theorem C111_revisions (w : World) (p : Str) (r r' : Option Str) (l : Option ModelRef.ModelPath) (a a' : Option Str) :
    modelMd w ⟨⟨p, r⟩, l, a⟩ = modelMd w ⟨⟨p, r'⟩, l, a'⟩ := rfl

/-! ## Concrete cases -/

/-- "org/a" and "org/b" of the hub, "/tmp/c" here; one method. -/
def someWorld : World where
  exists_ := fun _ => false
  hub := fun _ => .failed
  dumped := fun p => p
  methods := fun m => if m = cs!"ties" then some (cs!"ties", some cs!"TIES", some cs!"https://arxiv.org/abs/2306.01708") else none

def hubA : Ref := { model := ⟨cs!"org/a", none⟩ }
def hubB : Ref := { model := ⟨cs!"org/b", some cs!"main"⟩, lora := some ⟨cs!"org/l", none⟩ }
def localC : Ref := { model := ⟨cs!"/tmp/c", none⟩ }

def someConfig : MergeConfig Nat := { models := some [⟨hubA, []⟩, ⟨hubB, []⟩, ⟨localC, []⟩], baseModel := some hubA }

theorem some_refs : Refs someConfig [localC, hubA, hubB] := by
  constructor
  · decide
  · intro m
    have : someConfig.referencedModels = [hubA, hubA, hubB, localC] := rfl
    rw [this]
    simp only [List.mem_cons, List.not_mem_nil, or_false]
    constructor
    · rintro (h | h | h) <;> simp [h]
    · rintro (h | h | h | h) <;> simp [h]

theorem some_lines : OneLine someWorld cs!"ties" [localC, hubA, hubB] cs!"out" := by
  constructor
  · decide
  · decide
  · intro n p u h
    have : someWorld.methods cs!"ties" = some (cs!"ties", some cs!"TIES", some cs!"https://arxiv.org/abs/2306.01708") := rfl
    rw [this] at h
    simp only [Option.some.injEq, Prod.mk.injEq] at h
    obtain ⟨rfl, rfl, rfl⟩ := h
    refine ⟨by decide, ?_, ?_⟩
    · rintro x ⟨⟩; decide
    · rintro x ⟨⟩; decide
  · intro m hm
    simp only [List.mem_cons, List.not_mem_nil, or_false] at hm
    rcases hm with rfl | rfl | rfl <;> decide
  · intro m hm l hl
    simp only [List.mem_cons, List.not_mem_nil, or_false] at hm
    rcases hm with rfl | rfl | rfl
    · cases hl
    · cases hl
    · cases hl; decide

/-- A card that meets the hypotheses: two bullets, the base in the sentence, the configuration as given. -/
example : ∃ card, generateCard someWorld someConfig cs!"ties" [localC, hubA, hubB] cs!"models:\n- model: org/a" cs!"out" = .ok card ∧
    listed card = [cs!"* /tmp/c", cs!"* [org/b](https://huggingface.co/org/b) + [org/l](https://huggingface.co/org/l)"] ∧
    sentence card = [cs!"This model was merged using the [TIES](https://arxiv.org/abs/2306.01708) merge method using [org/a](https://huggingface.co/org/a) as a base."] ∧
    hubItems card = [cs!"- org/a", cs!"- org/b", cs!"- org/l"] ∧ joinLines (shown card) = cs!"models:\n- model: org/a" := by
  obtain ⟨card, h⟩ := (C111_written someWorld someConfig cs!"ties" [localC, hubA, hubB] cs!"models:\n- model: org/a" cs!"out" some_refs).2 (by
    intro m hm p hp
    have := (some_refs.all m).2 ((mentions_iff _ _).1 hm)
    simp only [List.mem_cons, List.not_mem_nil, or_false] at this
    rcases this with rfl | rfl | rfl
    · simp only [paths, localC, Option.toList, List.map_nil, List.mem_singleton] at hp
      subst hp
      exact ⟨by simp, Or.inl rfl⟩
    · simp only [paths, hubA, Option.toList, List.map_nil, List.mem_singleton] at hp
      subst hp
      exact ⟨by simp, Or.inr (Or.inr (Or.inr (Or.inl rfl)))⟩
    · simp only [paths, hubB, Option.toList, List.map_cons, List.map_nil, List.mem_cons, List.not_mem_nil, or_false] at hp
      rcases hp with rfl | rfl
      · exact ⟨by simp, Or.inr (Or.inr (Or.inr (Or.inl rfl)))⟩
      · exact ⟨by simp, Or.inr (Or.inr (Or.inr (Or.inl rfl)))⟩)
  have hy := C111_config _ _ _ _ _ _ _ some_refs some_lines h (by decide)
  have e : generateCard someWorld someConfig cs!"ties" [localC, hubA, hubB] cs!"models:\n- model: org/a" cs!"out" = .ok card := h
  refine ⟨card, h, ?_, ?_, ?_, hy⟩
  · have : (generateCard someWorld someConfig cs!"ties" [localC, hubA, hubB] cs!"models:\n- model: org/a" cs!"out").toOption.map listed =
      some [cs!"* /tmp/c", cs!"* [org/b](https://huggingface.co/org/b) + [org/l](https://huggingface.co/org/l)"] := by decide +kernel
    rw [e] at this
    exact Option.some.inj this
  · have : (generateCard someWorld someConfig cs!"ties" [localC, hubA, hubB] cs!"models:\n- model: org/a" cs!"out").toOption.map sentence =
      some [cs!"This model was merged using the [TIES](https://arxiv.org/abs/2306.01708) merge method using [org/a](https://huggingface.co/org/a) as a base."] := by
      decide +kernel
    rw [e] at this
    exact Option.some.inj this
  · have : (generateCard someWorld someConfig cs!"ties" [localC, hubA, hubB] cs!"models:\n- model: org/a" cs!"out").toOption.map hubItems =
      some [cs!"- org/a", cs!"- org/b", cs!"- org/l"] := by decide +kernel
    rw [e] at this
    exact Option.some.inj this

/-- A model in a directory "models/a" below the working directory, without a connection: the merge fails when it comes to the card. -/
example : ¬ ∃ card, generateCard { someWorld with exists_ := fun p => decide (p = cs!"models/a") }
    ({ models := some [⟨⟨⟨cs!"models/a", none⟩, none, none⟩, []⟩] } : MergeConfig Nat) cs!"linear"
    [⟨⟨cs!"models/a", none⟩, none, none⟩] [] cs!"out" = .ok card := by
  intro hc
  have h := (C111_written _ _ _ [⟨⟨cs!"models/a", none⟩, none, none⟩] _ _ ⟨by decide, fun m => Iff.rfl⟩).1 hc
  have := (h ⟨⟨cs!"models/a", none⟩, none, none⟩ (.model _ ⟨_, []⟩ rfl (by simp) rfl) cs!"models/a" (by simp [paths])).2
  rcases this with h | h | h | h | h
  · cases h
  · cases h
  · exact absurd h (by decide)
  · exact absurd h (by decide)
  · exact h rfl

/-- A configuration with a line of three backquotes is cut off in the card. -/
example : (generateCard someWorld someConfig cs!"ties" [localC, hubA, hubB] cs!"# see\n```\nmodels:" cs!"out").toOption.map (fun card => joinLines (shown card)) =
    some cs!"# see" := by decide +kernel

/-- With a slash at the end of the output path the card has no title of its own. -/
theorem C111_untitled {K : Type} (w : World) (c : MergeConfig K) (method : Str) (refs : List Ref) (source : Option Str) (own out : Str) :
    cardFiles w c method refs source own (out ++ cs!"/") = cardFiles w c method refs source own cs!"Untitled Model (1)" := by
  have h1 : Resume.basename (out ++ cs!"/") = [] := by simp [Resume.basename]
  have h2 : Resume.basename cs!"Untitled Model (1)" = cs!"Untitled Model (1)" := by decide
  unfold cardFiles generateCard
  simp only [h1, h2]
  rfl

end Verif.Card
