import Verif.Model.CommandLine
import Verif.Props.Options
import Mathlib.Data.List.Nodup
import Mathlib.Data.List.Perm.Basic
import Mathlib.Data.List.Pairwise

/-! # C128: the command line sets what it names -/

namespace Verif.CommandLine

open Verif.ModelRef (Str)

/-! ## What can be written -/

/-- Something written on a command line: an argument; a flag written in full; an option written in full with its value as the next word or after `=`; flags in
one word after a single dash, perhaps followed by an option with its value, which is the next word or the rest of the word. -/
inductive Use where
  | plain (w : Str)
  | flag (o : Opt) (f : Str) (b : Bool)
  | next (o : Opt) (f v : Str)
  | glued (o : Opt) (f v : Str)
  | marks (l : List (Opt × Char × Bool))
  | marksNext (l : List (Opt × Char × Bool)) (o : Opt) (c : Char) (v : Str)
  | marksGlued (l : List (Opt × Char × Bool)) (o : Opt) (c : Char) (v : Str)

/-- The characters of flags in one word. -/
def letters (l : List (Opt × Char × Bool)) : Str := l.map (fun e => e.2.1)

/-- The words of a use. -/
def Use.written : Use → List Str
  | .plain w => [w]
  | .flag _ f _ => [f]
  | .next _ f v => [f, v]
  | .glued _ f v => [f ++ '=' :: v]
  | .marks l => ['-' :: letters l]
  | .marksNext l _ c v => ['-' :: (letters l ++ [c]), v]
  | .marksGlued l _ c v => ['-' :: (letters l ++ c :: v)]

/-- The forms of an option. -/
def forms (o : Opt) : List Str := o.on ++ o.off

/-- An option that has values. -/
def HasValue (o : Opt) : Prop := o.kind = .value ∨ o.kind = .many

/-- A word that is not read as an option written in full. -/
def NotLong (os : List Opt) (w : Str) : Prop := ∀ o ∈ os, ∀ f ∈ forms o, f.length ≠ 2 → w ≠ f ∧ ∀ v, w ≠ f ++ '=' :: v

/-- Flags that can be written in one word after a dash. -/
def Flags (os : List Opt) (l : List (Opt × Char × Bool)) : Prop :=
  ∀ e ∈ l, e.1 ∈ os ∧ ¬ HasValue e.1 ∧ ['-', e.2.1] ∈ (if e.2.2 then e.1.on else e.1.off)

/-- A use that fits the options of a command. -/
def Use.Fits (os : List Opt) : Use → Prop
  | .plain w => ¬ (w.head? = some '-' ∧ 2 ≤ w.length)
  | .flag o f b => o ∈ os ∧ ¬ HasValue o ∧ f.length ≠ 2 ∧ f ∈ (if b then o.on else o.off)
  | .next o f _ => o ∈ os ∧ HasValue o ∧ f.length ≠ 2 ∧ f ∈ o.on
  | .glued o f _ => o ∈ os ∧ HasValue o ∧ f.length ≠ 2 ∧ f ∈ o.on
  | .marks l => l ≠ [] ∧ Flags os l ∧ NotLong os ('-' :: letters l)
  | .marksNext l o c _ => Flags os l ∧ o ∈ os ∧ HasValue o ∧ ['-', c] ∈ o.on ∧ NotLong os ('-' :: (letters l ++ [c]))
  | .marksGlued l o c v => v ≠ [] ∧ Flags os l ∧ o ∈ os ∧ HasValue o ∧ ['-', c] ∈ o.on ∧ NotLong os ('-' :: (letters l ++ c :: v))

/-- What a use does: switch a flag on or off, or give a value. -/
inductive Event where
  | mark (o : Opt) (b : Bool)
  | value (o : Opt) (v : Str)

/-- What flags in one word do. -/
def markEvents (l : List (Opt × Char × Bool)) : List Event := l.map (fun e => .mark e.1 e.2.2)

/-- What a use does, in order. -/
def Use.events : Use → List Event
  | .plain _ => []
  | .flag o _ b => [.mark o b]
  | .next o _ v => [.value o v]
  | .glued o _ v => [.value o v]
  | .marks l => markEvents l
  | .marksNext l o _ v => markEvents l ++ [.value o v]
  | .marksGlued l o _ v => markEvents l ++ [.value o v]

/-- The arguments in a use. -/
def Use.args : Use → List Str
  | .plain w => [w]
  | _ => []

/-- How a flag was set, in order. -/
def marksOf (o : Opt) (es : List Event) : List Bool :=
  es.filterMap (fun | .mark o' b => if o' = o then some b else none | .value _ _ => none)

/-- The values an option was given, in order. -/
def valuesOf (o : Opt) (es : List Event) : List Str :=
  es.filterMap (fun | .mark _ _ => none | .value o' v => if o' = o then some v else none)

/-- What an option is given by all uses: the last one counts, except for options with several values, which has all of them, and counted flags. -/
def meaning (o : Opt) (es : List Event) : Option Val :=
  match o.kind with
  | .flag => (marksOf o es).getLast?.map .flag
  | .value => (valuesOf o es).getLast?.map .word
  | .many => if valuesOf o es = [] then none else some (.words (valuesOf o es))
  | .count => if marksOf o es = [] then none else some (.count (marksOf o es).length)

/-- A command line: uses, and perhaps `--` and further arguments. -/
structure Line (os : List Opt) (line : List Str) where
  uses : List Use
  after : Option (List Str)
  fits : ∀ u ∈ uses, u.Fits os
  written : line = uses.flatMap Use.written ++ (match after with
    | none => []
    | some l => cs!"--" :: l)

variable {os : List Opt} {line : List Str}

/-- All that is done on a command line. -/
def Line.events (l : Line os line) : List Event := l.uses.flatMap Use.events

/-- All arguments of a command line. -/
def Line.args (l : Line os line) : List Str := l.uses.flatMap Use.args ++ l.after.getD []

/-- Options that can be told apart. -/
structure Good (os : List Opt) : Prop where
  forms : (os.flatMap forms).Nodup
  names : (os.map Opt.name).Nodup
  dash : ∀ o ∈ os, ∀ f ∈ CommandLine.forms o, f.head? = some '-' ∧ 2 ≤ f.length ∧ '=' ∉ f ∧ f ≠ cs!"--"
  values : ∀ o ∈ os, HasValue o → o.off = []

/-! ## Reading -/

theorem takes_iff (o : Opt) : o.takes = true ↔ HasValue o := by
  unfold Opt.takes HasValue
  simp

theorem not_takes (o : Opt) : o.takes = false ↔ ¬ HasValue o := by
  rw [← takes_iff, Bool.not_eq_true]

theorem splitEq_none {f : Str} (h : '=' ∉ f) : splitEq f = (f, none) := by
  induction f with
  | nil => rfl
  | cons c f ih =>
    simp only [List.mem_cons, not_or] at h
    simp [splitEq, Ne.symm h.1, ih h.2]

theorem splitEq_some {f : Str} (h : '=' ∉ f) (v : Str) : splitEq (f ++ '=' :: v) = (f, some v) := by
  induction f with
  | nil => simp [splitEq]
  | cons c f ih =>
    simp only [List.mem_cons, not_or] at h
    simp [splitEq, Ne.symm h.1, ih h.2]

theorem splitEq_eq (a : Str) : a = (splitEq a).1 ++ (match (splitEq a).2 with
    | none => []
    | some v => '=' :: v) := by
  induction a with
  | nil => rfl
  | cons c a ih =>
    unfold splitEq
    split
    · rename_i h
      simp [h]
    · simp only [List.cons_append]
      rw [← ih]

theorem Good.unique (hg : Good os) {o o' : Opt} (ho : o ∈ os) (ho' : o' ∈ os) {f : Str} (hf : f ∈ CommandLine.forms o) (hf' : f ∈ CommandLine.forms o') : o = o' := by
  by_contra hne
  have hp := (List.nodup_flatMap.1 hg.forms).2
  have : Std.Symm (Function.onFun List.Disjoint CommandLine.forms) := ⟨fun _ _ h _ h1 h2 => h h2 h1⟩
  have hd := List.Pairwise.forall hp ho ho' hne
  exact hd hf hf'

theorem findForm_spec (hg : Good os) {o : Opt} (ho : o ∈ os) {f : Str} {b : Bool} (hf : f ∈ (if b then o.on else o.off)) : findForm os f = some (o, b) := by
  have hff : f ∈ CommandLine.forms o := by
    unfold forms
    cases b <;> simp at hf <;> simp [hf]
  unfold findForm
  cases h : os.find? (fun o => decide (f ∈ o.on) || decide (f ∈ o.off)) with
  | none =>
    have := List.find?_eq_none.1 h o ho
    unfold forms at hff
    simp at this hff
    exact absurd hff (by tauto)
  | some o' =>
    have h1 := List.mem_of_find?_eq_some h
    have h2 := List.find?_some h
    have : o = o' := hg.unique ho h1 hff (by unfold forms; simpa using h2)
    subst this
    have hnd := (List.nodup_flatMap.1 hg.forms).1 o ho
    unfold forms at hnd
    have hdis := (List.nodup_append'.1 hnd).2.2
    cases b
    · simp at hf
      have : f ∉ o.on := fun hh => hdis hh hf
      simp [this]
    · simp at hf
      simp [hf]

theorem findForm_inv {f : Str} {o : Opt} {b : Bool} (h : findForm os f = some (o, b)) : o ∈ os ∧ f ∈ (if b then o.on else o.off) := by
  unfold findForm at h
  split at h
  · cases h
  · rename_i o' ho
    cases h
    refine ⟨List.mem_of_find?_eq_some ho, ?_⟩
    have := List.find?_some ho
    by_cases hon : f ∈ o.on
    · simp [hon]
    · simp [hon] at this
      simp [hon, this]

theorem findForm_none {f : Str} (h : ∀ o ∈ os, f ∉ forms o) : findForm os f = none := by
  unfold findForm
  have : os.find? (fun o => decide (f ∈ o.on) || decide (f ∈ o.off)) = none := by
    rw [List.find?_eq_none]
    intro o ho
    have := h o ho
    unfold forms at this
    simpa using this
  rw [this]

/-- The state after some uses. -/
structure After (os : List Opt) (es : List Event) (pos : List Str) (s : State) : Prop where
  vals : ∀ o ∈ os, s.vals o.name = meaning o es
  pos : s.pos = pos
  waiting : s.waiting = none
  rest : s.rest = false

theorem set_fields (s : State) (n : Str) (v : Val) : (s.set n v).pos = s.pos ∧ (s.set n v).waiting = s.waiting ∧ (s.set n v).rest = s.rest := ⟨rfl, rfl, rfl⟩

theorem After.set {es : List Event} {pos : List Str} {s : State} (hg : Good os) (h : After os es pos s) {o : Opt} (ho : o ∈ os) {e : Event} {v : Val}
    (hv : meaning o (es ++ [e]) = some v) (he : ∀ o', o' ≠ o → meaning o' (es ++ [e]) = meaning o' es) : After os (es ++ [e]) pos (s.set o.name v) where
  vals := by
    intro o' ho'
    by_cases heq : o' = o
    · subst heq
      rw [hv]
      exact if_pos rfl
    · rw [he o' heq, ← h.vals o' ho']
      refine if_neg ?_
      intro hn
      exact heq (List.inj_on_of_nodup_map hg.names ho' ho hn)
  pos := h.pos
  waiting := h.waiting
  rest := h.rest

theorem meaning_other {o o' : Opt} {e : Event} (es : List Event) (h : match e with
    | .mark a _ => a = o
    | .value a _ => a = o) (hne : o' ≠ o) : meaning o' (es ++ [e]) = meaning o' es := by
  have h1 : marksOf o' (es ++ [e]) = marksOf o' es := by
    unfold marksOf
    rw [List.filterMap_append]
    cases e with
    | mark a b =>
      simp only at h
      subst h
      simp [Ne.symm hne]
    | value a v => simp
  have h2 : valuesOf o' (es ++ [e]) = valuesOf o' es := by
    unfold valuesOf
    rw [List.filterMap_append]
    cases e with
    | mark a b => simp
    | value a v =>
      simp only at h
      subst h
      simp [Ne.symm hne]
  unfold meaning
  rw [h1, h2]

theorem marksOf_snoc (o : Opt) (es : List Event) (b : Bool) : marksOf o (es ++ [.mark o b]) = marksOf o es ++ [b] := by
  unfold marksOf
  simp

theorem valuesOf_snoc (o : Opt) (es : List Event) (v : Str) : valuesOf o (es ++ [.value o v]) = valuesOf o es ++ [v] := by
  unfold valuesOf
  simp

theorem After.mark {es : List Event} {pos : List Str} {s : State} (hg : Good os) (h : After os es pos s) {o : Opt} (ho : o ∈ os) (hv : ¬ HasValue o) (b : Bool) :
    After os (es ++ [.mark o b]) pos (s.mark o b) := by
  have hk : o.kind = .flag ∨ o.kind = .count := by
    unfold HasValue at hv
    cases hkind : o.kind <;> simp_all
  have hval := h.vals o ho
  have hother : ∀ o', o' ≠ o → meaning o' (es ++ [.mark o b]) = meaning o' es := fun o' hne => meaning_other es rfl hne
  unfold State.mark
  rcases hk with hk | hk
  · rw [hk]
    refine h.set hg ho ?_ hother
    unfold meaning
    rw [hk, marksOf_snoc]
    simp
  · rw [hk]
    have hm : meaning o (es ++ [.mark o b]) = some (.count ((marksOf o es).length + 1)) := by
      unfold meaning
      rw [hk, marksOf_snoc]
      simp
    unfold meaning at hval
    rw [hk] at hval
    simp only at hval ⊢
    rw [hval]
    by_cases hnil : marksOf o es = []
    · rw [if_pos hnil]
      refine h.set hg ho ?_ hother
      rw [hm, hnil]
      rfl
    · rw [if_neg hnil]
      exact h.set hg ho hm hother

theorem After.store {es : List Event} {pos : List Str} {s : State} (hg : Good os) (h : After os es pos s) {o : Opt} (ho : o ∈ os) (hv : HasValue o) (v : Str) :
    After os (es ++ [.value o v]) pos (s.store o v) := by
  have hval := h.vals o ho
  have hother : ∀ o', o' ≠ o → meaning o' (es ++ [.value o v]) = meaning o' es := fun o' hne => meaning_other es rfl hne
  unfold State.store
  rcases hv with hk | hk
  · rw [hk]
    refine h.set hg ho ?_ hother
    unfold meaning
    rw [hk, valuesOf_snoc]
    simp
  · rw [hk]
    have hm : meaning o (es ++ [.value o v]) = some (.words (valuesOf o es ++ [v])) := by
      unfold meaning
      rw [hk, valuesOf_snoc]
      simp
    unfold meaning at hval
    rw [hk] at hval
    simp only at hval ⊢
    rw [hval]
    by_cases hnil : valuesOf o es = []
    · rw [if_pos hnil]
      refine h.set hg ho ?_ hother
      rw [hm, hnil]
      rfl
    · rw [if_neg hnil]
      exact h.set hg ho hm hother

theorem shorts_marks (hg : Good os) {l : List (Opt × Char × Bool)} (hl : Flags os l) (s : State) (cs : Str) :
    shorts os s (letters l ++ cs) = shorts os (l.foldl (fun s e => s.mark e.1 e.2.2) s) cs := by
  induction l generalizing s with
  | nil => rfl
  | cons e l ih =>
    obtain ⟨h1, h2, h3⟩ := hl e (by simp)
    have : letters (e :: l) ++ cs = e.2.1 :: (letters l ++ cs) := rfl
    rw [this, List.foldl_cons, ← ih (fun x hx => hl x (by simp [hx]))]
    conv_lhs => unfold shorts
    rw [findForm_spec hg h1 h3]
    simp only [(not_takes e.1).2 h2, Bool.false_eq_true, if_false]

theorem After.marks {es : List Event} {pos : List Str} {s : State} (hg : Good os) (h : After os es pos s) {l : List (Opt × Char × Bool)} (hl : Flags os l) :
    After os (es ++ markEvents l) pos (l.foldl (fun s e => s.mark e.1 e.2.2) s) := by
  induction l generalizing es s with
  | nil => simpa [markEvents] using h
  | cons e l ih =>
    obtain ⟨h1, h2, _⟩ := hl e (by simp)
    have := ih (h.mark hg h1 h2 e.2.2) (fun x hx => hl x (by simp [hx]))
    simpa [markEvents] using this

/-- A word after a dash that is not one in full is read character by character. -/
theorem option_short (hg : Good os) {cs : Str} (hn : NotLong os ('-' :: cs)) (hd : cs.head? ≠ some '-') (s : State) : option os s ('-' :: cs) = shorts os s cs := by
  unfold option
  have hnone : (if isShort (splitEq ('-' :: cs)).1 then none else findForm os (splitEq ('-' :: cs)).1) = none := by
    split
    · rfl
    · rename_i hs
      refine findForm_none ?_
      intro o ho hf
      obtain ⟨_, h2, _, h4⟩ := hg.dash o ho _ hf
      have hlen : (splitEq ('-' :: cs)).1.length ≠ 2 := by
        intro hl
        exact hs (by unfold isShort; simp [hl, h4])
      obtain ⟨n1, n2⟩ := hn o ho _ hf hlen
      have := splitEq_eq ('-' :: cs)
      cases he : (splitEq ('-' :: cs)).2 with
      | none =>
        rw [he] at this
        exact n1 (by simpa using this)
      | some v =>
        rw [he] at this
        exact n2 v this
  rw [hnone]
  simp only
  rw [if_neg, List.tail_cons]
  intro h
  cases cs with
  | nil => simp at h
  | cons c cs =>
    simp at h
    exact hd (by simp [h])

theorem flags_head (hg : Good os) {l : List (Opt × Char × Bool)} (hl : Flags os l) (cs : Str) (hc : cs.head? ≠ some '-') : (letters l ++ cs).head? ≠ some '-' := by
  cases l with
  | nil => exact hc
  | cons e l =>
    obtain ⟨h1, h2, h3⟩ := hl e (by simp)
    intro hh
    have : e.2.1 = '-' := by simpa [letters] using hh
    rw [this] at h3
    have := (hg.dash e.1 h1 cs!"--" (by unfold forms; split at h3 <;> simp [h3])).2.2.2
    exact this rfl

theorem dashed_word {a : Str} (h : a.head? = some '-') : ∃ cs, a = '-' :: cs := by
  cases a with
  | nil => simp at h
  | cons c cs => simp at h; exact ⟨cs, by rw [h]⟩

theorem letter_ne (hg : Good os) {o : Opt} (ho : o ∈ os) {c : Char} (hf : ['-', c] ∈ forms o) : c ≠ '-' := by
  rintro rfl
  exact (hg.dash o ho _ hf).2.2.2 rfl

theorem word_option {s : State} (h1 : s.waiting = none) (h2 : s.rest = false) {a : Str} (ha : a.head? = some '-') (hl : 2 ≤ a.length) (hne : a ≠ cs!"--") :
    word os s a = option os s a := by
  unfold word
  rw [h1]
  simp only [h2, Bool.false_eq_true, if_false]
  rw [if_neg hne, if_pos ⟨ha, by omega⟩]

theorem option_long (hg : Good os) (s : State) {o : Opt} (ho : o ∈ os) {f : Str} {b : Bool} (hl : f.length ≠ 2) (hf : f ∈ (if b then o.on else o.off)) :
    (HasValue o → option os s f = .ok { s with waiting := some o }) ∧ (HasValue o → ∀ v, option os s (f ++ '=' :: v) = .ok (s.store o v)) ∧
    (¬ HasValue o → option os s f = .ok (s.mark o b)) := by
  have hff : f ∈ forms o := by
    unfold forms
    split at hf <;> simp [hf]
  obtain ⟨h1, h2, h3, h4⟩ := hg.dash o ho f hff
  have hs : isShort f = false := by
    unfold isShort
    simp [hl]
  refine ⟨?_, ?_, ?_⟩
  · intro hv
    unfold option
    rw [splitEq_none h3]
    simp [hs, findForm_spec hg ho hf, (takes_iff o).2 hv]
  · intro hv v
    unfold option
    rw [splitEq_some h3]
    simp [hs, findForm_spec hg ho hf, (takes_iff o).2 hv]
  · intro hv
    unfold option
    rw [splitEq_none h3]
    simp [hs, findForm_spec hg ho hf, (not_takes o).2 hv]

theorem waiting_word {s : State} {o : Opt} (h : s.waiting = some o) (a : Str) : word os s a = .ok ({ s with waiting := none }.store o a) := by
  unfold word
  rw [h]

theorem words_use (hg : Good os) {es : List Event} {pos : List Str} {s : State} (h : After os es pos s) {u : Use} (hu : u.Fits os) :
    ∃ s', After os (es ++ u.events) (pos ++ u.args) s' ∧ ∀ rest, words os s (u.written ++ rest) = words os s' rest := by
  have hone : ∀ {a : Str} {s' : State} {rest : List Str}, word os s a = .ok s' → words os s ([a] ++ rest) = words os s' rest := by
    intro a s' rest hw
    simp [words, hw]
  have htwo : ∀ {a v : Str} {o : Opt} {s' : State} {rest : List Str}, word os s a = .ok { s' with waiting := some o } → s'.waiting = none →
      words os s ([a, v] ++ rest) = words os (s'.store o v) rest := by
    intro a v o s' rest hw hs'
    have h2 := waiting_word (os := os) (s := { s' with waiting := some o }) (o := o) rfl v
    simp only [List.cons_append, List.nil_append, words, hw, h2]
    cases s'
    simp only at hs'
    subst hs'
    rfl
  cases u with
  | plain w =>
    refine ⟨{ s with pos := s.pos ++ [w] }, ⟨?_, ?_, h.waiting, h.rest⟩, fun rest => hone ?_⟩
    · simpa [Use.events] using h.vals
    · simp [Use.args, h.pos]
    · unfold word
      rw [h.waiting]
      simp only [h.rest, Bool.false_eq_true, if_false]
      unfold Use.Fits at hu
      rw [if_neg, if_neg]
      · intro hh
        exact hu ⟨hh.1, by omega⟩
      · rintro rfl
        exact hu ⟨rfl, by decide⟩
  | flag o f b =>
    obtain ⟨h1, h2, h3, h4⟩ := hu
    have hff : f ∈ forms o := by
      unfold forms
      split at h4 <;> simp [h4]
    obtain ⟨d1, d2, d3, d4⟩ := hg.dash o h1 f hff
    refine ⟨s.mark o b, by simpa [Use.events, Use.args] using h.mark hg h1 h2 b, fun rest => hone ?_⟩
    rw [word_option h.waiting h.rest d1 d2 d4]
    exact (option_long hg s h1 h3 h4).2.2 h2
  | next o f v =>
    obtain ⟨h1, h2, h3, h4⟩ := hu
    have hff : f ∈ forms o := by simp [forms, h4]
    obtain ⟨d1, d2, d3, d4⟩ := hg.dash o h1 f hff
    refine ⟨s.store o v, by simpa [Use.events, Use.args] using h.store hg h1 h2 v, fun rest => htwo ?_ h.waiting⟩
    rw [word_option h.waiting h.rest d1 d2 d4]
    exact (option_long (b := true) hg s h1 h3 (by simpa using h4)).1 h2
  | glued o f v =>
    obtain ⟨h1, h2, h3, h4⟩ := hu
    have hff : f ∈ forms o := by simp [forms, h4]
    obtain ⟨d1, d2, d3, d4⟩ := hg.dash o h1 f hff
    refine ⟨s.store o v, by simpa [Use.events, Use.args] using h.store hg h1 h2 v, fun rest => hone ?_⟩
    rw [word_option h.waiting h.rest]
    · exact (option_long (b := true) hg s h1 h3 (by simpa using h4)).2.1 h2 v
    · obtain ⟨cs, rfl⟩ := dashed_word d1
      rfl
    · simp
      omega
    · intro he
      have := congrArg List.length he
      simp at this
      omega
  | marks l =>
    obtain ⟨h1, h2, h3⟩ := hu
    refine ⟨_, by simpa [Use.events, Use.args] using h.marks hg h2, fun rest => hone ?_⟩
    have hhead := flags_head hg h2 [] (by simp)
    rw [List.append_nil] at hhead
    have hlen : letters l ≠ [] := by
      intro hh
      exact h1 (by simpa [letters] using hh)
    have hlen' : 0 < (letters l).length := List.length_pos_iff.2 hlen
    rw [word_option h.waiting h.rest rfl (by simp; omega), option_short hg h3 hhead]
    · have := shorts_marks hg h2 s []
      rw [List.append_nil] at this
      rw [this]
      rfl
    · intro he
      rw [List.cons.injEq] at he
      rw [he.2] at hhead
      exact hhead rfl
  | marksNext l o c v =>
    obtain ⟨h1, h2, h3, h4, h5⟩ := hu
    have hc := letter_ne hg h2 (by simp [forms, h4] : ['-', c] ∈ forms o)
    have hhead := flags_head hg h1 [c] (by simpa using hc)
    have hst := (h.marks hg h1)
    refine ⟨_, by simpa [Use.events, Use.args] using hst.store hg h2 h3 v, fun rest => htwo ?_ hst.waiting⟩
    rw [word_option h.waiting h.rest rfl (by simp), option_short hg h5 hhead, shorts_marks hg h1]
    · unfold shorts
      rw [findForm_spec (b := true) hg h2 (by simpa using h4)]
      simp [(takes_iff o).2 h3]
    · intro he
      rw [List.cons.injEq] at he
      rw [he.2] at hhead
      exact hhead rfl
  | marksGlued l o c v =>
    obtain ⟨h0, h1, h2, h3, h4, h5⟩ := hu
    have hc := letter_ne hg h2 (by simp [forms, h4] : ['-', c] ∈ forms o)
    have hhead := flags_head hg h1 (c :: v) (by simpa using hc)
    have hst := (h.marks hg h1)
    refine ⟨_, by simpa [Use.events, Use.args] using hst.store hg h2 h3 v, fun rest => hone ?_⟩
    rw [word_option h.waiting h.rest rfl (by simp; omega), option_short hg h5 hhead, shorts_marks hg h1]
    · unfold shorts
      rw [findForm_spec (b := true) hg h2 (by simpa using h4)]
      simp only [(takes_iff o).2 h3, if_true]
    · intro he
      rw [List.cons.injEq] at he
      rw [he.2] at hhead
      exact hhead rfl

theorem words_rest {s : State} (h1 : s.waiting = none) (h2 : s.rest = true) (l : List Str) : words os s l = .ok { s with pos := s.pos ++ l } := by
  induction l generalizing s with
  | nil => simp [words, h1]; cases s; simp_all
  | cons a l ih =>
    have : word os s a = .ok { s with pos := s.pos ++ [a] } := by
      unfold word
      rw [h1]
      simp [h2]
    unfold words
    rw [this]
    simp only
    rw [ih (s := { s with pos := s.pos ++ [a] }) h1 h2]
    simp

/-- C128: every command line that can be written with the options of a command is read as written: each option has what its uses mean, the arguments are the other words
in order. -/
theorem C128_reads (hg : Good os) (l : Line os line) :
    ∃ s, words os {} line = .ok s ∧ s.pos = l.args ∧ ∀ o ∈ os, s.vals o.name = meaning o l.events := by
  have hstart : After os [] [] {} := by
    refine ⟨?_, rfl, rfl, rfl⟩
    intro o ho
    unfold meaning marksOf valuesOf
    cases o.kind <;> simp
  have key : ∀ (us : List Use), (∀ u ∈ us, u.Fits os) → ∀ es pos s, After os es pos s →
      ∃ s', After os (es ++ us.flatMap Use.events) (pos ++ us.flatMap Use.args) s' ∧ ∀ rest, words os s (us.flatMap Use.written ++ rest) = words os s' rest := by
    intro us
    induction us with
    | nil =>
      intro _ es pos s h
      exact ⟨s, by simpa using h, fun rest => rfl⟩
    | cons u us ih =>
      intro hu es pos s h
      obtain ⟨s1, h1, h2⟩ := words_use hg h (hu u (by simp))
      obtain ⟨s2, h3, h4⟩ := ih (fun x hx => hu x (by simp [hx])) _ _ _ h1
      refine ⟨s2, by simpa [List.append_assoc] using h3, ?_⟩
      intro rest
      rw [List.flatMap_cons, List.append_assoc, h2, h4]
  obtain ⟨s, h1, h2⟩ := key l.uses l.fits [] [] {} hstart
  have hline := congrArg (words os {}) l.written
  rw [h2] at hline
  simp only [List.nil_append] at h1
  rw [hline]
  unfold Line.args Line.events
  cases ha : l.after with
  | none =>
    refine ⟨s, by simp [words, h1.waiting], by simp [h1.pos], h1.vals⟩
  | some w =>
    have hw : word os s cs!"--" = .ok { s with rest := true } := by
      unfold word
      rw [h1.waiting]
      simp [h1.rest]
    refine ⟨{ s with rest := true, pos := s.pos ++ w }, ?_, by simp [h1.pos], h1.vals⟩
    simp only [words, hw]
    rw [words_rest (s := { s with rest := true }) h1.waiting rfl]

/-! ## Nothing else is read -/

theorem shorts_inv {s s' : State} (hw : s.waiting = none) {cs : Str} (h : shorts os s cs = .ok s') (hoff : ∀ o ∈ os, HasValue o → o.off = []) :
    ∃ l, Flags os l ∧ ((cs = letters l ∧ s'.waiting = none ∧ s'.rest = s.rest) ∨
      (∃ o c, o ∈ os ∧ HasValue o ∧ ['-', c] ∈ o.on ∧ cs = letters l ++ [c] ∧ s'.waiting = some o ∧ s'.rest = s.rest) ∨
      (∃ o c v, v ≠ [] ∧ o ∈ os ∧ HasValue o ∧ ['-', c] ∈ o.on ∧ cs = letters l ++ c :: v ∧ s'.waiting = none ∧ s'.rest = s.rest)) := by
  have hmark : ∀ (s : State) o b, (s.mark o b).waiting = s.waiting ∧ (s.mark o b).rest = s.rest := by
    intro s o b
    unfold State.mark
    split
    · split <;> exact ⟨rfl, rfl⟩
    · exact ⟨rfl, rfl⟩
  have hstore : ∀ (s : State) o v, (s.store o v).waiting = s.waiting ∧ (s.store o v).rest = s.rest := by
    intro s o v
    unfold State.store
    split
    · split <;> exact ⟨rfl, rfl⟩
    · exact ⟨rfl, rfl⟩
  induction cs generalizing s with
  | nil =>
    cases h
    exact ⟨[], by simp [Flags], Or.inl ⟨rfl, hw, rfl⟩⟩
  | cons c cs ih =>
    unfold shorts at h
    split at h
    · cases h
    · rename_i o b ho
      obtain ⟨h1, h2⟩ := findForm_inv ho
      by_cases ht : o.takes = true
      · have hv := (takes_iff o).1 ht
        have hon : ['-', c] ∈ o.on := by
          cases b
          · simp [hoff o h1 hv] at h2
          · simpa using h2
        rw [if_pos ht] at h
        split at h
        · cases h
          exact ⟨[], by simp [Flags], Or.inr (Or.inl ⟨o, c, h1, hv, hon, rfl, rfl, rfl⟩)⟩
        · rename_i hne
          cases h
          exact ⟨[], by simp [Flags], Or.inr (Or.inr ⟨o, c, cs, by simpa using hne, h1, hv, hon, rfl, by rw [(hstore _ _ _).1, hw], (hstore _ _ _).2⟩)⟩
      · rw [if_neg ht] at h
        obtain ⟨l, hl, hcase⟩ := ih (by rw [(hmark _ _ _).1, hw]) h
        have hv : ¬ HasValue o := fun hh => ht ((takes_iff o).2 hh)
        refine ⟨(o, c, b) :: l, ?_, ?_⟩
        · intro e he
          rcases List.mem_cons.1 he with rfl | he
          · exact ⟨h1, hv, h2⟩
          · exact hl e he
        · rw [(hmark s o b).2] at hcase
          rcases hcase with ⟨e, w1, w2⟩ | ⟨o', c', a1, a2, a3, a4, a5, a6⟩ | ⟨o', c', v, a0, a1, a2, a3, a4, a5, a6⟩
          · exact Or.inl ⟨by rw [e]; rfl, w1, w2⟩
          · exact Or.inr (Or.inl ⟨o', c', a1, a2, a3, by rw [a4]; rfl, a5, a6⟩)
          · exact Or.inr (Or.inr ⟨o', c', v, a0, a1, a2, a3, by rw [a4]; rfl, a5, a6⟩)

theorem option_notLong (hg : Good os) {a : Str} (h : (if isShort (splitEq a).1 then none else findForm os (splitEq a).1) = none) : NotLong os a := by
  intro o ho f hf hlen
  obtain ⟨h1, h2, h3, h4⟩ := hg.dash o ho f hf
  have hs : isShort f = false := by
    unfold isShort
    simp [hlen]
  have hfound : findForm os f ≠ none := by
    have hf' := hf
    unfold forms at hf'
    rcases List.mem_append.1 hf' with hh | hh
    · rw [findForm_spec (b := true) hg ho (by simpa using hh)]
      simp
    · rw [findForm_spec (b := false) hg ho (by simpa using hh)]
      simp
  constructor
  · rintro rfl
    rw [splitEq_none h3] at h
    simp only [hs, Bool.false_eq_true, if_false] at h
    exact hfound h
  · rintro v rfl
    rw [splitEq_some h3] at h
    simp only [hs, Bool.false_eq_true, if_false] at h
    exact hfound h

/-- C128: nothing else is read: a command line that is accepted can be written with the options of the command. -/
theorem C128_only (hg : Good os) {s : State} (h : words os {} line = .ok s) : Nonempty (Line os line) := by
  have hmark : ∀ (s : State) o b, (s.mark o b).waiting = s.waiting ∧ (s.mark o b).rest = s.rest := by
    intro s o b
    unfold State.mark
    split
    · split <;> exact ⟨rfl, rfl⟩
    · exact ⟨rfl, rfl⟩
  have hstore : ∀ (s : State) o v, (s.store o v).waiting = s.waiting ∧ (s.store o v).rest = s.rest := by
    intro s o v
    unfold State.store
    split
    · split <;> exact ⟨rfl, rfl⟩
    · exact ⟨rfl, rfl⟩
  have key : ∀ (n : Nat) (line : List Str), line.length ≤ n → ∀ s s' : State, s.waiting = none → s.rest = false → words os s line = .ok s' → Nonempty (Line os line) := by
    intro n
    induction n with
    | zero =>
      intro line hl s s' _ _ _
      have : line = [] := List.length_eq_zero_iff.1 (by omega)
      subst this
      exact ⟨⟨[], none, by simp, rfl⟩⟩
    | succ n ih =>
      intro line hl s s' hw hr h
      have hcons : ∀ {u : Use} {rest : List Str}, u.Fits os → Nonempty (Line os rest) → Nonempty (Line os (u.written ++ rest)) := by
        rintro u rest hu ⟨⟨us, a, hf, hwr⟩⟩
        refine ⟨⟨u :: us, a, ?_, ?_⟩⟩
        · intro x hx
          rcases List.mem_cons.1 hx with rfl | hx
          · exact hu
          · exact hf x hx
        · rw [List.flatMap_cons, List.append_assoc, ← hwr]
      cases line with
      | nil => exact ⟨⟨[], none, by simp, rfl⟩⟩
      | cons a rest =>
        have hlr : rest.length ≤ n := by simpa using hl
        -- the word after an option that waits for one
        have hnext : ∀ {s1 : State} {o : Opt} , s1.waiting = some o → s1.rest = false → words os s1 rest = .ok s' →
            ∃ v rest', rest = v :: rest' ∧ Nonempty (Line os rest') := by
          intro s1 o h1 h2 h3
          cases rest with
          | nil => simp [words, h1] at h3
          | cons v rest' =>
            unfold words at h3
            rw [waiting_word h1] at h3
            refine ⟨v, rest', rfl, ih rest' (by simp at hlr; omega) _ s' ?_ ?_ h3⟩
            · rw [(hstore _ _ _).1]
            · rw [(hstore _ _ _).2]
              exact h2
        unfold words at h
        cases hword : word os s a with
        | error e => rw [hword] at h; cases h
        | ok s1 =>
          rw [hword] at h
          simp only at h
          unfold word at hword
          rw [hw] at hword
          simp only [hr, Bool.false_eq_true, if_false] at hword
          by_cases hdd : a = cs!"--"
          · subst hdd
            exact ⟨⟨[], some rest, by simp, rfl⟩⟩
          · rw [if_neg hdd] at hword
            by_cases hopt : a.head? = some '-' ∧ 1 < a.length
            · rw [if_pos hopt] at hword
              unfold option at hword
              cases hfind : (if isShort (splitEq a).1 then none else findForm os (splitEq a).1) with
              | some ob =>
                obtain ⟨o, b⟩ := ob
                rw [hfind] at hword
                simp only at hword
                split at hfind
                · cases hfind
                · rename_i hshort
                  obtain ⟨h1, h2⟩ := findForm_inv hfind
                  have hff : (splitEq a).1 ∈ forms o := by
                    unfold forms
                    split at h2 <;> simp [h2]
                  have hd4 := (hg.dash o h1 _ hff).2.2.2
                  have hlen : (splitEq a).1.length ≠ 2 := by
                    intro hh
                    exact hshort (by unfold isShort; simp [hh, hd4])
                  have heq := splitEq_eq a
                  by_cases ht : o.takes = true
                  · have hv := (takes_iff o).1 ht
                    have hon : (splitEq a).1 ∈ o.on := by
                      cases b
                      · simp [hg.values o h1 hv] at h2
                      · simpa using h2
                    rw [if_pos ht] at hword
                    cases he : (splitEq a).2 with
                    | none =>
                      rw [he] at hword heq
                      cases hword
                      obtain ⟨v, rest', rfl, hline⟩ := hnext (s1 := { s with waiting := some o }) rfl hr h
                      simp only [List.append_nil] at heq
                      have := hcons (u := .next o (splitEq a).1 v) ⟨h1, hv, hlen, hon⟩ hline
                      simp only [Use.written] at this
                      try simp only at heq
                      rwa [← heq] at this
                    | some v =>
                      rw [he] at hword heq
                      cases hword
                      have hline := ih rest hlr _ s' (by rw [(hstore _ _ _).1, hw]) (by rw [(hstore _ _ _).2, hr]) h
                      have := hcons (u := .glued o (splitEq a).1 v) ⟨h1, hv, hlen, hon⟩ hline
                      simp only [Use.written] at this
                      try simp only at heq
                      rwa [← heq] at this
                  · rw [if_neg ht] at hword
                    have hv : ¬ HasValue o := fun hh => ht ((takes_iff o).2 hh)
                    cases he : (splitEq a).2 with
                    | none =>
                      rw [he] at hword heq
                      cases hword
                      have hline := ih rest hlr _ s' (by rw [(hmark _ _ _).1, hw]) (by rw [(hmark _ _ _).2, hr]) h
                      simp only [List.append_nil] at heq
                      have := hcons (u := .flag o (splitEq a).1 b) ⟨h1, hv, hlen, h2⟩ hline
                      simp only [Use.written] at this
                      try simp only at heq
                      rwa [← heq] at this
                    | some v => rw [he] at hword; cases hword
              | none =>
                rw [hfind] at hword
                simp only at hword
                have hnl := option_notLong hg hfind
                split at hword
                · cases hword
                · obtain ⟨cs, rfl⟩ := dashed_word hopt.1
                  rw [List.tail_cons] at hword
                  obtain ⟨l, hl1, hcase⟩ := shorts_inv hw hword hg.values
                  rcases hcase with ⟨rfl, w1, w2⟩ | ⟨o, c, a1, a2, a3, rfl, a5, a6⟩ | ⟨o, c, v, a0, a1, a2, a3, rfl, a5, a6⟩
                  · have hline := ih rest hlr _ s' w1 (by rw [w2, hr]) h
                    refine hcons (u := .marks l) ⟨?_, hl1, hnl⟩ hline
                    rintro rfl
                    simp [letters] at hopt
                  · obtain ⟨v, rest', rfl, hline⟩ := hnext a5 (by rw [a6, hr]) h
                    exact hcons (u := .marksNext l o c v) ⟨hl1, a1, a2, a3, hnl⟩ hline
                  · have hline := ih rest hlr _ s' a5 (by rw [a6, hr]) h
                    exact hcons (u := .marksGlued l o c v) ⟨a0, hl1, a1, a2, a3, hnl⟩ hline
            · rw [if_neg hopt] at hword
              cases hword
              have hline := ih rest hlr _ s' rfl rfl h
              exact hcons (u := .plain a) (fun hh => hopt ⟨hh.1, by omega⟩) hline
  exact key line.length line (Nat.le_refl _) {} s rfl rfl h
/-! ## The commands -/

/-- C128: the options of every command can be told apart: no two have a form or a name in common, and all are written with a dash. -/
theorem C128_tables : ∀ c ∈ commands, Good c.opts := by
  have h : commands.all (fun c => decide ((c.opts.flatMap forms).Nodup ∧ (c.opts.map Opt.name).Nodup ∧
      (∀ o ∈ c.opts, ∀ f ∈ forms o, f.head? = some '-' ∧ 2 ≤ f.length ∧ '=' ∉ f ∧ f ≠ cs!"--") ∧
      (∀ o ∈ c.opts, (o.kind = .value ∨ o.kind = .many) → o.off = []))) = true := by
    decide +kernel
  intro c hc
  have := of_decide_eq_true (List.all_eq_true.1 h c hc)
  exact ⟨this.1, this.2.1, this.2.2.1, this.2.2.2⟩

/-- C128: the function of every command is called with exactly its parameters: the arguments, the command's own options, and `merge_options` if the command has
those. -/
theorem C128_parameters : ∀ c ∈ commands, (c.args ++ c.own.map Opt.name ++ (if c.merge then [cs!"merge_options"] else [])).Perm c.params ∧
    (c.args ++ c.opts.map Opt.name).Nodup := by
  have h : commands.all (fun c => decide ((c.args ++ c.own.map Opt.name ++ (if c.merge then [cs!"merge_options"] else [])).Perm c.params ∧
      (c.args ++ c.opts.map Opt.name).Nodup)) = true := by
    decide +kernel
  intro c hc
  exact of_decide_eq_true (List.all_eq_true.1 h c hc)

/-- A setting of merges: its name, its type, what it is if not given, how it is written on a command line, and how it is switched off. -/
structure Setting where
  name : Str
  type : FieldType
  start : Option FieldVal
  on : List Str
  off : List Str := []

/-- The settings of merges, as documented. -/
def settings : List Setting :=
  [⟨cs!"allow_crimes", .bool, some (.bool false), [cs!"--allow-crimes"], [cs!"--no-allow-crimes"]⟩,
   ⟨cs!"transformers_cache", .str, none, [cs!"--transformers-cache"], []⟩,
   ⟨cs!"lora_merge_cache", .str, none, [cs!"--lora-merge-cache"], []⟩,
   ⟨cs!"lora_merge_dtype", .str, none, [cs!"--lora-merge-dtype"], []⟩,
   ⟨cs!"cuda", .bool, some (.bool false), [cs!"--cuda"], [cs!"--no-cuda"]⟩,
   ⟨cs!"device", .str, none, [cs!"--device"], []⟩,
   ⟨cs!"low_cpu_memory", .bool, some (.bool false), [cs!"--low-cpu-memory"], [cs!"--no-low-cpu-memory"]⟩,
   ⟨cs!"out_shard_size", .size, some (.int 5000000000), [cs!"--out-shard-size"], []⟩,
   ⟨cs!"copy_tokenizer", .bool, some (.bool true), [cs!"--copy-tokenizer"], [cs!"--no-copy-tokenizer"]⟩,
   ⟨cs!"clone_tensors", .bool, some (.bool false), [cs!"--clone-tensors"], [cs!"--no-clone-tensors"]⟩,
   ⟨cs!"trust_remote_code", .bool, some (.bool false), [cs!"--trust-remote-code"], [cs!"--no-trust-remote-code"]⟩,
   ⟨cs!"random_seed", .int, none, [cs!"--random-seed"], []⟩,
   ⟨cs!"lazy_unpickle", .bool, some (.bool false), [cs!"--lazy-unpickle"], [cs!"--no-lazy-unpickle"]⟩,
   ⟨cs!"write_model_card", .bool, some (.bool true), [cs!"--write-model-card"], [cs!"--no-write-model-card"]⟩,
   ⟨cs!"safe_serialization", .bool, some (.bool true), [cs!"--safe-serialization"], [cs!"--no-safe-serialization"]⟩,
   ⟨cs!"verbosity", .int, some (.int 0), [cs!"-v"], []⟩,
   ⟨cs!"quiet", .bool, some (.bool false), [cs!"--quiet"], [cs!"--no-quiet"]⟩,
   ⟨cs!"read_to_gpu", .bool, some (.bool false), [cs!"--read-to-gpu"], [cs!"--no-read-to-gpu"]⟩,
   ⟨cs!"multi_gpu", .bool, some (.bool false), [cs!"--multi-gpu"], [cs!"--no-multi-gpu"]⟩,
   ⟨cs!"num_threads", .int, none, [cs!"--num-threads", cs!"-j"], []⟩,
   ⟨cs!"gpu_rich", .bool, some (.bool false), [cs!"--gpu-rich"], []⟩,
   ⟨cs!"async_write", .bool, some (.bool false), [cs!"--async-write"], [cs!"--no-async-write"]⟩,
   ⟨cs!"write_threads", .int, some (.int 1), [cs!"--write-threads"], []⟩]

/-- The option of a setting: verbosity is counted, flags are set, the others have a value. -/
def Setting.opt (r : Setting) : Opt where
  name := r.name
  kind := if r.name = cs!"verbosity" then .count else if r.type = .bool then .flag else .value
  on := r.on
  off := r.off

/-- What a setting is after a command line: as it starts if not mentioned, else as its option means, with numbers read as numbers. -/
def Setting.Is (r : Setting) (es : List Event) (v : Option FieldVal) : Prop :=
  match meaning r.opt es with
  | none => v = r.start
  | some (.flag b) => v = some (.bool b)
  | some (.count n) => v = some (.int n)
  | some (.words _) => False
  | some (.word w) =>
    match r.type with
    | .str => v = some (.str w)
    | .int => ∃ i, ModelRef.pyInt w = some i ∧ v = some (.int i)
    | .size => ∃ i, ModelRef.parseKmb w = some i ∧ v = some (.int i)
    | .bool => False

theorem settings_fields : fields = settings.map (fun r => (r.name, r.type)) ∧ fields.map fieldOpt = settings.map Setting.opt ∧
    settings.map (fun r => default r.name) = settings.map Setting.start := by
  decide +kernel

theorem settings_mem {c : Command} (hm : c.merge = true) {r : Setting} (hr : r ∈ settings) : r.opt ∈ c.opts := by
  unfold Command.opts
  rw [if_pos hm, settings_fields.2.1]
  simp only [List.mem_append]
  exact Or.inl (Or.inr (List.mem_map_of_mem hr))

theorem settings_default {r : Setting} (hr : r ∈ settings) : default r.name = r.start :=
  (List.map_inj_left.1 settings_fields.2.2) r hr

theorem meaning_kind (o : Opt) (es : List Event) (v : Val) (h : meaning o es = some v) : match v with
    | .flag _ => o.kind = .flag
    | .word _ => o.kind = .value
    | .words _ => o.kind = .many
    | .count _ => o.kind = .count := by
  unfold meaning at h
  cases hk : o.kind with
  | flag =>
    rw [hk] at h
    cases hl : (marksOf o es).getLast? with
    | none => simp [hl] at h
    | some b => simp [hl] at h; subst h; rfl
  | value =>
    rw [hk] at h
    cases hl : (valuesOf o es).getLast? with
    | none => simp [hl] at h
    | some b => simp [hl] at h; subst h; rfl
  | many =>
    rw [hk] at h
    simp only at h
    by_cases hn : valuesOf o es = []
    · simp [hn] at h
    · simp [hn] at h; subst h; rfl
  | count =>
    rw [hk] at h
    simp only at h
    by_cases hn : marksOf o es = []
    · simp [hn] at h
    · simp [hn] at h; subst h; rfl

theorem flag_bool {r : Setting} (es : List Event) {w : Str} (h : meaning r.opt es = some (.word w)) : r.type ≠ .bool := by
  intro hb
  have := meaning_kind _ _ _ h
  simp only [Setting.opt, hb, if_true] at this
  split at this <;> cases this

theorem no_words {r : Setting} (es : List Event) {l : List Str} : meaning r.opt es ≠ some (.words l) := by
  intro h
  have := meaning_kind _ _ _ h
  simp only [Setting.opt] at this
  split at this
  · cases this
  · split at this <;> cases this

theorem convert_iff {r : Setting} (hr : r ∈ settings) (es : List Event) (v : Option FieldVal) :
    convert (r.name, r.type) (meaning r.opt es) = .ok v ↔ r.Is es v := by
  unfold convert Setting.Is
  cases h : meaning r.opt es with
  | none => simp [settings_default hr, eq_comm]
  | some x =>
    cases x with
    | flag b => simp [eq_comm]
    | count n => simp [eq_comm]
    | words l => exact absurd h (no_words es)
    | word w =>
      cases ht : r.type with
      | bool => exact absurd ht (flag_bool es h)
      | str => simp [eq_comm]
      | int => cases hp : ModelRef.pyInt w <;> simp [hp, eq_comm (a := v)]
      | size => cases hp : ModelRef.parseKmb w <;> simp [hp, eq_comm (a := v)]

theorem mergeArgs_iff (vals : Str → Option Val) (es : List Event) (rs : List Setting) (hrs : ∀ r ∈ rs, r ∈ settings) (hv : ∀ r ∈ rs, vals r.name = meaning r.opt es)
    (m : List (Str × Option FieldVal)) :
    mergeArgs vals (rs.map (fun r => (r.name, r.type))) = .ok m ↔ List.Forall₂ (fun r e => e.1 = r.name ∧ r.Is es e.2) rs m := by
  induction rs generalizing m with
  | nil =>
    simp only [List.map_nil, mergeArgs, List.forall₂_nil_left_iff]
    constructor
    · intro h; cases h; rfl
    · rintro rfl; rfl
  | cons r rs ih =>
    have ih' := ih (fun x hx => hrs x (by simp [hx])) (fun x hx => hv x (by simp [hx]))
    have hc := convert_iff (hrs r (by simp)) es
    simp only [List.map_cons, mergeArgs]
    rw [hv r (by simp), List.forall₂_cons_left_iff]
    constructor
    · intro h
      split at h
      · cases h
      · rename_i v hv'
        split at h
        · cases h
        · rename_i t ht
          cases h
          exact ⟨(r.name, v), t, ⟨rfl, (hc v).1 hv'⟩, (ih' t).1 ht, rfl⟩
    · rintro ⟨⟨n, v⟩, t, ⟨h1, h2⟩, h3, rfl⟩
      simp only at h1
      subst h1
      rw [(hc v).2 h2, (ih' t).2 h3]

/-- What a command is called with: its arguments in order, what each of its own options means, and every setting of merges if it has those. -/
structure Called (c : Command) (es : List Event) (args : List Str) (k : Call) : Prop where
  args : k.args = c.args.zip args
  own : k.own = c.own.map (fun o => (o.name, meaning o es))
  merge : if c.merge then List.Forall₂ (fun r e => e.1 = r.name ∧ r.Is es e.2) settings k.merge else k.merge = []

/-- A command line that has all that is needed: help is not asked for, as many arguments as there are, all options that are required. -/
structure Enough (c : Command) (es : List Event) (args : List Str) : Prop where
  help : meaning { name := cs!"help", kind := .flag, on := [cs!"--help"] } es ≠ some (.flag true)
  args : args.length = c.args.length
  required : ∀ o ∈ c.own, o.required = true → meaning o es ≠ none

/-- C128: a command is called exactly if its command line can be written with its options, has what is needed, and every number in it is one; and then it is called
with what the command line means. -/
theorem C128_call {c : Command} (hc : c ∈ commands) (l : Line c.opts line) (k : Call) :
    call c line = .ok k ↔ Enough c l.events l.args ∧ Called c l.events l.args k := by
  obtain ⟨s, h1, h2, h3⟩ := C128_reads (C128_tables c hc) l
  have hhelp := h3 { name := cs!"help", kind := .flag, on := [cs!"--help"] } (by simp [Command.opts])
  have hown : ∀ o ∈ c.own, s.vals o.name = meaning o l.events := fun o ho => h3 o (by simp [Command.opts, ho])
  have hmap : c.own.map (fun o => (o.name, s.vals o.name)) = c.own.map (fun o => (o.name, meaning o l.events)) :=
    List.map_congr_left (fun o ho => by rw [hown o ho])
  have hreq : (c.own.any (fun o => o.required && (s.vals o.name).isNone) = true) ↔ ¬ ∀ o ∈ c.own, o.required = true → meaning o l.events ≠ none := by
    simp only [List.any_eq_true, Bool.and_eq_true, Option.isNone_iff_eq_none]
    constructor
    · rintro ⟨o, ho, hr, hn⟩ hall
      exact hall o ho hr (by rw [← hown o ho, hn])
    · intro hall
      by_contra hno
      refine hall (fun o ho hr hn => hno ⟨o, ho, hr, by rw [hown o ho, hn]⟩)
  unfold call
  rw [h1]
  simp only at hhelp ⊢
  rw [hhelp, h2]
  constructor
  · intro h
    split at h
    · cases h
    · rename_i g1
      split at h
      · cases h
      · rename_i g2
        split at h
        · cases h
        · rename_i g3
          split at h
          · cases h
          · rename_i g4
            refine ⟨⟨g1, by omega, ?_⟩, ?_⟩
            · by_contra hno
              exact g4 (hreq.2 hno)
            · split at h
              · cases h
              · rename_i m hm
                cases h
                refine ⟨rfl, hmap, ?_⟩
                cases hcm : c.merge with
                | false =>
                  rw [hcm] at hm
                  cases hm
                  simp
                | true =>
                  rw [hcm] at hm
                  simp only [if_true] at hm ⊢
                  rw [settings_fields.1] at hm
                  exact (mergeArgs_iff s.vals l.events settings (fun _ h => h) (fun r hr => h3 r.opt (settings_mem hcm hr)) m).1 hm
  · rintro ⟨⟨e1, e2, e3⟩, ⟨c1, c2, c3⟩⟩
    rw [if_neg e1, if_neg (by omega), if_neg (by omega), if_neg (fun h => (hreq.1 h) e3)]
    have hm : (if c.merge then mergeArgs s.vals fields else .ok []) = .ok k.merge := by
      cases hcm : c.merge with
      | false =>
        rw [hcm] at c3
        simp only [Bool.false_eq_true, if_false] at c3 ⊢
        rw [c3]
      | true =>
        rw [hcm] at c3
        simp only [if_true] at c3 ⊢
        rw [settings_fields.1]
        exact (mergeArgs_iff s.vals l.events settings (fun _ h => h) (fun r hr => h3 r.opt (settings_mem hcm hr)) k.merge).2 c3
    rw [hm, hmap]
    cases k
    simp only at c1 c2 ⊢
    rw [c1, c2]

/-- C128: no command is called with a command line that cannot be written with its options. -/
theorem C128_refused {c : Command} (hc : c ∈ commands) (h : IsEmpty (Line c.opts line)) : ∃ e, call c line = .error e := by
  unfold call
  cases hw : words c.opts {} line with
  | error e => exact ⟨e, rfl⟩
  | ok s =>
    obtain ⟨l⟩ := C128_only (C128_tables c hc) hw
    exact h.elim l

/-! ## What the merge then runs with -/

/-- The option `--device`. -/
def deviceOpt : Opt := { name := cs!"device", kind := .value, on := [cs!"--device"] }

/-- The option `--write-threads`. -/
def threadsOpt : Opt := { name := cs!"write_threads", kind := .value, on := [cs!"--write-threads"] }

/-- The last of the truth values a setting was given, or false. -/
def lastOf (n : Str) (on off : List Str) (es : List Event) : Bool := ((marksOf { name := n, kind := .flag, on, off } es).getLast?).getD false

theorem lookup_settings {m : List (Str × Option FieldVal)} {es : List Event} : ∀ {rs : List Setting}, (rs.map Setting.name).Nodup →
    List.Forall₂ (fun r e => e.1 = r.name ∧ r.Is es e.2) rs m → ∀ r ∈ rs, ∃ v, m.lookup r.name = some v ∧ r.Is es v := by
  intro rs
  induction rs generalizing m with
  | nil => simp
  | cons r rs ih =>
    intro hnd h x hx
    cases h with
    | @cons _ e _ t h1 h2 =>
      obtain ⟨n, v⟩ := e
      simp only at h1
      obtain ⟨rfl, h1⟩ := h1
      simp only [List.map_cons, List.nodup_cons] at hnd
      rcases List.mem_cons.1 hx with rfl | hx
      · exact ⟨v, by simp [List.lookup], h1⟩
      · obtain ⟨v', h3, h4⟩ := ih hnd.2 h2 x hx
        refine ⟨v', ?_, h4⟩
        have hne : x.name ≠ r.name := by
          intro he
          exact hnd.1 (by rw [← he]; exact List.mem_map_of_mem hx)
        simp [List.lookup, beq_false_of_ne hne, h3]

theorem settings_nodup : (settings.map Setting.name).Nodup := by decide +kernel

theorem flag_is {es : List Event} {v : Option FieldVal} {n : Str} {on off : List Str} (hn : n ≠ cs!"verbosity")
    (h : Setting.Is ⟨n, .bool, some (.bool false), on, off⟩ es v) : v = some (.bool (lastOf n on off es)) := by
  have hm : meaning (Setting.opt ⟨n, .bool, some (.bool false), on, off⟩) es = ((marksOf { name := n, kind := .flag, on, off } es).getLast?).map .flag := by
    unfold meaning Setting.opt
    simp [hn]
  unfold Setting.Is at h
  rw [hm] at h
  unfold lastOf
  cases hl : (marksOf { name := n, kind := .flag, on, off } es).getLast? with
  | none =>
    rw [hl] at h
    simpa using h
  | some b =>
    rw [hl] at h
    simpa using h

/-- C128: what a merge started from the shell runs with: each flag as it was given last, or with `--gpu-rich`; the device that was named last. -/
theorem C128_options {c : Command} (hc : c ∈ commands) (hm : c.merge = true) (l : Line c.opts line) {k : Call} (h : call c line = .ok k) (M : Options.Machine) :
    let o := Options.validate M (toGiven k.merge)
    let rich := lastOf cs!"gpu_rich" [cs!"--gpu-rich"] [] l.events
    o.cuda = (rich || lastOf cs!"cuda" [cs!"--cuda"] [cs!"--no-cuda"] l.events) ∧
    o.lowCpuMemory = (rich || lastOf cs!"low_cpu_memory" [cs!"--low-cpu-memory"] [cs!"--no-low-cpu-memory"] l.events) ∧
    o.readToGpu = (rich || lastOf cs!"read_to_gpu" [cs!"--read-to-gpu"] [cs!"--no-read-to-gpu"] l.events) ∧
    o.multiGpu = (rich || lastOf cs!"multi_gpu" [cs!"--multi-gpu"] [cs!"--no-multi-gpu"] l.events) ∧
    o.asyncWrite = lastOf cs!"async_write" [cs!"--async-write"] [cs!"--no-async-write"] l.events ∧
    (∀ d, d ≠ [] → d ≠ cs!"auto" → (valuesOf deviceOpt l.events).getLast? = some d → o.device = some d) ∧
    (valuesOf deviceOpt l.events = [] →
      o.device = some (if rich || lastOf cs!"cuda" [cs!"--cuda"] [cs!"--no-cuda"] l.events then cs!"cuda" else cs!"cpu")) ∧
    (∀ w, (valuesOf threadsOpt l.events).getLast? = some w → ModelRef.pyInt w = some o.writeThreads) ∧
    (valuesOf threadsOpt l.events = [] → o.writeThreads = 1) := by
  obtain ⟨_, hk⟩ := (C128_call hc l k).1 h
  have hf := hk.merge
  rw [if_pos hm] at hf
  have look := lookup_settings settings_nodup hf
  have flagOf : ∀ n on off, n ≠ cs!"verbosity" → (⟨n, .bool, some (.bool false), on, off⟩ : Setting) ∈ settings →
      boolOf (k.merge.lookup n) = some (lastOf n on off l.events) := by
    intro n on off hn hmem
    obtain ⟨v, h1, h2⟩ := look _ hmem
    rw [h1, flag_is hn h2]
    rfl
  have g1 := flagOf cs!"gpu_rich" [cs!"--gpu-rich"] [] (by decide) (by simp [settings])
  have g2 := flagOf cs!"cuda" [cs!"--cuda"] [cs!"--no-cuda"] (by decide) (by simp [settings])
  have g3 := flagOf cs!"low_cpu_memory" [cs!"--low-cpu-memory"] [cs!"--no-low-cpu-memory"] (by decide) (by simp [settings])
  have g4 := flagOf cs!"read_to_gpu" [cs!"--read-to-gpu"] [cs!"--no-read-to-gpu"] (by decide) (by simp [settings])
  have g5 := flagOf cs!"multi_gpu" [cs!"--multi-gpu"] [cs!"--no-multi-gpu"] (by decide) (by simp [settings])
  have g6 := flagOf cs!"async_write" [cs!"--async-write"] [cs!"--no-async-write"] (by decide) (by simp [settings])
  have g7 : strOf (k.merge.lookup cs!"device") = (valuesOf deviceOpt l.events).getLast? := by
    obtain ⟨v, h1, h2⟩ := look ⟨cs!"device", .str, none, [cs!"--device"], []⟩ (by simp [settings])
    simp only at h1
    rw [h1]
    have hmean : meaning (Setting.opt ⟨cs!"device", .str, none, [cs!"--device"], []⟩) l.events =
        ((valuesOf deviceOpt l.events).getLast?).map .word := rfl
    unfold Setting.Is at h2
    rw [hmean] at h2
    cases hl : (valuesOf deviceOpt l.events).getLast? with
    | none =>
      rw [hl] at h2
      have : v = none := h2
      rw [this]
      rfl
    | some d =>
      rw [hl] at h2
      have : v = some (.str d) := h2
      rw [this]
      rfl
  have g8 : (∀ w, (valuesOf threadsOpt l.events).getLast? = some w → ∃ i, ModelRef.pyInt w = some i ∧ intOf (k.merge.lookup cs!"write_threads") = some i) ∧
      (valuesOf threadsOpt l.events = [] → intOf (k.merge.lookup cs!"write_threads") = some 1) := by
    obtain ⟨v, h1, h2⟩ := look ⟨cs!"write_threads", .int, some (.int 1), [cs!"--write-threads"], []⟩ (by simp [settings])
    simp only at h1
    rw [h1]
    have hmean : meaning (Setting.opt ⟨cs!"write_threads", .int, some (.int 1), [cs!"--write-threads"], []⟩) l.events =
        ((valuesOf threadsOpt l.events).getLast?).map .word := rfl
    unfold Setting.Is at h2
    rw [hmean] at h2
    constructor
    · intro w hw
      rw [hw] at h2
      obtain ⟨i, h3, h4⟩ : ∃ i, ModelRef.pyInt w = some i ∧ v = some (.int i) := h2
      exact ⟨i, h3, by rw [h4]; rfl⟩
    · intro hw
      rw [hw] at h2
      have : v = some (.int 1) := h2
      rw [this]
      rfl
  have hg : toGiven k.merge = Options.Given.mk k.merge (some (lastOf cs!"gpu_rich" [cs!"--gpu-rich"] [] l.events))
      (some (lastOf cs!"cuda" [cs!"--cuda"] [cs!"--no-cuda"] l.events))
      (some (lastOf cs!"low_cpu_memory" [cs!"--low-cpu-memory"] [cs!"--no-low-cpu-memory"] l.events))
      (some (lastOf cs!"read_to_gpu" [cs!"--read-to-gpu"] [cs!"--no-read-to-gpu"] l.events))
      (some (lastOf cs!"multi_gpu" [cs!"--multi-gpu"] [cs!"--no-multi-gpu"] l.events)) ((valuesOf deviceOpt l.events).getLast?)
      (some (lastOf cs!"async_write" [cs!"--async-write"] [cs!"--no-async-write"] l.events)) (intOf (k.merge.lookup cs!"write_threads")) := by
    unfold toGiven
    rw [g1, g2, g3, g4, g5, g6, g7]
  rw [hg]
  generalize intOf (k.merge.lookup cs!"write_threads") = wt at g8
  generalize lastOf cs!"gpu_rich" [cs!"--gpu-rich"] [] l.events = b1
  generalize lastOf cs!"cuda" [cs!"--cuda"] [cs!"--no-cuda"] l.events = b2
  generalize lastOf cs!"low_cpu_memory" [cs!"--low-cpu-memory"] [cs!"--no-low-cpu-memory"] l.events = b3
  generalize lastOf cs!"read_to_gpu" [cs!"--read-to-gpu"] [cs!"--no-read-to-gpu"] l.events = b4
  generalize lastOf cs!"multi_gpu" [cs!"--multi-gpu"] [cs!"--no-multi-gpu"] l.events = b5
  generalize lastOf cs!"async_write" [cs!"--async-write"] [cs!"--no-async-write"] l.events = b6
  generalize valuesOf deviceOpt l.events = ds
  generalize hd : ds.getLast? = d
  have hnil : ds = [] → d = none := by
    rintro rfl
    rw [← hd]
    rfl
  intro o rich
  cases b1 with
  | true =>
    have ho : o = _ := Options.C102_gpu_rich_all M _ rfl
    rw [ho]
    refine ⟨rfl, rfl, rfl, rfl, rfl, ?_, ?_, ?_, ?_⟩
    · rintro x h0 ha hx
      unfold Options.wanted
      rw [hx]
      cases x with
      | nil => exact absurd rfl h0
      | cons y ys => simp only [if_neg ha]
    · intro h0
      rw [hnil h0]
      unfold Options.wanted
      simp [rich]
    · intro w hw
      obtain ⟨i, h1, h2⟩ := g8.1 w hw
      rw [h1, h2]
      rfl
    · intro hw
      rw [g8.2 hw]
      rfl
  | false =>
    have ho : o = _ := Options.C102_plain M _ (by simp)
    rw [ho]
    refine ⟨rfl, rfl, rfl, rfl, rfl, ?_, ?_, ?_, ?_⟩
    · rintro x h0 ha hx
      unfold Options.wanted
      rw [hx]
      cases x with
      | nil => exact absurd rfl h0
      | cons y ys => simp only [if_neg ha]
    · intro h0
      rw [hnil h0]
      unfold Options.wanted
      simp [rich]
    · intro w hw
      obtain ⟨i, h1, h2⟩ := g8.1 w hw
      rw [h1, h2]
      rfl
    · intro hw
      rw [g8.2 hw]
      rfl

/-! ## Examples -/

instance (o : Opt) : Decidable (HasValue o) := inferInstanceAs (Decidable (_ ∨ _))

/-- A word of which no form of an option written in full is a beginning. -/
theorem notLong_of {w : Str} (h : os.all (fun o => (forms o).all (fun f => decide (f.length = 2) || !(f.isPrefixOf w))) = true) : NotLong os w := by
  intro o ho f hf hl
  have h1 := List.all_eq_true.1 (List.all_eq_true.1 h o ho) f hf
  simp [hl] at h1
  constructor
  · rintro rfl
    rw [List.isPrefixOf_iff_prefix.2 (List.prefix_refl _)] at h1
    cases h1
  · rintro v rfl
    rw [List.isPrefixOf_iff_prefix.2 (List.prefix_append _ _)] at h1
    cases h1

/-- `mergekit-yaml -vj4 c --no-cuda o --device cuda:1 --cuda`. -/
def exampleLine : Line yaml.opts [cs!"-vj4", cs!"c", cs!"--no-cuda", cs!"o", cs!"--device", cs!"cuda:1", cs!"--cuda"] where
  uses := [.marksGlued [(fieldOpt (cs!"verbosity", .int), 'v', true)] (fieldOpt (cs!"num_threads", .int)) 'j' cs!"4", .plain cs!"c",
    .flag (fieldOpt (cs!"cuda", .bool)) cs!"--no-cuda" false, .plain cs!"o", .next (fieldOpt (cs!"device", .str)) cs!"--device" cs!"cuda:1",
    .flag (fieldOpt (cs!"cuda", .bool)) cs!"--cuda" true]
  after := none
  fits := by
    intro u hu
    simp only [List.mem_cons, List.not_mem_nil, or_false] at hu
    rcases hu with rfl | rfl | rfl | rfl | rfl | rfl
    · refine ⟨by decide, ?_, by decide +kernel, by decide +kernel, by decide +kernel, notLong_of (by decide +kernel)⟩
      intro e he
      rw [List.mem_singleton.1 he]
      exact ⟨by decide +kernel, by decide +kernel, by decide +kernel⟩
    · exact show ¬ _ by decide
    · exact ⟨by decide +kernel, by decide +kernel, by decide +kernel, by decide +kernel⟩
    · exact show ¬ _ by decide
    · exact ⟨by decide +kernel, by decide +kernel, by decide +kernel, by decide +kernel⟩
    · exact ⟨by decide +kernel, by decide +kernel, by decide +kernel, by decide +kernel⟩
  written := by decide +kernel

/-- It is enough: two arguments, no help, nothing required. -/
example : Enough yaml exampleLine.events exampleLine.args :=
  ⟨by decide +kernel, by decide +kernel, by intro o ho; cases ho⟩

/-- And it calls the command: the two arguments are there, `--cuda` was given last, one `-v`, four threads. -/
example : ∃ k, call yaml [cs!"-vj4", cs!"c", cs!"--no-cuda", cs!"o", cs!"--device", cs!"cuda:1", cs!"--cuda"] = .ok k ∧
    k.args = [(cs!"config_file", cs!"c"), (cs!"out_path", cs!"o")] ∧ k.merge.lookup cs!"cuda" = some (some (.bool true)) ∧
    k.merge.lookup cs!"num_threads" = some (some (.int 4)) ∧ k.merge.lookup cs!"verbosity" = some (some (.int 1)) ∧
    (Options.validate ⟨true, false⟩ (toGiven k.merge)).device = some cs!"cuda:1" :=
  ⟨_, rfl, by decide +kernel, by decide +kernel, by decide +kernel, by decide +kernel, by decide +kernel⟩

/-- `--no-gpu-rich` cannot be written: the command is not called. -/
example : ∃ e, call yaml [cs!"c", cs!"o", cs!"--no-gpu-rich"] = .error e := ⟨.unknown, by rfl⟩

end Verif.CommandLine
