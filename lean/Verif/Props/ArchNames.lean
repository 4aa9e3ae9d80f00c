import Verif.Props.Arch
import Verif.Model.ArchData
import Mathlib.Data.List.Nodup

/-! # C63: the names of a whole architecture, and the shipped definitions -/

set_option linter.unusedSectionVars false

namespace Verif.Arch

open Verif.ModelRef (Str)

/-! ## A check of templates that decides distinctness for any number of layers -/

/-- A name as a sequence of characters and numbers. -/
inductive Tok where
  | chr (c : Char)
  | num (d : Str)
  | layer
  | total
deriving DecidableEq

def Tok.isNum : Tok → Bool
  | .chr _ => false
  | _ => true

/-- Whether a number comes first. -/
def startsNum : List Tok → Bool
  | [] => false
  | t :: _ => t.isNum

/-- Pieces as tokens, unless numbers meet or other placeholders occur. -/
def toks : List Piece → Option (List Tok)
  | [] => some []
  | .lit c :: ps =>
    match toks ps with
    | none => none
    | some ts =>
      if c.isDigit then
        match ts with
        | .num d :: r => some (.num (c :: d) :: r)
        | .layer :: _ => none
        | .total :: _ => none
        | ts => some (.num [c] :: ts)
      else some (.chr c :: ts)
  | .var v :: ps =>
    match toks ps with
    | none => none
    | some ts =>
      if startsNum ts then none
      else if v = cs!"layer_index" then some (.layer :: ts)
      else if v = cs!"num_layers" then some (.total :: ts)
      else none
  | .invalid :: _ => none

/-- The text of a token. -/
def Tok.val (n i : Nat) : Tok → Str
  | .chr c => [c]
  | .num d => d
  | .layer => Nat.toDigits 10 i
  | .total => Nat.toDigits 10 n

/-- Numbers are separated, digits occur in numbers only. -/
def Good : List Tok → Prop
  | [] => True
  | .chr c :: ts => c.isDigit = false ∧ Good ts
  | .num d :: ts => d ≠ [] ∧ (∀ c ∈ d, c.isDigit = true) ∧ startsNum ts = false ∧ Good ts
  | .layer :: ts => startsNum ts = false ∧ Good ts
  | .total :: ts => startsNum ts = false ∧ Good ts

theorem toks_good {ps : List Piece} {ts : List Tok} (h : toks ps = some ts) : Good ts := by
  induction ps generalizing ts with
  | nil => simp only [toks, Option.some.injEq] at h; subst h; trivial
  | cons p ps ih =>
    cases p with
    | invalid => simp [toks] at h
    | lit c =>
      simp only [toks] at h
      cases ht : toks ps with
      | none => rw [ht] at h; cases h
      | some us =>
        rw [ht] at h
        have hg := ih ht
        simp only at h
        split at h
        · rename_i hc
          cases us with
          | nil => simp only [Option.some.injEq] at h; subst h; exact ⟨by simp, by simpa using hc, rfl, trivial⟩
          | cons u us =>
            cases u with
            | chr e => simp only [Option.some.injEq] at h; subst h; exact ⟨by simp, by simpa using hc, rfl, hg⟩
            | num d =>
              simp only [Option.some.injEq] at h
              subst h
              refine ⟨by simp, ?_, hg.2.2.1, hg.2.2.2⟩
              intro x hx
              rcases List.mem_cons.1 hx with rfl | hx
              · exact hc
              · exact hg.2.1 x hx
            | layer => simp at h
            | total => simp at h
        · rename_i hc
          simp only [Option.some.injEq] at h
          subst h
          exact ⟨by simpa using hc, hg⟩
    | var v =>
      simp only [toks] at h
      cases ht : toks ps with
      | none => rw [ht] at h; cases h
      | some us =>
        rw [ht] at h
        have hg := ih ht
        simp only at h
        split at h
        · cases h
        · rename_i hs
          split at h
          · simp only [Option.some.injEq] at h; subst h; exact ⟨by simpa using hs, hg⟩
          · split at h
            · simp only [Option.some.injEq] at h; subst h; exact ⟨by simpa using hs, hg⟩
            · cases h

/-- The text of a token list. -/
def text (n i : Nat) (ts : List Tok) : Str := (ts.map (Tok.val n i)).flatten

theorem toks_render {ps : List Piece} {ts : List Tok} (h : toks ps = some ts) (n i : Nat) (layer : Option Int)
    (hl : layer = some (i : Int) ∨ Tok.layer ∉ ts) : render n layer ps = .ok (text n i ts) := by
  induction ps generalizing ts with
  | nil => simp only [toks, Option.some.injEq] at h; subst h; rfl
  | cons p ps ih =>
    cases p with
    | invalid => simp [toks] at h
    | lit c =>
      simp only [toks] at h
      cases ht : toks ps with
      | none => rw [ht] at h; cases h
      | some us =>
        rw [ht] at h
        simp only at h
        have hus : layer = some (i : Int) ∨ Tok.layer ∉ us := by
          rcases hl with hl | hl
          · exact Or.inl hl
          · right
            intro hm
            apply hl
            split at h
            · cases us with
              | nil => simp at hm
              | cons u us =>
                cases u <;> simp only [Option.some.injEq, reduceCtorEq] at h <;> subst h <;> simp_all
            · simp only [Option.some.injEq] at h; subst h; simp [hm]
        have hr := ih ht hus
        have htext : text n i ts = c :: text n i us := by
          split at h
          · cases us with
            | nil => simp only [Option.some.injEq] at h; subst h; rfl
            | cons u us =>
              cases u <;> simp only [Option.some.injEq, reduceCtorEq] at h <;> subst h <;> rfl
          · simp only [Option.some.injEq] at h; subst h; rfl
        unfold render
        rw [hr, htext]
        rfl
    | var v =>
      simp only [toks] at h
      cases ht : toks ps with
      | none => rw [ht] at h; cases h
      | some us =>
        rw [ht] at h
        simp only at h
        split at h
        · cases h
        · split at h
          · rename_i hv
            simp only [Option.some.injEq] at h
            subst h
            have hl' : layer = some (i : Int) := by
              rcases hl with hl | hl
              · exact hl
              · simp at hl
            have hr := ih ht (Or.inl hl')
            unfold render
            rw [hr, hv, hl']
            rfl
          · split at h
            · rename_i hv
              simp only [Option.some.injEq] at h
              subst h
              have hr := ih ht (by
                rcases hl with hl | hl
                · exact Or.inl hl
                · right; intro hm; exact hl (by simp [hm]))
              unfold render
              rw [hr, hv]
              rfl
            · cases h

/-- Two names are certainly different; `sure` tells which pairs of numbers are. -/
def apart (sure : Tok → Tok → Bool) : List Tok → List Tok → Bool
  | [], [] => false
  | [], _ :: _ => true
  | _ :: _, [] => true
  | .chr c :: ts, .chr d :: us => if c = d then apart sure ts us else true
  | t :: ts, u :: us => if t.isNum && u.isNum then sure t u || apart sure ts us else true

theorem apart_chr (sure : Tok → Tok → Bool) (c d : Char) (ts us : List Tok) :
    apart sure (.chr c :: ts) (.chr d :: us) = if c = d then apart sure ts us else true := rfl

theorem apart_num {sure : Tok → Tok → Bool} {t u : Tok} (h : (t.isNum && u.isNum) = true) (ts us : List Tok) :
    apart sure (t :: ts) (u :: us) = (sure t u || apart sure ts us) := by
  cases t <;> cases u <;> simp_all [apart, Tok.isNum]

theorem val_num {t : Tok} (n i : Nat) (h : t.isNum = true) {ts : List Tok} (hg : Good (t :: ts)) :
    t.val n i ≠ [] ∧ (∀ c ∈ t.val n i, c.isDigit = true) ∧ startsNum ts = false ∧ Good ts := by
  cases t with
  | chr c => simp [Tok.isNum] at h
  | num d => exact hg
  | layer => exact ⟨Nat.toDigits_ne_nil, Verif.Writer.digits_all i, hg⟩
  | total => exact ⟨Nat.toDigits_ne_nil, Verif.Writer.digits_all n, hg⟩

/-- What follows a number is empty or starts with another character. -/
theorem text_start {ts : List Tok} (hg : Good ts) (hs : startsNum ts = false) (n i : Nat) :
    text n i ts = [] ∨ ∃ c r, text n i ts = c :: r ∧ c.isDigit = false := by
  cases ts with
  | nil => exact Or.inl rfl
  | cons t ts =>
    cases t with
    | chr c => exact Or.inr ⟨c, text n i ts, rfl, hg.1⟩
    | num d => simp [startsNum, Tok.isNum] at hs
    | layer => simp [startsNum, Tok.isNum] at hs
    | total => simp [startsNum, Tok.isNum] at hs

theorem digits_split {A B r s : Str} (hA : ∀ c ∈ A, c.isDigit = true) (hB : ∀ c ∈ B, c.isDigit = true)
    (hr : r = [] ∨ ∃ c r', r = c :: r' ∧ c.isDigit = false) (hs : s = [] ∨ ∃ c s', s = c :: s' ∧ c.isDigit = false)
    (h : A ++ r = B ++ s) : A = B ∧ r = s := by
  have h' := congrArg (fun l => l ++ ['.']) h
  simp only [List.append_assoc] at h'
  rcases hr with rfl | ⟨c, r', rfl, hc⟩ <;> rcases hs with rfl | ⟨d, s', rfl, hd⟩
  · simpa using h
  · obtain ⟨h1, _, h3⟩ := Verif.Writer.digits_cancel hA hB (by decide) hd h'
    simp at h3
  · obtain ⟨h1, _, h3⟩ := Verif.Writer.digits_cancel hA hB hc (by decide) h'
    simp at h3
  · obtain ⟨h1, h2, h3⟩ := Verif.Writer.digits_cancel hA hB hc hd h
    exact ⟨h1, by rw [h2, h3]⟩

theorem apart_sound {sure : Tok → Tok → Bool} {n i n' j : Nat} (hsure : ∀ t u, sure t u = true → t.val n i ≠ u.val n' j)
    {ts us : List Tok} (ht : Good ts) (hu : Good us) (h : apart sure ts us = true) : text n i ts ≠ text n' j us := by
  induction ts generalizing us with
  | nil =>
    cases us with
    | nil => simp [apart] at h
    | cons u us =>
      intro he
      have : (text n' j (u :: us)) ≠ [] := by
        cases hn : u.isNum with
        | false =>
          cases u with
          | chr c => simp [text, Tok.val]
          | num d => simp [Tok.isNum] at hn
          | layer => simp [Tok.isNum] at hn
          | total => simp [Tok.isNum] at hn
        | true =>
          have := (val_num n' j hn hu).1
          simp [text, this]
      exact this he.symm
  | cons t ts ih =>
    cases us with
    | nil =>
      intro he
      have : (text n i (t :: ts)) ≠ [] := by
        cases hn : t.isNum with
        | false =>
          cases t with
          | chr c => simp [text, Tok.val]
          | num d => simp [Tok.isNum] at hn
          | layer => simp [Tok.isNum] at hn
          | total => simp [Tok.isNum] at hn
        | true =>
          have := (val_num n i hn ht).1
          simp [text, this]
      exact this he
    | cons u us =>
      by_cases hb : (t.isNum && u.isNum) = true
      · rw [apart_num hb] at h
        simp only [Bool.and_eq_true] at hb
        obtain ⟨_, t2, t3, t4⟩ := val_num n i hb.1 ht
        obtain ⟨_, u2, u3, u4⟩ := val_num n' j hb.2 hu
        intro he
        have he' : t.val n i ++ text n i ts = u.val n' j ++ text n' j us := by simpa [text] using he
        obtain ⟨h1, h2⟩ := digits_split t2 u2 (text_start t4 t3 n i) (text_start u4 u3 n' j) he'
        rcases Bool.or_eq_true _ _ ▸ h with h | h
        · exact hsure t u h h1
        · exact ih t4 u4 h h2
      · cases t with
        | chr c =>
          cases u with
          | chr d =>
            rw [apart_chr] at h
            intro he
            have he' : c :: text n i ts = d :: text n' j us := he
            simp only [List.cons.injEq] at he'
            rw [if_pos he'.1] at h
            exact ih ht.2 hu.2 h he'.2
          | num d =>
            intro he
            obtain ⟨h1, h2, _, _⟩ := val_num n' j (by rfl) hu
            cases hv : (Tok.num d).val n' j with
            | nil => exact h1 hv
            | cons a b =>
              have he' : c :: text n i ts = (Tok.num d).val n' j ++ text n' j us := he
              rw [hv] at he'
              simp only [List.cons_append, List.cons.injEq] at he'
              have hd := h2 a (by rw [hv]; simp)
              rw [← he'.1, ht.1] at hd
              cases hd
          | layer =>
            intro he
            obtain ⟨h1, h2, _, _⟩ := val_num n' j (by rfl) hu
            cases hv : Tok.layer.val n' j with
            | nil => exact h1 hv
            | cons a b =>
              have he' : c :: text n i ts = Tok.layer.val n' j ++ text n' j us := he
              rw [hv] at he'
              simp only [List.cons_append, List.cons.injEq] at he'
              have hd := h2 a (by rw [hv]; simp)
              rw [← he'.1, ht.1] at hd
              cases hd
          | total =>
            intro he
            obtain ⟨h1, h2, _, _⟩ := val_num n' j (by rfl) hu
            cases hv : Tok.total.val n' j with
            | nil => exact h1 hv
            | cons a b =>
              have he' : c :: text n i ts = Tok.total.val n' j ++ text n' j us := he
              rw [hv] at he'
              simp only [List.cons_append, List.cons.injEq] at he'
              have hd := h2 a (by rw [hv]; simp)
              rw [← he'.1, ht.1] at hd
              cases hd
        | num d | layer | total =>
          cases u with
          | chr e =>
            intro he
            obtain ⟨h1, h2, _, _⟩ := val_num n i (by rfl) ht
            revert h1 h2 he
            generalize hw : Tok.val n i _ = w
            intro he h1 h2
            cases w with
            | nil => exact h1 rfl
            | cons a b =>
              have he' : (a :: b) ++ text n i ts = e :: text n' j us := by rw [← hw]; exact he
              simp only [List.cons_append, List.cons.injEq] at he'
              have hd := h2 a (by simp)
              rw [he'.1, hu.1] at hd
              cases hd
          | num d | layer | total => simp [Tok.isNum] at hb

/-! ## Modules -/

/-- The pieces of a name: templates are cut up, other names are taken literally. -/
def namePieces (t : Str) : List Piece := if '{' ∈ t then pieces t.length t else t.map Piece.lit

theorem expand_namePieces (t : Str) (n : Int) (layer : Option Int) : expand t n layer = render n layer (namePieces t) := by
  unfold expand namePieces
  split
  · rfl
  · have := render_lits n layer t []
    rw [List.append_nil] at this
    rw [this]
    simp [render, Except.map]

/-- The name with the prefix of the module. -/
def fullPieces (p : Option Str) (t : Str) : List Piece := (p.getD []).map Piece.lit ++ namePieces t

/-- Numbers that are different in one layer of one module. -/
def sameSure : Tok → Tok → Bool
  | .num a, .num b => a != b
  | .layer, .total => true
  | .total, .layer => true
  | _, _ => false

/-- Numbers that are different in two layers of one module. -/
def diffSure : Tok → Tok → Bool
  | .num a, .num b => a != b
  | .layer, .layer => true
  | _, _ => false

/-- Numbers that are different in any case. -/
def litSure : Tok → Tok → Bool
  | .num a, .num b => a != b
  | _, _ => false

theorem sameSure_ok {n i : Nat} (hi : i < n) (t u : Tok) (h : sameSure t u = true) : t.val n i ≠ u.val n i := by
  cases t <;> cases u <;> simp only [sameSure, Bool.false_eq_true, bne_iff_ne] at h
  · exact h
  · intro e; have := toDigits_inj e; omega
  · intro e; have := toDigits_inj e; omega

theorem diffSure_ok {n i j : Nat} (hij : i ≠ j) (t u : Tok) (h : diffSure t u = true) : t.val n i ≠ u.val n j := by
  cases t <;> cases u <;> simp only [diffSure, Bool.false_eq_true, bne_iff_ne] at h
  · exact h
  · intro e; exact hij (toDigits_inj e)

theorem litSure_ok {n i n' j : Nat} (t u : Tok) (h : litSure t u = true) : t.val n i ≠ u.val n' j := by
  cases t <;> cases u <;> simp only [litSure, Bool.false_eq_true, bne_iff_ne] at h
  · exact h

/-- All pairs of a list. -/
def pairs {A : Type} (f : A → A → Bool) : List A → Bool
  | [] => true
  | a :: l => l.all (f a) && pairs f l

theorem pairs_iff {A : Type} {f : A → A → Bool} {l : List A} : pairs f l = true ↔ l.Pairwise (fun a b => f a b = true) := by
  induction l with
  | nil => simp [pairs]
  | cons a l ih => simp [pairs, ih]

/-- Tokens of the names of some weights, if all are understood; `layered` tells whether the number of a layer may occur. -/
def tokNames (layered : Bool) (p : Option Str) : List WeightInfo → Option (List (List Tok))
  | [] => some []
  | w :: ws =>
    match toks (fullPieces p w.name), tokNames layered p ws with
    | some t, some ts => if layered || !t.contains .layer then some (t :: ts) else none
    | _, _ => none

/-- A template is understood. -/
def understood (layered : Bool) (t : Str) : Bool :=
  match toks (namePieces t) with
  | some ts => layered || !ts.contains .layer
  | none => false

/-- Name, aliases and tied names are. -/
def fine (layered : Bool) (w : WeightInfo) : Bool :=
  understood layered w.name && (w.aliases.getD []).all (understood layered) && (w.tiedNames.getD []).all (understood layered)

/-- The check of a module by itself. -/
def checkModule (m : Module) : Bool :=
  (m.pre ++ m.post).all (fine false) && m.layers.all (fine true) &&
  match tokNames false m.weightPrefix (m.pre ++ m.post), tokNames true m.weightPrefix m.layers with
  | some o, some l =>
    pairs (apart litSure) o && pairs (apart litSure) l && l.all (fun t => l.all (apart diffSure t)) && o.all (fun t => l.all (apart sameSure t))
  | _, _ => false

/-- All names of a module. -/
def moduleToks (m : Module) : Option (List (List Tok)) :=
  match tokNames false m.weightPrefix (m.pre ++ m.post), tokNames true m.weightPrefix m.layers with
  | some o, some l => some (o ++ l)
  | _, _ => none

/-- Two modules never share a name. -/
def checkCross (m m' : Module) : Bool :=
  match moduleToks m, moduleToks m' with
  | some a, some b => a.all (fun t => b.all (apart litSure t))
  | _, _ => false

/-- The check of an architecture. -/
def checkArch (ms : List Module) : Bool := ms.all checkModule && pairs checkCross ms

/-! ### The check is sound -/

theorem understood_ok {layered : Bool} {t : Str} (h : understood layered t = true) (n : Nat) (layer : Option Int)
    (hl : layered = true → ∃ i : Nat, layer = some (i : Int)) : ∃ s, expand t n layer = .ok s := by
  unfold understood at h
  cases ht : toks (namePieces t) with
  | none => rw [ht] at h; cases h
  | some ts =>
    rw [ht] at h
    rw [expand_namePieces]
    cases layered with
    | true =>
      obtain ⟨i, hi⟩ := hl rfl
      exact ⟨_, toks_render ht n i layer (Or.inl hi)⟩
    | false =>
      refine ⟨_, toks_render ht n 0 layer (Or.inr ?_)⟩
      simpa using h

theorem expandList_ok {layered : Bool} {l : List Str} (h : l.all (understood layered) = true) (n : Nat) (layer : Option Int)
    (hl : layered = true → ∃ i : Nat, layer = some (i : Int)) : ∃ s, expandList n layer l = .ok s := by
  induction l with
  | nil => exact ⟨_, rfl⟩
  | cons t ts ih =>
    simp only [List.all_cons, Bool.and_eq_true] at h
    obtain ⟨a, ha⟩ := understood_ok h.1 n layer hl
    obtain ⟨b, hb⟩ := ih h.2
    exact ⟨a :: b, by simp [expandList, ha, hb]⟩

theorem expandOpt_ok {layered : Bool} {l : Option (List Str)} (h : (l.getD []).all (understood layered) = true) (n : Nat) (layer : Option Int)
    (hl : layered = true → ∃ i : Nat, layer = some (i : Int)) : ∃ s, expandOpt n layer l = .ok s := by
  cases l with
  | none => exact ⟨_, rfl⟩
  | some l =>
    obtain ⟨s, hs⟩ := expandList_ok (l := l) h n layer hl
    exact ⟨some s, by simp [expandOpt, hs, Except.map]⟩

/-- A weight that is understood is expanded, and with the prefix its name is the text of its tokens. -/
theorem substitute_fine {layered : Bool} {w : WeightInfo} (h : fine layered w = true) (p : Option Str) {ts : List Tok}
    (ht : toks (fullPieces p w.name) = some ts) (n i : Nat) (layer : Option Int) (hl : layer = some (i : Int) ∨ (Tok.layer ∉ ts ∧ layered = false)) :
    ∃ v, substitute w n layer = .ok v ∧ (prefixWeight v p).name = text n i ts := by
  unfold fine at h
  simp only [Bool.and_eq_true] at h
  have hl' : layered = true → ∃ i : Nat, layer = some (i : Int) := by
    intro hlay
    rcases hl with hl | ⟨_, hl⟩
    · exact ⟨i, hl⟩
    · rw [hl] at hlay; cases hlay
  obtain ⟨s, hs⟩ := understood_ok h.1.1 n layer hl'
  obtain ⟨a, ha⟩ := expandOpt_ok h.1.2 n layer hl'
  obtain ⟨b, hb⟩ := expandOpt_ok h.2 n layer hl'
  refine ⟨{ w with name := s, aliases := a, tiedNames := b }, by simp [substitute, hs, ha, hb], ?_⟩
  have hr := toks_render ht n i layer (by tauto)
  unfold fullPieces at hr
  rw [render_lits, ← expand_namePieces, hs] at hr
  simp only [Except.map, Except.ok.injEq] at hr
  rw [← hr]
  cases p with
  | none => simp [prefixWeight]
  | some p => simp [prefixWeight]

theorem tokNames_good {layered : Bool} {p : Option Str} {ws : List WeightInfo} {l : List (List Tok)} (h : tokNames layered p ws = some l) :
    ∀ t ∈ l, Good t ∧ (layered = false → Tok.layer ∉ t) := by
  induction ws generalizing l with
  | nil => simp only [tokNames, Option.some.injEq] at h; subst h; simp
  | cons w ws ih =>
    simp only [tokNames] at h
    split at h
    · rename_i a b ha hb
      split at h
      · rename_i hc
        simp only [Option.some.injEq] at h
        subst h
        intro t ht
        rcases List.mem_cons.1 ht with rfl | ht
        · refine ⟨toks_good ha, fun hl => ?_⟩
          rw [hl] at hc
          simpa using hc
        · exact ih hb t ht
      · cases h
    · cases h

theorem substituteAll_fine {layered : Bool} {ws : List WeightInfo} (h : ws.all (fine layered) = true) (p : Option Str) {l : List (List Tok)}
    (ht : tokNames layered p ws = some l) (n i : Nat) (layer : Option Int) (hl : layer = some (i : Int) ∨ layered = false) :
    ∃ vs, substituteAll n layer ws = .ok vs ∧ vs.map (fun v => (prefixWeight v p).name) = l.map (text n i) := by
  induction ws generalizing l with
  | nil => simp only [tokNames, Option.some.injEq] at ht; subst ht; exact ⟨[], rfl, rfl⟩
  | cons w ws ih =>
    simp only [List.all_cons, Bool.and_eq_true] at h
    have hgood := tokNames_good ht
    simp only [tokNames] at ht
    split at ht
    · rename_i a b ha hb
      split at ht
      · simp only [Option.some.injEq] at ht
        subst ht
        obtain ⟨v, hv, hn⟩ := substitute_fine h.1 p ha n i layer (by
          rcases hl with hl | hl
          · exact Or.inl hl
          · exact Or.inr ⟨(hgood a (by simp)).2 hl, hl⟩)
        obtain ⟨vs, hvs, hns⟩ := ih h.2 hb
        exact ⟨v :: vs, by simp [substituteAll, hv, hvs], by simp [hn, hns]⟩
      · cases ht
    · cases ht

theorem text_no_layer {ts : List Tok} (h : Tok.layer ∉ ts) (n i j : Nat) : text n i ts = text n j ts := by
  unfold text
  congr 1
  apply List.map_congr_left
  intro t ht
  cases t with
  | layer => exact absurd ht h
  | _ => rfl

theorem tokNames_append {layered : Bool} {p : Option Str} {a b : List WeightInfo} {l : List (List Tok)}
    (h : tokNames layered p (a ++ b) = some l) : ∃ x y, tokNames layered p a = some x ∧ tokNames layered p b = some y ∧ l = x ++ y := by
  induction a generalizing l with
  | nil => exact ⟨[], l, rfl, h, rfl⟩
  | cons w ws ih =>
    simp only [List.cons_append, tokNames] at h
    split at h
    · rename_i t u ht hu
      split at h
      · rename_i hc
        simp only [Option.some.injEq] at h
        subst h
        obtain ⟨x, y, hx, hy, rfl⟩ := ih hu
        refine ⟨t :: x, y, ?_, hy, rfl⟩
        simp only [tokNames, ht, hx, if_pos hc]
      · cases h
    · cases h

/-- The names of a checked module. -/
theorem module_names {m : Module} (h : checkModule m = true) (configured : Nat) :
    ∃ ws o o' l, m.allWeights configured = .ok ws ∧ tokNames false m.weightPrefix m.pre = some o ∧ tokNames false m.weightPrefix m.post = some o' ∧
      tokNames true m.weightPrefix m.layers = some l ∧
      ws.map (fun v => (prefixWeight v m.weightPrefix).name) = o.map (text (m.numLayers configured) 0) ++
        (List.range (m.numLayers configured)).flatMap (fun i => l.map (text (m.numLayers configured) i)) ++
        o'.map (text (m.numLayers configured) 0) ∧
      pairs (apart litSure) (o ++ o') = true ∧ pairs (apart litSure) l = true ∧ (∀ t ∈ l, ∀ u ∈ l, apart diffSure t u = true) ∧
      (∀ t ∈ o ++ o', ∀ u ∈ l, apart sameSure t u = true) := by
  unfold checkModule at h
  simp only [Bool.and_eq_true] at h
  obtain ⟨⟨h1, h2⟩, h3⟩ := h
  split at h3
  · rename_i oo l ho hlay
    obtain ⟨o, o', hpre, hpost, rfl⟩ := tokNames_append ho
    simp only [Bool.and_eq_true] at h3
    rw [List.all_append, Bool.and_eq_true] at h1
    set n := m.numLayers configured with hn
    obtain ⟨a, ha, hna⟩ := substituteAll_fine h1.1 m.weightPrefix hpre n 0 none (Or.inr rfl)
    obtain ⟨c, hc, hnc⟩ := substituteAll_fine h1.2 m.weightPrefix hpost n 0 none (Or.inr rfl)
    have hlayers : ∀ is : List Nat, ∃ b, layersFrom m n is = .ok b ∧
        b.map (fun v => (prefixWeight v m.weightPrefix).name) = is.flatMap (fun i => l.map (text n i)) := by
      intro is
      induction is with
      | nil => exact ⟨[], rfl, rfl⟩
      | cons i is ih =>
        obtain ⟨b, hb, hnb⟩ := ih
        obtain ⟨x, hx, hnx⟩ := substituteAll_fine h2 m.weightPrefix hlay n i (some (i : Int)) (Or.inl rfl)
        exact ⟨x ++ b, by simp [layersFrom, hx, hb], by simp [hnx, hnb]⟩
    obtain ⟨b, hb, hnb⟩ := hlayers (List.range n)
    refine ⟨a ++ b ++ c, o, o', l, ?_, hpre, hpost, hlay, by simp [hna, hnb, hnc], h3.1.1.1, h3.1.1.2, ?_, ?_⟩
    · unfold Module.allWeights
      simp only [← hn]
      rw [ha, hb, hc]
    · intro t ht u hu
      exact List.all_eq_true.1 (List.all_eq_true.1 h3.1.2 t ht) u hu
    · intro t ht u hu
      exact List.all_eq_true.1 (List.all_eq_true.1 h3.2 t ht) u hu
  · cases h3

/-- Distinctness from the pairwise checks. -/
theorem names_nodup {o : List (List Tok)} {L : Nat → List (List Tok)} (n : Nat) (go : ∀ t ∈ o, Good t ∧ Tok.layer ∉ t)
    (gl : ∀ i, ∀ t ∈ L i, Good t) (c1 : o.Pairwise (fun t u => apart litSure t u = true))
    (c2 : ∀ i, (L i).Pairwise (fun t u => apart litSure t u = true)) (c3 : ∀ i j, ∀ t ∈ L i, ∀ u ∈ L j, apart diffSure t u = true)
    (c4 : ∀ i, ∀ t ∈ o, ∀ u ∈ L i, apart sameSure t u = true) :
    (o.map (text n 0) ++ (List.range n).flatMap (fun i => (L i).map (text n i))).Nodup := by
  rw [List.nodup_append]
  refine ⟨?_, ?_, ?_⟩
  · rw [List.Nodup, List.pairwise_map]
    refine c1.imp_of_mem ?_
    intro a b ha hb hab
    exact apart_sound (fun t u => litSure_ok t u) (go a ha).1 (go b hb).1 hab
  · rw [List.nodup_flatMap]
    refine ⟨?_, ?_⟩
    · intro i _
      rw [List.Nodup, List.pairwise_map]
      refine (c2 i).imp_of_mem ?_
      intro a b ha hb hab
      exact apart_sound (fun t u => litSure_ok t u) (gl i a ha) (gl i b hb) hab
    · refine (List.nodup_range (n := n)).imp ?_
      intro i j hij
      intro x hx hy
      obtain ⟨t, ht, rfl⟩ := List.mem_map.1 hx
      obtain ⟨u, hu, he⟩ := List.mem_map.1 hy
      exact apart_sound (diffSure_ok hij) (gl i t ht) (gl j u hu) (c3 i j t ht u hu) he.symm
  · intro x hx y hy he
    subst he
    obtain ⟨t, ht, rfl⟩ := List.mem_map.1 hx
    obtain ⟨i, hi, hy⟩ := List.mem_flatMap.1 hy
    obtain ⟨u, hu, he⟩ := List.mem_map.1 hy
    rw [text_no_layer (go t ht).2 n 0 i] at he
    exact apart_sound (sameSure_ok (List.mem_range.1 hi)) (go t ht).1 (gl i u hu) (c4 i t ht u hu) he.symm

theorem module_nodup {m : Module} (h : checkModule m = true) (configured : Nat) :
    ∃ ws, m.allWeights configured = .ok ws ∧ (ws.map (fun v => (prefixWeight v m.weightPrefix).name)).Nodup := by
  obtain ⟨ws, o, o', l, hws, ho, ho', hl, hnames, c1, c2, c3, c4⟩ := module_names h configured
  refine ⟨ws, hws, ?_⟩
  rw [hnames]
  have go : ∀ t ∈ o ++ o', Good t ∧ Tok.layer ∉ t := by
    intro t ht
    rcases List.mem_append.1 ht with ht | ht
    · exact ⟨(tokNames_good ho t ht).1, (tokNames_good ho t ht).2 rfl⟩
    · exact ⟨(tokNames_good ho' t ht).1, (tokNames_good ho' t ht).2 rfl⟩
  have gl : ∀ t ∈ l, Good t := fun t ht => (tokNames_good hl t ht).1
  generalize m.numLayers configured = n
  have hperm : (o.map (text n 0) ++ (List.range n).flatMap (fun i => l.map (text n i)) ++ o'.map (text n 0)).Perm
      ((o ++ o').map (text n 0) ++ (List.range n).flatMap (fun i => l.map (text n i))) := by
    rw [List.map_append, List.append_assoc, List.append_assoc]
    exact List.Perm.append_left _ List.perm_append_comm
  rw [hperm.nodup_iff]
  exact names_nodup n go (fun _ => gl) (pairs_iff.1 c1) (fun _ => pairs_iff.1 c2) (fun _ _ => c3) (fun _ => c4)

/-- Every name of a checked module is the text of one of its templates. -/
theorem module_mem {m : Module} (h : checkModule m = true) {configured : Nat} {ws : List WeightInfo} (hws : m.allWeights configured = .ok ws) :
    ∃ ts, moduleToks m = some ts ∧ (∀ t ∈ ts, Good t) ∧
      ∀ x ∈ ws.map (fun v => (prefixWeight v m.weightPrefix).name), ∃ i, ∃ t ∈ ts, x = text (m.numLayers configured) i t := by
  obtain ⟨ws', o, o', l, hws', ho, ho', hl, hnames, hrest⟩ := module_names h configured
  rw [hws] at hws'
  simp only [Except.ok.injEq] at hws'
  subst hws'
  have happ : tokNames false m.weightPrefix (m.pre ++ m.post) = some (o ++ o') := by
    clear hnames hl hws hrest
    generalize m.pre = a at *
    induction a generalizing o with
    | nil => simp only [tokNames, Option.some.injEq] at ho; subst ho; simpa using ho'
    | cons w ws ih =>
      simp only [tokNames] at ho
      split at ho
      · rename_i t u ht hu
        split at ho
        · rename_i hc
          simp only [Option.some.injEq] at ho
          subst ho
          simp only [List.cons_append, tokNames, ht, ih u hu, if_pos hc]
        · cases ho
      · cases ho
  refine ⟨o ++ o' ++ l, by simp [moduleToks, happ, hl], ?_, ?_⟩
  · intro t ht
    rcases List.mem_append.1 ht with ht | ht
    · exact (tokNames_good happ t ht).1
    · exact (tokNames_good hl t ht).1
  · intro x hx
    rw [hnames] at hx
    simp only [List.mem_append, List.mem_map, List.mem_flatMap] at hx
    rcases hx with (⟨t, ht, rfl⟩ | ⟨i, _, t, ht, rfl⟩) | ⟨t, ht, rfl⟩
    · exact ⟨0, t, by simp [ht], rfl⟩
    · exact ⟨i, t, by simp [ht], rfl⟩
    · exact ⟨0, t, by simp [ht], rfl⟩

/-- A checked architecture expands without errors and to distinct names, whatever numbers of layers are configured. -/
theorem arch_nodup {ms : List Module} (h : checkArch ms = true) (ns : List Nat) (hlen : ns.length = ms.length) :
    ∃ ws, allWeights (ms.zip ns) = .ok ws ∧ (ws.map WeightInfo.name).Nodup := by
  unfold checkArch at h
  rw [Bool.and_eq_true] at h
  obtain ⟨h1, h2⟩ := h
  have key : ∀ (ms : List Module) (ns : List Nat), ns.length = ms.length → ms.all checkModule = true → pairs checkCross ms = true →
      ∃ ws, allWeights (ms.zip ns) = .ok ws ∧ (ws.map WeightInfo.name).Nodup ∧
        ∀ x ∈ ws.map WeightInfo.name, ∃ m ∈ ms, ∃ ts, moduleToks m = some ts ∧ (∀ t ∈ ts, Good t) ∧ ∃ n i, ∃ t ∈ ts, x = text n i t := by
    intro ms
    induction ms with
    | nil => intro ns _ _ _; exact ⟨[], by simp [allWeights], by simp, by simp⟩
    | cons m ms ih =>
      intro ns hlen h1 h2
      cases ns with
      | nil => simp at hlen
      | cons n ns =>
        simp only [List.all_cons, Bool.and_eq_true] at h1
        simp only [pairs, Bool.and_eq_true] at h2
        obtain ⟨b, hb, hnb, hmb⟩ := ih ns (by simpa using hlen) h1.2 h2.2
        obtain ⟨a, ha, hna⟩ := module_nodup h1.1 n
        obtain ⟨ts, hts, hg, hmem⟩ := module_mem h1.1 ha
        refine ⟨a.map (fun w => prefixWeight w m.weightPrefix) ++ b, by simp [allWeights, ha, hb], ?_, ?_⟩
        · rw [List.map_append, List.map_map, List.nodup_append]
          refine ⟨hna, hnb, ?_⟩
          intro x hx y hy he
          subst he
          obtain ⟨i, t, ht, rfl⟩ := hmem x hx
          obtain ⟨m', hm', us, hus, hg', n', j, u, hu, he⟩ := hmb _ hy
          have hc := List.all_eq_true.1 h2.1 m' hm'
          unfold checkCross at hc
          rw [hts, hus] at hc
          have := List.all_eq_true.1 (List.all_eq_true.1 hc t ht) u hu
          exact apart_sound (fun t u => litSure_ok t u) (hg t ht) (hg' u hu) this he
        · intro x hx
          rw [List.map_append, List.map_map, List.mem_append] at hx
          rcases hx with hx | hx
          · obtain ⟨i, t, ht, he⟩ := hmem x hx
            exact ⟨m, by simp, ts, hts, hg, _, i, t, ht, he⟩
          · obtain ⟨m', hm', r⟩ := hmb x hx
            exact ⟨m', by simp [hm'], r⟩
  obtain ⟨ws, hws, hn, _⟩ := key ms ns hlen h1 h2
  exact ⟨ws, hws, hn⟩

/-! ## The shipped definitions -/

/-- All shipped definitions but two. -/
def distinctArchs : List (List Module) :=
  [Data.afmoe_partial, Data.apertus, Data.arcee, Data.baichuan, Data.bert_masked_lm, Data.bert_sequence_classification, Data.bert,
   Data.chatglm, Data.cohere, Data.cohere2, Data.distilbert_masked_lm, Data.distilbert_sequence_classification,
   Data.distilbert_token_classification, Data.distilbert, Data.exaone, Data.falcon, Data.gemma, Data.gemma2, Data.gemma3, Data.gemma3vl,
   Data.glm4, Data.glm4moe, Data.gpt_neox, Data.gpt2_sequence_classification, Data.gpt2, Data.gptbigcode, Data.granite,
   Data.granite4moehybrid, Data.internlm2, Data.jais, Data.lfm2, Data.llama_sequence_classification, Data.llama, Data.llama4, Data.mamba,
   Data.mistral, Data.mistral3, Data.mixtral, Data.olmo2, Data.phi_1, Data.phi2_old, Data.phi2, Data.phi3_small, Data.phi3, Data.qwen,
   Data.qwen2, Data.qwen3, Data.qwen3_moe, Data.qwen3_vl, Data.qwen3_vl_dense, Data.roberta_masked_lm, Data.roberta_sequence_classification,
   Data.roberta_token_classification, Data.roberta, Data.solar, Data.stablelm, Data.stablelm2, Data.starcoder2, Data.t5, Data.whisper]

/-- C63: for every shipped definition but those of Qwen2-VL and Qwen2.5-VL, and for all numbers of layers, the expansion succeeds and all
tensor names are distinct. -/
theorem C63_shipped (ms : List Module) (hms : ms ∈ distinctArchs) (ns : List Nat) (hlen : ns.length = ms.length) :
    ∃ ws, allWeights (ms.zip ns) = .ok ws ∧ (ws.map WeightInfo.name).Nodup := by
  have hall : distinctArchs.all checkArch = true := by decide +kernel
  exact arch_nodup (List.all_eq_true.1 hall ms hms) ns hlen

end Verif.Arch
