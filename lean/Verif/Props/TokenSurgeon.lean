import Verif.Model.TokenSurgeon
import Verif.Props.Vocab
import Mathlib.Data.List.Nodup
import Mathlib.Tactic.IntervalCases

/-! # Transplanting a vocabulary (C60) -/

namespace Verif.Surgeon

open Verif.ModelRef (Str)
open Verif.Tok (NToken Marker get normalize tokenPrefixes)

/-! ## Dictionaries -/

theorem get_some {A B : Type} [DecidableEq A] {v : List (A × B)} (hn : (v.map Prod.fst).Nodup) {a : A} {b : B} : get v a = some b ↔ (a, b) ∈ v := by
  unfold Tok.get
  induction v with
  | nil => simp
  | cons e es ih =>
    rw [List.map_cons, List.nodup_cons] at hn
    rw [List.find?_cons]
    by_cases h : e.1 = a
    · simp only [h, decide_true, Option.map_some, Option.some.injEq, List.mem_cons]
      constructor
      · rintro rfl; exact Or.inl (by rw [← h])
      · rintro (h1 | h1)
        · rw [← h1]
        · exact absurd (List.mem_map.mpr ⟨_, h1, h.symm⟩) hn.1
    · simp only [h, decide_false, List.mem_cons]
      rw [ih hn.2]
      constructor
      · exact Or.inr
      · rintro (h1 | h1)
        · exact absurd (by rw [← h1]) h
        · exact h1

theorem get_none {A B : Type} [DecidableEq A] {v : List (A × B)} {a : A} : get v a = none ↔ ∀ b, (a, b) ∉ v := by
  unfold Tok.get
  rw [Option.map_eq_none_iff, List.find?_eq_none]
  constructor
  · intro h b hb; exact h _ hb (by simp)
  · intro h e he; simp only [decide_eq_true_eq]; rintro rfl; exact h e.2 he

theorem safe_keys {v : Vocab} {n : Nat} (hn : (v.map Prod.fst).Nodup) : ((safe v n).map Prod.fst).Nodup :=
  hn.sublist (List.Sublist.map _ List.filter_sublist)

theorem get_safe {v : Vocab} {n : Nat} (hn : (v.map Prod.fst).Nodup) {t : NToken} {i : Nat} : get (safe v n) t = some i ↔ (t, i) ∈ v ∧ i < n := by
  rw [get_some (safe_keys hn)]
  simp [safe]

/-! ## Matching bytes -/

/-- `c` is the hexadecimal digit for `n`, in upper case. -/
def UpperHex (n : Nat) (c : Char) : Prop := cs!"0123456789ABCDEF"[n]? = some c

/-- `c` is the hexadecimal digit for `n`. -/
def AnyHex (n : Nat) (c : Char) : Prop := UpperHex n c ∨ cs!"0123456789abcdef"[n]? = some c

instance (n : Nat) (c : Char) : Decidable (AnyHex n c) := by unfold AnyHex UpperHex; infer_instance

/-- The token `<0xab>`. -/
def byteTok (a b : Char) : NToken := (none, ['<', '0', 'x', a, b, '>'])

/-- A character and the token for its byte, in either direction. -/
def ByteMate (t t' : NToken) : Prop :=
  ∃ (c hi lo : Char), c.toNat < 256 ∧
    ((t = (none, [c]) ∧ UpperHex (c.toNat / 16) hi ∧ UpperHex (c.toNat % 16) lo ∧ t' = byteTok hi lo) ∨
      (t = byteTok hi lo ∧ AnyHex (c.toNat / 16) hi ∧ AnyHex (c.toNat % 16) lo ∧ t' = (none, [c])))

/-- Whether a character is a hexadecimal digit. -/
def IsHex (c : Char) : Prop := ∃ n, AnyHex n c

/-- A token that does not look like a byte with a sign or a blank instead of one digit. -/
def Regular (t : NToken) : Prop := ∀ a b, t = byteTok a b → (IsHex a ↔ IsHex b)

theorem anyHex_lt {n : Nat} {c : Char} (h : AnyHex n c) : n < 16 := by
  rcases h with h | h <;> exact (List.getElem?_eq_some_iff.mp h).1

theorem hexVal_of {n : Nat} {c : Char} (h : AnyHex n c) : hexVal c = some n := by
  have hn := anyHex_lt h
  unfold AnyHex UpperHex at h
  interval_cases n <;> rcases h with h | h <;> cases h <;> decide

theorem hexVal_some {n : Nat} {c : Char} (h : hexVal c = some n) : AnyHex n c := by
  have hm : ∀ k, k < 128 → ∀ n < 16, hexVal (Char.ofNat k) = some n → AnyHex n (Char.ofNat k) := by decide +kernel
  have hb : c.toNat < 128 ∧ n < 16 := by
    unfold hexVal at h
    split at h
    · rename_i h1
      have h3 : c.toNat ≤ 57 := h1.2
      cases h; omega
    · split at h
      · rename_i h1
        have h3 : c.toNat ≤ 70 := h1.2
        cases h; omega
      · split at h
        · rename_i h1
          have h3 : c.toNat ≤ 102 := h1.2
          cases h; omega
        · cases h
  have := hm c.toNat hb.1 n hb.2
  rw [Char.ofNat_toNat] at this
  exact this h

theorem isHex_iff {c : Char} : IsHex c ↔ hexVal c ≠ none := by
  constructor
  · rintro ⟨n, h⟩; rw [hexVal_of h]; simp
  · intro h
    obtain ⟨n, hn⟩ := Option.ne_none_iff_exists'.mp h
    exact ⟨n, hexVal_some hn⟩

/-- The byte token of a number. -/
theorem byteToken_eq {n : Nat} (hn : n < 256) {hi lo : Char} (h1 : UpperHex (n / 16) hi) (h2 : UpperHex (n % 16) lo) :
    byteToken n = ['<', '0', 'x', hi, lo, '>'] := by
  have key : ∀ m < 16, ∀ c, UpperHex m c → (Nat.digitChar m).toUpper = c := by
    intro m hm c hc
    unfold UpperHex at hc
    interval_cases m <;> cases hc <;> decide
  have e1 := key _ (by omega) _ h1
  have e2 := key _ (by omega) _ h2
  simp only [byteToken, List.map_cons, List.map_nil, e1, e2, List.cons_append, List.nil_append]

theorem upperHex_exists (n : Nat) (hn : n < 16) : ∃ c, UpperHex n c := ⟨_, List.getElem?_eq_getElem (by simpa using hn)⟩

theorem toNat_ofNat {n : Nat} (h : n < 256) : (Char.ofNat n).toNat = n := by
  have : ∀ n < 256, (Char.ofNat n).toNat = n := by decide +kernel
  exact this n h

/-- C60: matching by bytes finds the character of a byte token and the byte token of a character, and nothing else. -/
theorem C60_byte_partial {v : Vocab} {t : NToken} (hr : Regular t) (r : Option Nat) :
    matchByte v t = .ok r ↔ (∃ t', ByteMate t t' ∧ get v t' = r) ∨ ((∀ t', ¬ ByteMate t t') ∧ r = none) := by
  unfold matchByte
  split
  · rename_i c
    split
    · rename_i hc
      obtain ⟨hi, h1⟩ := upperHex_exists (c.toNat / 16) (by omega)
      obtain ⟨lo, h2⟩ := upperHex_exists (c.toNat % 16) (by omega)
      have hb := byteToken_eq hc h1 h2
      have hm : ByteMate (none, [c]) (none, byteToken c.toNat) := ⟨c, hi, lo, hc, Or.inl ⟨rfl, h1, h2, by rw [hb]; rfl⟩⟩
      rw [Except.ok.injEq]
      constructor
      · intro h; exact Or.inl ⟨_, hm, h⟩
      · rintro (⟨t', ⟨c', hi', lo', hc', ⟨ht, h1', h2', rfl⟩ | ⟨ht, _⟩⟩, h⟩ | ⟨h, _⟩)
        · cases ht
          rw [byteToken_eq hc h1' h2']; exact h
        · cases ht
        · exact absurd hm (h _)
    · rename_i hc
      rw [Except.ok.injEq]
      have hm : ∀ t', ¬ ByteMate (none, [c]) t' := by
        rintro t' ⟨c', hi', lo', hc', ⟨ht, _⟩ | ⟨ht, _⟩⟩
        · cases ht; exact hc hc'
        · cases ht
      constructor
      · rintro rfl; exact Or.inr ⟨hm, rfl⟩
      · rintro (⟨t', h, _⟩ | ⟨_, rfl⟩)
        · exact absurd h (hm _)
        · rfl
  · rename_i a b
    have hr := hr a b rfl
    rw [isHex_iff, isHex_iff] at hr
    cases ha : hexVal a with
    | none =>
      have hb : hexVal b = none := by by_contra h; exact hr.mpr h ha
      have hp : parse2 a b = none := by simp [parse2, ha, hb]
      rw [hp]
      simp only [Except.ok.injEq]
      have hm : ∀ t', ¬ ByteMate (none, ['<', '0', 'x', a, b, '>']) t' := by
        rintro t' ⟨c', hi', lo', hc', ⟨ht, _⟩ | ⟨ht, h1, _⟩⟩
        · cases ht
        · cases ht; rw [hexVal_of h1] at ha; cases ha
      constructor
      · rintro rfl; exact Or.inr ⟨hm, rfl⟩
      · rintro (⟨t', h, _⟩ | ⟨_, rfl⟩)
        · exact absurd h (hm _)
        · rfl
    | some x =>
      obtain ⟨y, hb⟩ := Option.ne_none_iff_exists'.mp (hr.mp (by simp [ha]))
      have hx := anyHex_lt (hexVal_some ha)
      have hy := anyHex_lt (hexVal_some hb)
      have hp : parse2 a b = some (Int.ofNat (16 * x + y)) := by simp [parse2, ha, hb]
      rw [hp]
      simp only [Except.ok.injEq]
      have hlt : 16 * x + y < 256 := by omega
      have hm : ByteMate (none, ['<', '0', 'x', a, b, '>']) (none, [Char.ofNat (16 * x + y)]) := by
        refine ⟨Char.ofNat (16 * x + y), a, b, by rwa [toNat_ofNat hlt], Or.inr ⟨rfl, ?_, ?_, rfl⟩⟩
        · rw [toNat_ofNat hlt, show (16 * x + y) / 16 = x by omega]; exact hexVal_some ha
        · rw [toNat_ofNat hlt, show (16 * x + y) % 16 = y by omega]; exact hexVal_some hb
      constructor
      · intro h; exact Or.inl ⟨_, hm, h⟩
      · rintro (⟨t', ⟨c', hi', lo', hc', ⟨ht, _⟩ | ⟨ht, h1, h2, rfl⟩⟩, h⟩ | ⟨h, _⟩)
        · cases ht
        · cases ht
          rw [hexVal_of h1] at ha; cases ha
          rw [hexVal_of h2] at hb; cases hb
          rw [show 16 * (c'.toNat / 16) + c'.toNat % 16 = c'.toNat by omega, Char.ofNat_toNat]
          exact h
        · exact absurd hm (h _)
  · rename_i h1 h2
    rw [Except.ok.injEq]
    have hm : ∀ t', ¬ ByteMate t t' := by
      rintro t' ⟨c', hi', lo', hc', ⟨ht, _⟩ | ⟨ht, _⟩⟩
      · exact h1 _ ht
      · exact h2 _ _ ht
    constructor
    · rintro rfl; exact Or.inr ⟨hm, rfl⟩
    · rintro (⟨t', h, _⟩ | ⟨_, rfl⟩)
      · exact absurd h (hm _)
      · rfl

/-- C60, refuted for tokens like `<0x-1>`: matching by bytes ends the run. -/
theorem C60_byte_sign (v : Vocab) {n : Nat} {c : Char} (hc : AnyHex n c) (hn : n ≠ 0) : matchByte v (byteTok '-' c) = .error .value := by
  obtain ⟨m, rfl⟩ := Nat.exists_eq_succ_of_ne_zero hn
  have hp : parse2 '-' c = some (Int.negSucc m) := by
    have h0 : hexVal '-' = none := by decide
    simp only [parse2, h0, hexVal_of hc, if_true]
    rfl
  simp only [matchByte, byteTok, hp]

example : AnyHex 1 '1' ∧ Regular (byteTok '4' 'a') ∧ Regular (none, cs!"<0xzz>") ∧ ¬ Regular (byteTok '-' '1') := by
  refine ⟨by decide, ?_, ?_, ?_⟩
  · intro a b h; cases h; exact ⟨fun _ => ⟨10, by decide⟩, fun _ => ⟨4, by decide⟩⟩
  · intro a b h
    cases h
    exact Iff.rfl
  · intro h
    have := (h '-' '1' rfl).mpr ⟨1, by decide⟩
    rw [isHex_iff] at this
    exact this (by decide)

/-! ## Which row a token takes over -/

/-- The original model has a row for the token. -/
def Has (v : Vocab) (rows : Nat) (t : NToken) (i : Nat) : Prop := (t, i) ∈ v ∧ i < rows

/-- `q` is a proper prefix of the token that matching may use: not empty, not blank, with the same marker. -/
def Shortened (ws : Char → Bool) (t q : NToken) : Prop :=
  t.1 ≠ some .special ∧ q.1 = t.1 ∧ q.2 ≠ [] ∧ q.2 ≠ t.2 ∧ q.2 <+: t.2 ∧ ∃ c ∈ q.2, ws c = false

/-- The row (if any) that a token takes over: that of the token itself, else that of the byte token or character, if allowed, else that of its
longest prefix with a row, if allowed. -/
inductive Takes (ws : Char → Bool) (allowByte allowPrefix : Bool) (v : Vocab) (rows : Nat) (t : NToken) : Option Nat → Prop
  | exact {i} : Has v rows t i → Takes ws allowByte allowPrefix v rows t (some i)
  | byte {t' i} : (∀ i, ¬ Has v rows t i) → allowByte = true → ByteMate t t' → Has v rows t' i → Takes ws allowByte allowPrefix v rows t (some i)
  | prefix {q i} : (∀ i, ¬ Has v rows t i) → (allowByte = true → ∀ t', ByteMate t t' → ∀ i, ¬ Has v rows t' i) → allowPrefix = true →
      Shortened ws t q → Has v rows q i → (∀ q', Shortened ws t q' → q.2.length < q'.2.length → ∀ i, ¬ Has v rows q' i) →
      Takes ws allowByte allowPrefix v rows t (some i)
  | none : (∀ i, ¬ Has v rows t i) → (allowByte = true → ∀ t', ByteMate t t' → ∀ i, ¬ Has v rows t' i) →
      (allowPrefix = true → ∀ q, Shortened ws t q → ∀ i, ¬ Has v rows q i) → Takes ws allowByte allowPrefix v rows t .none

theorem get_safe_none {v : Vocab} {n : Nat} (hn : (v.map Prod.fst).Nodup) {t : NToken} : get (safe v n) t = .none ↔ ∀ i, ¬ Has v n t i := by
  unfold Has
  constructor
  · intro h i hi
    rw [← get_safe hn, h] at hi; cases hi
  · intro h
    cases hg : get (safe v n) t with
    | none => rfl
    | some i => exact absurd ((get_safe hn).mp hg) (h i)

theorem shortened_iff (ws : Char → Bool) (t q : NToken) : q ∈ tokenPrefixes ws false t ↔ Shortened ws t q := by
  obtain ⟨h1, h2, _⟩ := Tok.C54_prefixes ws false t
  unfold Shortened
  by_cases h : t.1 = some .special
  · rw [h1 h]; simp [h]
  · rw [h2 h]; simp [h]

theorem matchPrefix_none {ws : Char → Bool} {v : Vocab} {n : Nat} (hn : (v.map Prod.fst).Nodup) {t : NToken} :
    matchPrefix ws (safe v n) t = .none ↔ ∀ q, Shortened ws t q → ∀ i, ¬ Has v n q i := by
  unfold matchPrefix
  rw [List.findSome?_eq_none_iff]
  simp only [shortened_iff, get_safe_none hn]

theorem matchPrefix_some {ws : Char → Bool} {v : Vocab} {n : Nat} (hn : (v.map Prod.fst).Nodup) {t : NToken} {i : Nat}
    (h : matchPrefix ws (safe v n) t = some i) :
    ∃ q, Shortened ws t q ∧ Has v n q i ∧ ∀ q', Shortened ws t q' → q.2.length < q'.2.length → ∀ i, ¬ Has v n q' i := by
  unfold matchPrefix at h
  obtain ⟨l1, q, l2, hl, hq, hno⟩ := List.findSome?_eq_some_iff.mp h
  have hp := (Tok.C54_prefixes ws false t).2.2
  rw [hl] at hp
  refine ⟨q, (shortened_iff ws t q).mp (by rw [hl]; simp), (get_safe hn).mp hq, fun q' hq' hlt => ?_⟩
  rw [← shortened_iff, hl, List.mem_append, List.mem_cons] at hq'
  rcases hq' with h1 | rfl | h1
  · exact (get_safe_none hn).mp (hno q' h1)
  · exact absurd hlt (lt_irrefl _)
  · have := (List.pairwise_cons.mp (List.pairwise_append.mp hp).2.1).1 q' h1
    omega

theorem longest_unique {ws : Char → Bool} {t q q' : NToken} (h : Shortened ws t q) (h' : Shortened ws t q') (hl : q.2.length = q'.2.length) : q = q' := by
  obtain ⟨_, h1, _, _, h2, _⟩ := h
  obtain ⟨_, h1', _, _, h2', _⟩ := h'
  rw [List.prefix_iff_eq_take] at h2 h2'
  refine Prod.ext (h1.trans h1'.symm) ?_
  rw [h2, h2', hl]

/-- C60: the matched row. -/
theorem matchToken_spec {ws : Char → Bool} {ab ap : Bool} {v : Vocab} {n : Nat} (hn : (v.map Prod.fst).Nodup) {t : NToken}
    (hr : ab = true → Regular t) : ∃ r, matchToken ws ab ap (safe v n) t = .ok r ∧ Takes ws ab ap v n t r := by
  unfold matchToken
  cases hg : get (safe v n) t with
  | some i => exact ⟨some i, rfl, .exact ((get_safe hn).mp hg)⟩
  | none =>
    have h0 := (get_safe_none hn).mp hg
    simp only
    have step : ∀ (hb : ab = true → ∀ t', ByteMate t t' → ∀ i, ¬ Has v n t' i),
        ∃ r, (if ap = true then Except.ok (ε := Err) (matchPrefix ws (safe v n) t) else Except.ok Option.none) = .ok r ∧ Takes ws ab ap v n t r := by
      intro hb
      cases ap with
      | false => exact ⟨.none, rfl, .none h0 hb (by simp)⟩
      | true =>
        simp only [if_true]
        refine ⟨_, rfl, ?_⟩
        cases hm : matchPrefix ws (safe v n) t with
        | none => exact .none h0 hb (fun _ => (matchPrefix_none hn).mp hm)
        | some i =>
          obtain ⟨q, h1, h2, h3⟩ := matchPrefix_some hn hm
          exact .prefix h0 hb rfl h1 h2 h3
    cases ab with
    | false => exact step (by simp)
    | true =>
      simp only [if_true]
      have hby := C60_byte_partial (v := safe v n) (hr rfl)
      by_cases hex : ∃ t', ByteMate t t'
      · obtain ⟨t', ht'⟩ := hex
        have hm := (hby (get (safe v n) t')).mpr (Or.inl ⟨t', ht', rfl⟩)
        rw [hm]
        cases hg' : get (safe v n) t' with
        | some i => exact ⟨some i, rfl, .byte h0 rfl ht' ((get_safe hn).mp hg')⟩
        | none =>
          refine step (fun _ t'' ht'' => ?_)
          have hm' := (hby (get (safe v n) t'')).mpr (Or.inl ⟨t'', ht'', rfl⟩)
          rw [hm, Except.ok.injEq, hg'] at hm'
          exact (get_safe_none hn).mp hm'.symm
      · have hm := (hby .none).mpr (Or.inr ⟨fun t' h => hex ⟨t', h⟩, rfl⟩)
        rw [hm]
        exact step (fun _ t' h => absurd ⟨t', h⟩ hex)

theorem takes_unique {ws : Char → Bool} {ab ap : Bool} {v : Vocab} {n : Nat} (hn : (v.map Prod.fst).Nodup) {t : NToken}
    (hr : ab = true → Regular t) {r r' : Option Nat} (h : Takes ws ab ap v n t r) (h' : Takes ws ab ap v n t r') : r = r' := by
  have key : ∀ {a i j}, Has v n a i → Has v n a j → some i = some j := fun {a i j} hi hj => by
    rw [← (get_safe hn).mpr hi, ← (get_safe hn).mpr hj]
  have bkey : ab = true → ∀ {a b i j}, ByteMate t a → ByteMate t b → Has v n a i → Has v n b j → some i = some j := by
    intro hab a b i j ha hb hi hj
    have h1 := (C60_byte_partial (v := safe v n) (hr hab) _).mpr (Or.inl ⟨a, ha, (get_safe hn).mpr hi⟩)
    have h2 := (C60_byte_partial (v := safe v n) (hr hab) _).mpr (Or.inl ⟨b, hb, (get_safe hn).mpr hj⟩)
    rw [h1, Except.ok.injEq] at h2
    exact h2
  cases h with
  | exact h =>
    cases h' with
    | exact h' => exact key h h'
    | byte h' => exact absurd h (h' _)
    | «prefix» h' => exact absurd h (h' _)
    | none h' => exact absurd h (h' _)
  | byte h0 hab hm hi =>
    cases h' with
    | exact h' => exact absurd h' (h0 _)
    | byte _ _ hm' hj => exact bkey hab hm hm' hi hj
    | «prefix» _ hb => exact absurd hi (hb hab _ hm _)
    | none _ hb => exact absurd hi (hb hab _ hm _)
  | @«prefix» q i h0 hb hap hq hi hl =>
    cases h' with
    | exact h' => exact absurd h' (h0 _)
    | byte _ hab hm' hj => exact absurd hj (hb hab _ hm' _)
    | @«prefix» q' j _ _ _ hq' hj hl' =>
      rcases Nat.lt_trichotomy q.2.length q'.2.length with hlt | heq | hlt
      · exact absurd hj (hl q' hq' hlt j)
      · cases longest_unique hq hq' heq
        exact key hi hj
      · exact absurd hi (hl' q hq hlt i)
    | none _ _ hp => exact absurd hi (hp hap _ hq _)
  | none h0 hb hp =>
    cases h' with
    | exact h' => exact absurd h' (h0 _)
    | byte _ hab hm' hj => exact absurd hj (hb hab _ hm' _)
    | «prefix» _ _ hap hq' hj _ => exact absurd hj (hp hap _ hq' _)
    | none => rfl

theorem matchToken_iff {ws : Char → Bool} {ab ap : Bool} {v : Vocab} {n : Nat} (hn : (v.map Prod.fst).Nodup) {t : NToken}
    (hr : ab = true → Regular t) {r : Option Nat} : matchToken ws ab ap (safe v n) t = .ok r ↔ Takes ws ab ap v n t r := by
  obtain ⟨r', h1, h2⟩ := matchToken_spec (ap := ap) (ws := ws) hn hr
  constructor
  · intro h; rw [h1] at h; cases h; exact h2
  · intro h; rw [takes_unique hn hr h h2]; exact h1

/-! ## The rows -/

section
variable {R : Type}

theorem setRow_same (res : Nat → R) (i : Nat) (r : R) : setRow res i r i = r := by simp [setRow]

theorem setRow_other (res : Nat → R) {i j : Nat} (r : R) (h : j ≠ i) : setRow res i r j = res j := by simp [setRow, h]

/-- The tokens left for approximation, in the donor's order. -/
def leftover (ws : Char → Bool) (ab ap : Bool) (v : Vocab) (donorRows : Nat) (es : Vocab) : List NToken :=
  (es.filter (fun e => decide (e.2 < donorRows) && match matchToken ws ab ap v e.1 with | .ok none => true | _ => false)).map Prod.fst

theorem copyRows_spec {ws : Char → Bool} {ab ap : Bool} {orig : Emb R} {v : Vocab} {donorRows : Nat} {es : Vocab} (hn : (es.map Prod.snd).Nodup) :
    ∀ {res res' : Nat → R} {new new' : List NToken}, copyRows ws ab ap orig v donorRows es res new = .ok (res', new') →
      new' = new ++ leftover ws ab ap v donorRows es ∧
      (∀ t id, (t, id) ∈ es → id < donorRows → ∃ r, matchToken ws ab ap v t = .ok r ∧ res' id = match r with | some i => orig.row i | none => res id) ∧
      (∀ id, (id ∉ es.map Prod.snd ∨ donorRows ≤ id) → res' id = res id) := by
  induction es with
  | nil => intro res res' new new' h; cases h; simp [leftover]
  | cons e es ih =>
    obtain ⟨t, id⟩ := e
    rw [List.map_cons, List.nodup_cons] at hn
    intro res res' new new' h
    rw [copyRows] at h
    split at h
    · rename_i hle
      obtain ⟨h1, h2, h3⟩ := ih hn.2 h
      refine ⟨?_, ?_, ?_⟩
      · rw [h1]; simp [leftover, Nat.not_lt.mpr hle]
      · intro t' id' hm hlt
        rcases List.mem_cons.mp hm with he | hm
        · cases he; omega
        · exact h2 t' id' hm hlt
      · intro id' hid
        refine h3 id' ?_
        rcases hid with hid | hid
        · exact Or.inl (fun h => hid (List.mem_cons_of_mem _ h))
        · exact Or.inr hid
    · rename_i hle
      cases hm : matchToken ws ab ap v t with
      | error e => rw [hm] at h; cases h
      | ok r =>
        rw [hm] at h
        cases r with
        | some i =>
          simp only at h
          obtain ⟨h1, h2, h3⟩ := ih hn.2 h
          refine ⟨?_, ?_, ?_⟩
          · rw [h1]; simp [leftover, hm]
          · intro t' id' hmem hlt
            rcases List.mem_cons.mp hmem with he | hmem
            · cases he
              exact ⟨some i, hm, by rw [h3 id (Or.inl hn.1), setRow_same]⟩
            · obtain ⟨r, hr, hv⟩ := h2 t' id' hmem hlt
              refine ⟨r, hr, ?_⟩
              have hne : id' ≠ id := fun he => hn.1 (he ▸ List.mem_map.mpr ⟨_, hmem, rfl⟩)
              rw [hv, setRow_other _ _ hne]
          · intro id' hid
            rcases hid with hid | hid
            · rw [List.map_cons, List.mem_cons, not_or] at hid
              rw [h3 id' (Or.inl hid.2), setRow_other _ _ hid.1]
            · rw [h3 id' (Or.inr hid), setRow_other _ _ (by omega)]
        | none =>
          simp only at h
          obtain ⟨h1, h2, h3⟩ := ih hn.2 h
          refine ⟨?_, ?_, ?_⟩
          · rw [h1]; simp [leftover, hm, Nat.lt_of_not_le hle]
          · intro t' id' hmem hlt
            rcases List.mem_cons.mp hmem with he | hmem
            · cases he
              exact ⟨.none, hm, h3 id (Or.inl hn.1)⟩
            · exact h2 t' id' hmem hlt
          · intro id' hid
            refine h3 id' ?_
            rcases hid with hid | hid
            · exact Or.inl (fun h => hid (List.mem_cons_of_mem _ h))
            · exact Or.inr hid

theorem copyRows_new {ws : Char → Bool} {ab ap : Bool} {orig : Emb R} {v : Vocab} {donorRows : Nat} {es : Vocab} :
    ∀ {res res' : Nat → R} {new new' : List NToken}, copyRows ws ab ap orig v donorRows es res new = .ok (res', new') →
      new' = new ++ leftover ws ab ap v donorRows es := by
  induction es with
  | nil => intro res res' new new' h; cases h; simp [leftover]
  | cons e es ih =>
    obtain ⟨t, id⟩ := e
    intro res res' new new' h
    rw [copyRows] at h
    split at h
    · rename_i hle
      rw [ih h]; simp [leftover, Nat.not_lt.mpr hle]
    · rename_i hle
      cases hm : matchToken ws ab ap v t with
      | error e => rw [hm] at h; cases h
      | ok r =>
        rw [hm] at h
        cases r with
        | some i => rw [ih h]; simp [leftover, hm]
        | none => rw [ih h]; simp [leftover, hm, Nat.lt_of_not_le hle]

theorem copyRows_total {ws : Char → Bool} {ab ap : Bool} {orig : Emb R} {v : Vocab} {donorRows : Nat} {es : Vocab}
    (ht : ∀ e ∈ es, e.2 < donorRows → ∃ r, matchToken ws ab ap v e.1 = .ok r) :
    ∀ (res : Nat → R) (new : List NToken), ∃ x, copyRows ws ab ap orig v donorRows es res new = .ok x := by
  induction es with
  | nil => intro res new; exact ⟨_, rfl⟩
  | cons e es ih =>
    obtain ⟨t, id⟩ := e
    intro res new
    have ih := ih (fun e he => ht e (List.mem_cons_of_mem _ he))
    rw [copyRows]
    split
    · exact ih _ _
    · rename_i hle
      obtain ⟨r, hr⟩ := ht (t, id) (by simp) (by simpa using hle)
      rw [hr]
      cases r <;> exact ih _ _

variable [Add R]

omit [Add R] in
theorem placeRows_other {donor : Vocab} {es : List (NToken × R)} {id : Nat} (h : ∀ e ∈ es, get donor e.1 ≠ some id) (res : Nat → R) :
    placeRows donor es res id = res id := by
  induction es generalizing res with
  | nil => rfl
  | cons e es ih =>
    obtain ⟨t, r⟩ := e
    have ih := ih (fun e he => h e (List.mem_cons_of_mem _ he))
    rw [placeRows]
    cases hg : get donor t with
    | none => exact ih _
    | some i =>
      simp only
      rw [ih, setRow_other]
      rintro rfl
      exact h (t, r) (by simp) hg

omit [Add R] in
theorem placeRows_at {donor : Vocab} (hids : (donor.map Prod.snd).Nodup) (hk : (donor.map Prod.fst).Nodup) {es : List (NToken × R)}
    (hn : (es.map Prod.fst).Nodup) {t : NToken} {r : R} (hm : (t, r) ∈ es) {id : Nat} (hg : (t, id) ∈ donor) (res : Nat → R) :
    placeRows donor es res id = r := by
  induction es generalizing res with
  | nil => cases hm
  | cons e es ih =>
    obtain ⟨t', r'⟩ := e
    rw [List.map_cons, List.nodup_cons] at hn
    rw [placeRows]
    rcases List.mem_cons.mp hm with he | hm
    · cases he
      rw [(get_some hk).mpr hg]
      simp only
      rw [placeRows_other, setRow_same]
      intro e he hge
      have h2 := (get_some hk).mp hge
      have : (t, id) = (e.1, id) := List.inj_on_of_nodup_map hids hg h2 rfl
      have : t = e.1 := congrArg Prod.fst this
      exact hn.1 (this ▸ List.mem_map.mpr ⟨_, he, rfl⟩)
    · cases get donor t' with
      | none => exact ih hn.2 hm _
      | some i => exact ih hn.2 hm _

omit [Add R] in
theorem placeRows_append (donor : Vocab) (l1 l2 : List (NToken × R)) (res : Nat → R) :
    placeRows donor (l1 ++ l2) res = placeRows donor l2 (placeRows donor l1 res) := by
  induction l1 generalizing res with
  | nil => rfl
  | cons e es ih =>
    obtain ⟨t, r⟩ := e
    rw [List.cons_append, placeRows, placeRows]
    split <;> exact ih _

/-- The approximation gives one row per token. -/
def Complete (a : Approx R) : Prop := ∀ ts rs, a.compute ts = .ok rs → rs.length = ts.length

theorem approximate_length {a : Approx R} (ha : Complete a) {b : Nat} {ts : List NToken} {rs : List R} (h : approximate a b ts = .ok rs) :
    rs.length = ts.length := by
  unfold approximate at h
  cases hc : a.compute ts with
  | error e => rw [hc] at h; cases h
  | ok es =>
    rw [hc] at h
    have := ha _ _ hc
    simp only [Except.bind, finish] at h
    split at h
    · cases h
    · cases hno : a.noise <;> cases hs : a.scale <;> rw [hno, hs] at h <;> cases h <;> simp [this]

theorem fillRows_other {a : Approx R} {donor : Vocab} {size : Nat} : ∀ {fuel b : Nat} {ts : List NToken} {res res' : Nat → R},
    fillRows a donor size fuel b ts res = .ok res' → ∀ id, (∀ t ∈ ts, get donor t ≠ some id) → res' id = res id := by
  intro fuel
  induction fuel with
  | zero => intro b ts res res' h id _; cases h; rfl
  | succ fuel ih =>
    intro b ts res res' h id hid
    cases ts with
    | nil => cases h; rfl
    | cons t ts =>
      simp only [fillRows] at h
      cases hc : approximate a b ((t :: ts).take size) with
      | error e => rw [hc] at h; cases h
      | ok rs =>
        rw [hc] at h
        simp only at h
        rw [ih h id (fun t' ht' => hid t' (List.mem_of_mem_drop ht')), placeRows_other]
        intro e he
        exact hid e.1 (List.mem_of_mem_take (List.of_mem_zip (show (e.1, e.2) ∈ _ from he)).1)

/-- Every token gets the row at its position of its batch. -/
theorem fillRows_at {a : Approx R} (ha : Complete a) {donor : Vocab} (hids : (donor.map Prod.snd).Nodup) (hk : (donor.map Prod.fst).Nodup)
    {size : Nat} (hs : 0 < size) :
    ∀ {fuel b : Nat} {ts : List NToken} {res res' : Nat → R}, ts.length ≤ fuel → ts.Nodup → fillRows a donor size fuel b ts res = .ok res' →
      ∀ {k : Nat} {t : NToken} {id : Nat}, ts[k]? = some t → (t, id) ∈ donor →
        ∃ rs, approximate a (b + k / size) ((ts.drop (k / size * size)).take size) = .ok rs ∧ rs[k % size]? = some (res' id) := by
  intro fuel
  induction fuel with
  | zero =>
    intro b ts res res' hl _ _ k t id hk' _
    have : ts = [] := List.eq_nil_of_length_eq_zero (by omega)
    subst this; simp at hk'
  | succ fuel ih =>
    intro b ts res res' hl hn h k t id hkt hd
    cases ts with
    | nil => simp at hkt
    | cons x xs =>
      simp only [fillRows] at h
      cases hc : approximate a b ((x :: xs).take size) with
      | error e => rw [hc] at h; cases h
      | ok rs =>
        rw [hc] at h
        simp only at h
        have hlen := approximate_length ha hc
        by_cases hlt : k < size
        · refine ⟨rs, by rw [Nat.div_eq_of_lt hlt]; simpa using hc, ?_⟩
          rw [Nat.mod_eq_of_lt hlt]
          have htk : ((x :: xs).take size)[k]? = some t := by rw [List.getElem?_take_of_lt hlt]; exact hkt
          have hklt : k < rs.length := by rw [hlen]; exact (List.getElem?_eq_some_iff.mp htk).1
          have hz : (t, rs[k]) ∈ ((x :: xs).take size).zip rs := by
            refine List.mem_of_getElem? (i := k) ?_
            rw [List.getElem?_zip_eq_some]
            exact ⟨htk, List.getElem?_eq_getElem hklt⟩
          have hnd : ((((x :: xs).take size).zip rs).map Prod.fst).Nodup := by
            rw [List.map_fst_zip (by omega)]
            exact hn.sublist (List.take_sublist _ _)
          rw [fillRows_other h id, placeRows_at hids hk hnd hz hd, List.getElem?_eq_getElem hklt]
          intro t' ht' hg
          have he : (t', id) = (t, id) := List.inj_on_of_nodup_map hids ((get_some hk).mp hg) hd rfl
          have he : t' = t := congrArg Prod.fst he
          subst he
          have hdis : List.Disjoint ((x :: xs).take size) ((x :: xs).drop size) :=
            List.disjoint_of_nodup_append (by rw [List.take_append_drop]; exact hn)
          exact hdis (List.mem_of_getElem? htk) ht'
        · push Not at hlt
          have hdk : ((x :: xs).drop size)[k - size]? = some t := by rw [List.getElem?_drop, show size + (k - size) = k by omega]; exact hkt
          have hlen' : ((x :: xs).drop size).length ≤ fuel := by
            rw [List.length_drop]; simp only [List.length_cons] at hl ⊢; omega
          obtain ⟨rs', h1, h2⟩ := ih hlen' (hn.sublist (List.drop_sublist _ _)) h hdk hd
          have e1 : k / size = (k - size) / size + 1 := by
            rw [← Nat.add_div_right _ hs, Nat.sub_add_cancel hlt]
          have e2 : k % size = (k - size) % size := by rw [← Nat.add_mod_right (k - size), Nat.sub_add_cancel hlt]
          refine ⟨rs', ?_, by rw [e2]; exact h2⟩
          rw [List.drop_drop] at h1
          rw [e1, show ((k - size) / size + 1) * size = size + (k - size) / size * size by rw [Nat.add_mul, Nat.one_mul, Nat.add_comm],
            show b + ((k - size) / size + 1) = b + 1 + (k - size) / size by omega]
          exact h1

/-! ## The matrix -/

variable [Zero R]

omit [Add R] in
theorem junk_fold (js : List Nat) (res : Nat → R) (i : Nat) :
    js.foldl (fun res i => setRow res i 0) res i = if i ∈ js then 0 else res i := by
  induction js generalizing res with
  | nil => simp
  | cons j js ih =>
    rw [List.foldl_cons, ih]
    by_cases h : i ∈ js
    · simp [h]
    · by_cases hj : i = j
      · subst hj; simp [h, setRow_same]
      · simp [h, hj, setRow_other]

omit [Add R] [Zero R] in
theorem foldl_max_le (l : List Nat) (a : Nat) : a ≤ l.foldl max a ∧ ∀ x ∈ l, x ≤ l.foldl max a := by
  induction l generalizing a with
  | nil => simp
  | cons b l ih =>
    obtain ⟨h1, h2⟩ := ih (max a b)
    rw [List.foldl_cons]
    refine ⟨le_trans (le_max_left _ _) h1, fun x hx => ?_⟩
    rcases List.mem_cons.mp hx with rfl | hx
    · exact le_trans (le_max_right _ _) h1
    · exact h2 x hx

omit [Add R] [Zero R] in
theorem outSize_ok {donor : Vocab} {n : Nat} (h : outSize donor = .ok n) : donor.length ≤ n ∧ ∀ e ∈ donor, e.2 < n := by
  cases donor with
  | nil => cases h
  | cons e es =>
    simp only [outSize, Except.ok.injEq] at h
    subst h
    obtain ⟨h1, h2⟩ := foldl_max_le (es.map Prod.snd) e.2
    refine ⟨le_max_left _ _, fun x hx => ?_⟩
    refine lt_of_lt_of_le ?_ (le_max_right _ _)
    rcases List.mem_cons.mp hx with rfl | hx
    · omega
    · have := h2 _ (List.mem_map.mpr ⟨x, hx, rfl⟩); omega

/-- The tokens to approximate are those that take over no row, in the donor's order. -/
def IsNew (ws : Char → Bool) (ab ap : Bool) (v : Vocab) (rows donorRows : Nat) (donor : Vocab) (new : List NToken) : Prop :=
  new.Sublist (donor.map Prod.fst) ∧ ∀ t id, (t, id) ∈ donor → (t ∈ new ↔ id < donorRows ∧ Takes ws ab ap v rows t none)

/-- What `build` does, in one piece. -/
theorem build_parts {ws : Char → Bool} {ab ap : Bool} {a : Approx R} {batch : Option Int} {orig : Emb R} {donorRows : Nat} {origVocab donor : Vocab}
    {junk : List Nat} {out : Emb R} (h : build ws ab ap a batch orig donorRows origVocab donor junk = .ok out) :
    outSize donor = .ok out.rows ∧ ∃ res res', copyRows ws ab ap orig (safe origVocab orig.rows) donorRows donor (fun _ => 0) [] =
        .ok (res, leftover ws ab ap (safe origVocab orig.rows) donorRows donor) ∧
      fillRows a donor (batchSize batch (leftover ws ab ap (safe origVocab orig.rows) donorRows donor).length)
        (leftover ws ab ap (safe origVocab orig.rows) donorRows donor).length 0 (leftover ws ab ap (safe origVocab orig.rows) donorRows donor) res = .ok res' ∧
      ∀ i, out.row i = if i ∈ allJunk junk donor donorRows then 0 else res' i := by
  unfold build at h
  cases hs : outSize donor with
  | error e => rw [hs] at h; cases h
  | ok n =>
    rw [hs] at h
    simp only at h
    cases hc : copyRows ws ab ap orig (safe origVocab orig.rows) donorRows donor (fun _ => (0 : R)) [] with
    | error e => rw [hc] at h; cases h
    | ok x =>
      obtain ⟨res, new⟩ := x
      rw [hc] at h
      simp only at h
      obtain rfl : new = leftover ws ab ap (safe origVocab orig.rows) donorRows donor := by
        rw [copyRows_new hc, List.nil_append]
      cases hf : fillRows a donor (batchSize batch (leftover ws ab ap (safe origVocab orig.rows) donorRows donor).length)
        (leftover ws ab ap (safe origVocab orig.rows) donorRows donor).length 0 (leftover ws ab ap (safe origVocab orig.rows) donorRows donor) res with
      | error e => rw [hf] at h; cases h
      | ok res' =>
        rw [hf] at h
        cases h
        exact ⟨rfl, res, res', rfl, hf, fun i => junk_fold _ _ _⟩

/-- C60: the rows of the transplanted matrix.  Ids that are junk, without a row in the donor's matrix or unused are zero; a donor token that takes over a
row of the original model has this row at its id; the others have the row of the approximation for their place in their batch. -/
theorem C60_rows {ws : Char → Bool} {ab ap : Bool} {a : Approx R} {batch : Option Int} {orig : Emb R} {donorRows : Nat} {origVocab donor : Vocab}
    {junk : List Nat} {out : Emb R} (ha : Complete a) (ho : (origVocab.map Prod.fst).Nodup) (hk : (donor.map Prod.fst).Nodup)
    (hids : (donor.map Prod.snd).Nodup) (hr : ab = true → ∀ e ∈ donor, Regular e.1)
    (h : build ws ab ap a batch orig donorRows origVocab donor junk = .ok out) :
    donor.length ≤ out.rows ∧ (∀ e ∈ donor, e.2 < out.rows) ∧
      (∀ id, (id ∈ junk ∨ donorRows ≤ id ∨ id ∉ donor.map Prod.snd) → out.row id = 0) ∧
      ∃ new, IsNew ws ab ap origVocab orig.rows donorRows donor new ∧
        ∀ t id, (t, id) ∈ donor → id < donorRows → id ∉ junk →
          (∀ i, Takes ws ab ap origVocab orig.rows t (some i) → out.row id = orig.row i) ∧
          (Takes ws ab ap origVocab orig.rows t none → ∃ k size, new[k]? = some t ∧ size = batchSize batch new.length ∧
            ∃ rs, approximate a (k / size) ((new.drop (k / size * size)).take size) = .ok rs ∧ rs[k % size]? = some (out.row id)) := by
  obtain ⟨h1, res, res', h2, h3, h4⟩ := build_parts h
  obtain ⟨g1, g2⟩ := outSize_ok h1
  obtain ⟨_, c2, c3⟩ := copyRows_spec hids h2
  have hreg : ∀ t id, (t, id) ∈ donor → ab = true → Regular t := fun t id hm hab => hr hab _ hm
  have hnew : IsNew ws ab ap origVocab orig.rows donorRows donor (leftover ws ab ap (safe origVocab orig.rows) donorRows donor) := by
    refine ⟨List.Sublist.map _ List.filter_sublist, fun t id hm => ?_⟩
    have hmt : ∀ r, matchToken ws ab ap (safe origVocab orig.rows) t = .ok r ↔ Takes ws ab ap origVocab orig.rows t r :=
      fun r => matchToken_iff ho (hreg t id hm)
    unfold leftover
    rw [List.mem_map]
    constructor
    · rintro ⟨e, he, rfl⟩
      rw [List.mem_filter, Bool.and_eq_true, decide_eq_true_eq] at he
      have : e = (e.1, id) := by
        have := List.inj_on_of_nodup_map hk he.1 hm rfl
        exact this
      have hid : e.2 = id := congrArg Prod.snd this
      refine ⟨hid ▸ he.2.1, (hmt _).mp ?_⟩
      have := he.2.2
      split at this
      · assumption
      · cases this
    · rintro ⟨hlt, ht⟩
      refine ⟨(t, id), List.mem_filter.mpr ⟨hm, ?_⟩, rfl⟩
      simp only [Bool.and_eq_true, decide_eq_true_eq]
      refine ⟨hlt, ?_⟩
      rw [(hmt _).mpr ht]
  have hnd : (leftover ws ab ap (safe origVocab orig.rows) donorRows donor).Nodup := hk.sublist hnew.1
  generalize leftover ws ab ap (safe origVocab orig.rows) donorRows donor = new at *
  refine ⟨g1, g2, fun id hid => ?_, new, hnew, fun t id hm hlt hj => ?_⟩
  · rw [h4]
    split
    · rfl
    · rename_i hna
      have hna : id ∉ junk ∧ ∀ e ∈ donor, e.2 = id → id < donorRows := by
        simp only [allJunk, List.mem_append, List.mem_filter, decide_eq_true_eq, not_or, not_and, not_le] at hna
        exact ⟨hna.1, fun e he hid => hna.2 (List.mem_map.mpr ⟨e, he, hid⟩)⟩
      rcases hid with hid | hid | hid
      · exact absurd hid hna.1
      · by_cases hmem : id ∈ donor.map Prod.snd
        · obtain ⟨e, he, rfl⟩ := List.mem_map.mp hmem
          have := hna.2 e he rfl; omega
        · rw [fillRows_other h3 id, c3 id (Or.inl hmem)]
          intro t _ hg
          exact hmem (List.mem_map.mpr ⟨_, (get_some hk).mp hg, rfl⟩)
      · rw [fillRows_other h3 id, c3 id (Or.inl hid)]
        intro t _ hg
        exact hid (List.mem_map.mpr ⟨_, (get_some hk).mp hg, rfl⟩)
  · have hna : id ∉ allJunk junk donor donorRows := by
      simp only [allJunk, List.mem_append, List.mem_filter, decide_eq_true_eq, not_or, not_and]
      exact ⟨hj, fun _ => by omega⟩
    have hrow : out.row id = res' id := by rw [h4, if_neg hna]
    have hmt : ∀ r, matchToken ws ab ap (safe origVocab orig.rows) t = .ok r ↔ Takes ws ab ap origVocab orig.rows t r :=
      fun r => matchToken_iff ho (hreg t id hm)
    have hget : ∀ t', get donor t' = some id → t' = t := fun t' hg =>
      congrArg Prod.fst (List.inj_on_of_nodup_map hids ((get_some hk).mp hg) hm rfl)
    refine ⟨fun i hi => ?_, fun hno => ?_⟩
    · rw [hrow, fillRows_other h3 id]
      · obtain ⟨r, hr1, hr2⟩ := c2 t id hm hlt
        rw [(hmt _).mpr hi] at hr1
        cases hr1
        exact hr2
      · intro t' ht' hg
        cases hget t' hg
        have := ((hnew.2 t id hm).mp ht').2
        cases takes_unique ho (hreg t id hm) hi this
    · have hmem := (hnew.2 t id hm).mpr ⟨hlt, hno⟩
      obtain ⟨k, hkt⟩ := List.mem_iff_getElem?.mp hmem
      have hpos : 0 < batchSize batch new.length := by
        unfold batchSize
        split
        · omega
        · exact List.length_pos_of_mem hmem
      obtain ⟨rs, h5, h6⟩ := fillRows_at ha hids hk hpos le_rfl hnd h3 hkt hm
      rw [Nat.zero_add] at h5
      exact ⟨k, _, hkt, rfl, rs, h5, by rw [hrow]; exact h6⟩

omit [Add R] [Zero R] in
theorem zip_map_self {A : Type} (l : List A) (f : A → R) : l.zip (l.map f) = l.map (fun a => (a, f a)) := by
  induction l with
  | nil => rfl
  | cons a l ih => rw [List.map_cons, List.zip_cons_cons, ih, List.map_cons]

/-- C60: with an approximation that treats tokens one by one the size of the batches does not matter. -/
theorem C60_batches {ws : Char → Bool} {ab ap : Bool} {a : Approx R} {f : NToken → R} (hf : ∀ ts, a.compute ts = .ok (ts.map f)) (hn : a.noise = none)
    (hs : a.shared = false) (batch batch' : Option Int) (orig : Emb R) (donorRows : Nat) (origVocab donor : Vocab) (junk : List Nat) :
    build ws ab ap a batch orig donorRows origVocab donor junk = build ws ab ap a batch' orig donorRows origVocab donor junk := by
  have key : ∀ size, 0 < size → ∀ fuel b (ts : List NToken) (res : Nat → R), ts.length ≤ fuel →
      fillRows a donor size fuel b ts res = .ok (placeRows donor (ts.map (fun t => (t, match a.scale with | none => f t | some s => s (f t)))) res) := by
    intro size hsize fuel
    induction fuel with
    | zero =>
      intro b ts res hl
      have : ts = [] := List.eq_nil_of_length_eq_zero (by omega)
      subst this; rfl
    | succ fuel ih =>
      intro b ts res hl
      cases ts with
      | nil => rfl
      | cons t ts =>
        simp only [fillRows]
        have happ : ∀ us, approximate a b us = .ok (us.map (fun t => match a.scale with | none => f t | some s => s (f t))) := by
          intro us
          unfold approximate
          rw [hf]
          simp only [Except.bind, finish, hs, hn]
          cases a.scale <;> simp
        rw [happ]
        simp only
        rw [ih _ _ _ (by rw [List.length_drop]; simp only [List.length_cons] at hl ⊢; omega), ← placeRows_append]
        congr 2
        rw [zip_map_self, ← List.map_append, List.take_append_drop]
  have hb : ∀ (bt : Option Int) (n : Nat), n = 0 ∨ 0 < batchSize bt n := by
    intro bt n
    unfold batchSize
    split <;> omega
  unfold build
  cases outSize donor with
  | error e => rfl
  | ok n =>
    simp only
    cases copyRows ws ab ap orig (safe origVocab orig.rows) donorRows donor (fun _ => (0 : R)) [] with
    | error e => rfl
    | ok x =>
      obtain ⟨res, new⟩ := x
      simp only
      rcases hb batch new.length with h0 | h0
      · have : new = [] := List.eq_nil_of_length_eq_zero h0
        subst this; rfl
      · rcases hb batch' new.length with h0' | h0'
        · have : new = [] := List.eq_nil_of_length_eq_zero h0'
          subst this; rfl
        · rw [key _ h0 _ _ _ _ le_rfl, key _ h0' _ _ _ _ le_rfl]

omit [Zero R] in
/-- C60: noise and scaling.  The rows of a batch are those computed, each with its own noise added and then scaled. -/
theorem C60_noise {a : Approx R} (hs : a.shared = false) {b : Nat} {ts : List NToken} {es : List R} (hc : a.compute ts = .ok es) :
    ∃ rs, approximate a b ts = .ok rs ∧ rs.length = es.length ∧
      ∀ (k : Nat) e, es[k]? = some e →
        (∀ n s, a.noise = some n → a.scale = some s → rs[k]? = some (s (e + n b k))) ∧
        (∀ n, a.noise = some n → a.scale = none → rs[k]? = some (e + n b k)) ∧
        (∀ s, a.noise = none → a.scale = some s → rs[k]? = some (s e)) ∧
        (a.noise = none → a.scale = none → rs[k]? = some e) := by
  unfold approximate
  rw [hc]
  simp only [Except.bind, finish, hs, Bool.false_eq_true, false_and, if_false]
  refine ⟨_, rfl, ?_, ?_⟩
  · cases a.noise <;> cases a.scale <;> simp
  · intro k e hk
    cases a.noise <;> cases a.scale <;> simp [List.getElem?_zipIdx, hk]

example (t u : NToken) : ∃ rs, approximate (⟨fun ts => .ok (ts.map (fun _ => (5 : Int))), false, some (fun _ k => (k : Int)),
    some (fun x => 2 * x)⟩ : Approx Int) 3 [t, u] = .ok rs ∧ rs = [10, 12] := ⟨_, rfl, rfl⟩

/-- C60: a run can only fail for an empty donor vocabulary, an irregular byte token, or in the approximation. -/
theorem C60_accepted {ws : Char → Bool} {ab ap : Bool} {a : Approx R} {batch : Option Int} {orig : Emb R} {donorRows : Nat} {origVocab donor : Vocab}
    {junk : List Nat} (ho : (origVocab.map Prod.fst).Nodup) (hne : donor ≠ []) (hr : ab = true → ∀ e ∈ donor, Regular e.1)
    (ha : ∀ b ts, ∃ rs, approximate a b ts = .ok rs) : ∃ out, build ws ab ap a batch orig donorRows origVocab donor junk = .ok out := by
  unfold build
  obtain ⟨n, hn⟩ : ∃ n, outSize donor = .ok n := by
    cases donor with
    | nil => exact absurd rfl hne
    | cons e es => exact ⟨_, rfl⟩
  rw [hn]
  obtain ⟨⟨res, new⟩, hc⟩ := copyRows_total (ws := ws) (ab := ab) (ap := ap) (orig := orig) (v := safe origVocab orig.rows) (donorRows := donorRows) (es := donor)
    (fun e he _ => by
      obtain ⟨r, h1, _⟩ := matchToken_spec (ws := ws) (ap := ap) (n := orig.rows) ho (t := e.1) (fun hab => hr hab e he)
      exact ⟨r, h1⟩) (fun _ => 0) []
  rw [hc]
  simp only
  have hf : ∀ size fuel b (ts : List NToken) (res : Nat → R), ∃ res', fillRows a donor size fuel b ts res = .ok res' := by
    intro size fuel
    induction fuel with
    | zero => intro b ts res; exact ⟨res, rfl⟩
    | succ fuel ih =>
      intro b ts res
      cases ts with
      | nil => exact ⟨res, rfl⟩
      | cons t ts =>
        obtain ⟨rs, hrs⟩ := ha b ((t :: ts).take size)
        simp only [fillRows, hrs]
        exact ih _ _ _
  obtain ⟨res', hres⟩ := hf (batchSize batch new.length) new.length 0 new res
  rw [hres]
  exact ⟨_, rfl⟩

/-- C60, refuted for the approximation by the mean with noise or scaling: with two tokens to approximate in one batch the run fails. -/
theorem C60_mean_noise_fails {ws : Char → Bool} {ab ap : Bool} {a : Approx R} {orig : Emb R} {donorRows : Nat} {origVocab donor : Vocab}
    {junk : List Nat} (ha : Complete a) (ho : (origVocab.map Prod.fst).Nodup) (hk : (donor.map Prod.fst).Nodup)
    (hids : (donor.map Prod.snd).Nodup) (hr : ab = true → ∀ e ∈ donor, Regular e.1) (hs : a.shared = true) (hn : a.noise.isSome ∨ a.scale.isSome)
    {t t' : NToken} {id id' : Nat} (hne : t ≠ t') (hm : (t, id) ∈ donor) (hm' : (t', id') ∈ donor) (hlt : id < donorRows) (hlt' : id' < donorRows)
    (hj : id ∉ junk) (ht : Takes ws ab ap origVocab orig.rows t none) (ht' : Takes ws ab ap origVocab orig.rows t' none) (out : Emb R) :
    build ws ab ap a none orig donorRows origVocab donor junk ≠ .ok out := by
  intro h
  obtain ⟨_, _, _, new, hnew, hrows⟩ := C60_rows ha ho hk hids hr h
  obtain ⟨k, size, hk1, hsize, rs, hap, _⟩ := (hrows t id hm hlt hj).2 ht
  have h1 := (hnew.2 t id hm).mpr ⟨hlt, ht⟩
  have h2 := (hnew.2 t' id' hm').mpr ⟨hlt', ht'⟩
  simp only [batchSize] at hsize
  subst hsize
  have hklt := (List.getElem?_eq_some_iff.mp hk1).1
  rw [Nat.div_eq_of_lt hklt, Nat.zero_mul, List.drop_zero, List.take_length] at hap
  have hlen : 1 < new.length := by
    match new, h1, h2 with
    | [x], h1, h2 => rw [List.mem_singleton] at h1 h2; exact absurd (h1.trans h2.symm) hne
    | x :: y :: l, _, _ => simp
  unfold approximate at hap
  cases hc : a.compute new with
  | error e => rw [hc] at hap; cases hap
  | ok es =>
    rw [hc] at hap
    simp only [Except.bind, finish] at hap
    rw [if_pos ⟨hs, by rw [ha _ _ hc]; exact hlen, hn⟩] at hap
    cases hap

end

/-! ## Donor tokens that share a normal form -/

theorem lastWins_append (l : Vocab) (e : NToken × Nat) (t : NToken) :
    Tok.lastWins (l ++ [e]) t = if e.1 = t then some e.2 else Tok.lastWins l t := by
  unfold Tok.lastWins Tok.get
  rw [List.reverse_append, List.reverse_singleton, List.singleton_append, List.find?_cons]
  by_cases h : e.1 = t <;> simp [h]

theorem upserts_spec (l : Vocab) : ((l.foldl upsert []).map Prod.fst).Nodup ∧ ∀ t i, (t, i) ∈ l.foldl upsert [] ↔ Tok.lastWins l t = some i := by
  induction l using List.reverseRecOn with
  | nil => exact ⟨by simp, fun t i => by simp [Tok.lastWins, Tok.get]⟩
  | append_singleton l e ih =>
    rw [List.foldl_append, List.foldl_cons, List.foldl_nil]
    obtain ⟨h1, h2⟩ := ih
    generalize l.foldl upsert [] = d at *
    unfold upsert
    split
    · rename_i hm
      have hkeys : (d.map (fun x => if x.1 = e.1 then e else x)).map Prod.fst = d.map Prod.fst := by
        rw [List.map_map]
        refine List.map_congr_left (fun x _ => ?_)
        simp only [Function.comp]
        split
        · rename_i h; exact h.symm
        · rfl
      refine ⟨by rw [hkeys]; exact h1, fun t i => ?_⟩
      rw [lastWins_append, List.mem_map]
      constructor
      · rintro ⟨x, hx, he⟩
        split at he
        · subst he; simp
        · rename_i hne
          subst he
          rw [if_neg (fun h => hne h.symm)]
          exact (h2 _ _).mp hx
      · intro h
        split at h
        · rename_i ht
          cases h
          obtain ⟨x, hx, hxe⟩ := List.mem_map.mp hm
          exact ⟨x, hx, by rw [if_pos hxe, ← ht]⟩
        · rename_i ht
          exact ⟨(t, i), (h2 t i).mpr h, by rw [if_neg (fun h => ht h.symm)]⟩
    · rename_i hm
      refine ⟨?_, fun t i => ?_⟩
      · rw [List.map_append, List.map_singleton, List.nodup_append]
        refine ⟨h1, by simp, ?_⟩
        rintro a ha b hb rfl
        rw [List.mem_singleton] at hb
        subst hb
        exact hm ha
      · rw [lastWins_append, List.mem_append, List.mem_singleton, h2]
        constructor
        · rintro (h | h)
          · rw [if_neg, h]
            rintro rfl
            exact hm (List.mem_map.mpr ⟨_, (h2 _ _).mpr h, rfl⟩)
          · rw [← h]; simp
        · intro h
          split at h
          · rename_i ht
            cases h; right; rw [← ht]
          · exact Or.inl h

theorem lastWins_mem {l : Vocab} {t : NToken} {i : Nat} (h : Tok.lastWins l t = some i) : (t, i) ∈ l := by
  unfold Tok.lastWins Tok.get at h
  rw [Option.map_eq_some_iff] at h
  obtain ⟨e, he, rfl⟩ := h
  have h1 := List.mem_of_find?_eq_some he
  have h2 := List.find?_some he
  simp only [decide_eq_true_eq] at h2
  rw [List.mem_reverse] at h1
  subst h2; exact h1

theorem lastWins_later {l1 l2 : Vocab} {t : NToken} {i : Nat} (h : Tok.lastWins (l1 ++ l2) t = some i) (hm : t ∈ l2.map Prod.fst) : (t, i) ∈ l2 := by
  induction l2 using List.reverseRecOn with
  | nil => simp at hm
  | append_singleton l e ih =>
    rw [← List.append_assoc, lastWins_append] at h
    split at h
    · rename_i ht
      cases h; rw [← ht]; simp
    · rename_i ht
      refine List.mem_append_left _ (ih h ?_)
      rw [List.map_append, List.mem_append] at hm
      rcases hm with hm | hm
      · exact hm
      · simp at hm; exact absurd hm.symm ht

/-- C60, refuted for tokens with a common normal form (special tokens of one kind): the row of all but the last of them is zero, even if the original
model has the very same tokens. -/
theorem C60_special_zero {R : Type} [Zero R] [Add R] {ws : Char → Bool} {ab ap : Bool} {a : Approx R} {batch : Option Int} {orig : Emb R}
    {donorRows : Nat} {origVocab : Vocab} {junk : List Nat} {out : Emb R} {special : List (Str × List Str)} {wordStart : Str}
    {l1 l2 : List (Str × Nat)} {tok : Str} {id : Nat} (ha : Complete a) (ho : (origVocab.map Prod.fst).Nodup)
    (hids : ((l1 ++ (tok, id) :: l2).map Prod.snd).Nodup) (hr : ab = true → ∀ e ∈ normalizedDict special wordStart (l1 ++ (tok, id) :: l2), Regular e.1)
    (hlater : ∃ e ∈ l2, normalize special wordStart e.1 = normalize special wordStart tok)
    (h : build ws ab ap a batch orig donorRows origVocab (normalizedDict special wordStart (l1 ++ (tok, id) :: l2)) junk = .ok out) : out.row id = 0 := by
  obtain ⟨hk, hmem⟩ := upserts_spec ((l1 ++ (tok, id) :: l2).map (fun e => (normalize special wordStart e.1, e.2)))
  have hback : ∀ t i, (t, i) ∈ normalizedDict special wordStart (l1 ++ (tok, id) :: l2) → ∃ s, (s, i) ∈ l1 ++ (tok, id) :: l2 ∧ normalize special wordStart s = t := by
    intro t i hm
    obtain ⟨e, he, heq⟩ := List.mem_map.mp (lastWins_mem ((hmem t i).mp hm))
    cases heq
    exact ⟨e.1, he, rfl⟩
  have hids' : ((normalizedDict special wordStart (l1 ++ (tok, id) :: l2)).map Prod.snd).Nodup := by
    refine List.Nodup.map_on ?_ (List.Nodup.of_map _ hk)
    rintro ⟨t, i⟩ hx ⟨t', i'⟩ hy hxy
    obtain ⟨s, hs, rfl⟩ := hback t i hx
    obtain ⟨s', hs', rfl⟩ := hback t' i' hy
    simp only at hxy
    subst hxy
    cases List.inj_on_of_nodup_map hids hs hs' rfl
    rfl
  refine (C60_rows ha ho hk hids' hr h).2.2.1 id (Or.inr (Or.inr ?_))
  intro hin
  obtain ⟨⟨t, i⟩, he, hi⟩ := List.mem_map.mp hin
  simp only at hi
  subst hi
  obtain ⟨s, hs, rfl⟩ := hback t i he
  have hst : (s, i) = (tok, i) := List.inj_on_of_nodup_map hids hs (by simp) rfl
  cases hst
  obtain ⟨e, hel, hen⟩ := hlater
  have h1 := (hmem _ _).mp he
  rw [show l1 ++ (tok, i) :: l2 = (l1 ++ [(tok, i)]) ++ l2 by simp, List.map_append] at h1
  have h2 := lastWins_later h1 (by rw [List.map_map]; exact List.mem_map.mpr ⟨e, hel, hen⟩)
  obtain ⟨e', he', heq⟩ := List.mem_map.mp h2
  have hei : e'.2 = i := congrArg Prod.snd heq
  rw [List.map_append, List.map_cons, List.nodup_append] at hids
  have := (List.nodup_cons.mp hids.2.1).1
  exact this (List.mem_map.mpr ⟨e', he', hei⟩)

end Verif.Surgeon
