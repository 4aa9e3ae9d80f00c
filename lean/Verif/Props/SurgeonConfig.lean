import Verif.Model.SurgeonConfig
import Verif.Props.ModelRef
import Verif.Props.TokenSurgeonRun

/-! # C103: the configuration after a change of vocabulary -/

namespace Verif.Surgeon

open Verif.ModelRef

variable {V R : Type}

/-- Neither key is part of the other. -/
def Apart (k k' : Str) : Prop := ¬ splitChar '.' k <+: splitChar '.' k' ∧ ¬ splitChar '.' k' <+: splitChar '.' k

/-- The key for the size of the vocabulary: the architecture's if it names one. -/
def sizeKey : Option Str → Str
  | some (c :: k) => c :: k
  | _ => cs!"vocab_size"

theorem special_split : ∀ k ∈ specialKeys, splitChar '.' k = [k] := by decide +kernel

theorem special_apart {k k' : Str} (hk : k ∈ specialKeys) (hk' : k' ∈ specialKeys) (h : k ≠ k') : Apart k k' := by
  unfold Apart
  rw [special_split k hk, special_split k' hk']
  simp [List.cons_prefix_cons, h, Ne.symm h]

theorem copySpecial_spec {donor : Cfg V} : ∀ {ks : List Str} {c out : Cfg V}, ks.Nodup → (∀ k ∈ ks, k ∈ specialKeys) → copySpecial donor ks c = .ok out →
    (∀ k ∈ ks, getConfigValue out k = match getConfigValue donor k with
      | .ok v => .ok v
      | .error _ => getConfigValue c k) ∧
    ∀ k', (∀ k ∈ ks, Apart k k') → getConfigValue out k' = getConfigValue c k'
  | [], c, out, _, _, h => by
    cases h
    exact ⟨fun k hk => (by cases hk), fun _ _ => rfl⟩
  | k :: ks, c, out, hn, hs, h => by
    have hk := hs k List.mem_cons_self
    have hget : getConfigValue donor k = getParts donor [k] := by unfold getConfigValue; rw [special_split k hk]
    have hnd := List.nodup_cons.mp hn
    have hks : ∀ k' ∈ ks, k' ∈ specialKeys := fun k' h' => hs k' (List.mem_cons_of_mem _ h')
    have hap : ∀ k' ∈ ks, Apart k' k := fun k' h' => special_apart (hks k' h') hk (fun he => hnd.1 (he ▸ h'))
    unfold copySpecial at h
    cases hd : getParts donor [k] with
    | error e =>
      rw [hd] at h
      obtain ⟨h1, h2⟩ := copySpecial_spec hnd.2 hks h
      refine ⟨?_, fun k' h' => h2 k' fun x hx => h' x (List.mem_cons_of_mem _ hx)⟩
      intro x hx
      rcases List.mem_cons.mp hx with rfl | hx
      · rw [hget, hd]
        exact h2 x hap
      · exact h1 x hx
    | ok v =>
      rw [hd] at h
      simp only at h
      cases hset : setConfigValue c k v with
      | error e => rw [hset] at h; cases h
      | ok c' =>
        rw [hset] at h
        obtain ⟨h1, h2⟩ := copySpecial_spec hnd.2 hks h
        refine ⟨?_, ?_⟩
        · intro x hx
          rcases List.mem_cons.mp hx with rfl | hx
          · rw [hget, hd, h2 x hap]
            exact C25_get_set _ _ _ _ hset
          · rw [h1 x hx]
            have := hap x hx
            rw [C25_others_unchanged c c' v k x hset this.2 this.1]
        · intro k' h'
          rw [h2 k' fun x hx => h' x (List.mem_cons_of_mem _ hx)]
          have := h' k List.mem_cons_self
          exact C25_others_unchanged c c' v k k' hset this.1 this.2

/-- C103: the configuration written is that of the model, with the number of rows as size of the vocabulary and, of the keys for special tokens, those
that the donor has. -/
theorem C103_config {number : Option Nat → V} {vocabKey : Option Str} {size : Option Nat} {model donor out : Cfg V}
    (h : outConfig number vocabKey size model donor = .ok out) {key : Str}
    (hkey : key = sizeKey vocabKey)
    (hk : ∀ k ∈ specialKeys, Apart k key) :
    getConfigValue out key = .ok (.leaf (number size)) ∧
    (∀ k ∈ [cs!"pad_token_id", cs!"eos_token_id", cs!"bos_token_id", cs!"unk_token_id", cs!"mask_token_id", cs!"padding_side"],
      getConfigValue out k = match getConfigValue donor k with
        | .ok v => .ok v
        | .error _ => getConfigValue model k) ∧
    ∀ k, Apart key k → (∀ s ∈ [cs!"pad_token_id", cs!"eos_token_id", cs!"bos_token_id", cs!"unk_token_id", cs!"mask_token_id", cs!"padding_side"], Apart s k) →
      getConfigValue out k = getConfigValue model k := by
  unfold outConfig at h
  have hkey' : (vocabKey.filter (· ≠ [])).getD cs!"vocab_size" = key := by
    rw [hkey]
    cases vocabKey with
    | none => rfl
    | some k => cases k <;> rfl
  rw [hkey'] at h
  cases hset : setConfigValue model key (.leaf (number size)) with
  | error e => rw [hset] at h; cases h
  | ok c =>
    rw [hset] at h
    obtain ⟨h1, h2⟩ := copySpecial_spec (by decide +kernel) (fun _ h => h) h
    refine ⟨?_, ?_, ?_⟩
    · rw [h2 key hk]
      exact C25_get_set _ _ _ _ hset
    · intro k hks
      rw [h1 k hks]
      have := hk k hks
      rw [C25_others_unchanged model c _ key k hset this.2 this.1]
    · intro k h3 h4
      rw [h2 k h4]
      exact C25_others_unchanged model c _ key k hset h3.1 h3.2

theorem copySpecial_total {donor : Cfg V} : ∀ {ks : List Str} {attrs : List (Str × Cfg V)}, (∀ k ∈ ks, k ∈ specialKeys) →
    ∃ out, copySpecial donor ks (.obj attrs) = .ok out
  | [], attrs, _ => ⟨_, rfl⟩
  | k :: ks, attrs, h => by
    unfold copySpecial
    cases hd : getParts donor [k] with
    | error e => exact copySpecial_total fun k' h' => h k' (List.mem_cons_of_mem _ h')
    | ok v =>
      have : setConfigValue (.obj attrs) k v = .ok (.obj (attrSet attrs k v)) := by
        unfold setConfigValue
        rw [special_split k (h k List.mem_cons_self)]
        rfl
      simp only [this]
      exact copySpecial_total fun k' h' => h k' (List.mem_cons_of_mem _ h')

/-- C103: for a configuration object it fails exactly if there is no object to hold the size of the vocabulary. -/
theorem C103_fails (number : Option Nat → V) (vocabKey : Option Str) (size : Option Nat) (attrs : List (Str × Cfg V)) (donor : Cfg V) {key : Str}
    (hkey : key = sizeKey vocabKey) :
    (∃ out, outConfig number vocabKey size (.obj attrs) donor = .ok out) ↔ ∃ a, getParts (.obj attrs) (splitChar '.' key).dropLast = .ok (.obj a) := by
  rw [← C25_set_succeeds_iff (.obj attrs) (.leaf (number size)) key]
  have hkey' : (vocabKey.filter (· ≠ [])).getD cs!"vocab_size" = key := by
    rw [hkey]
    cases vocabKey with
    | none => rfl
    | some k => cases k <;> rfl
  unfold outConfig
  rw [hkey']
  cases hset : setConfigValue (.obj attrs) key (.leaf (number size)) with
  | error e => exact ⟨fun ⟨_, h⟩ => (by cases h), fun ⟨_, h⟩ => (by cases h)⟩
  | ok c =>
    refine ⟨fun _ => ⟨c, rfl⟩, fun _ => ?_⟩
    have hobj : ∃ a, c = .obj a := by
      unfold setConfigValue at hset
      cases hs : splitChar '.' key with
      | nil => exact absurd hs (splitChar_ne_nil _ _)
      | cons p ps =>
        rw [hs] at hset
        cases ps with
        | nil => cases hset; exact ⟨_, rfl⟩
        | cons q qs =>
          unfold setParts at hset
          split at hset
          · cases hset
          · split at hset
            · cases hset
            · cases hset; exact ⟨_, rfl⟩
    obtain ⟨a, rfl⟩ := hobj
    exact copySpecial_total fun _ h => h

variable [Zero R] [Add R]

theorem build_rows {ws : Char → Bool} {ab ap : Bool} {a : Approx R} {batch : Option Int} {orig : Emb R} {donorRows : Nat} {v donor : Vocab} {junk : List Nat} {out : Emb R}
    (h : build ws ab ap a batch orig donorRows v donor junk = .ok out) : outSize donor = .ok out.rows := by
  unfold build at h
  split at h
  · cases h
  · rename_i n hn
    split at h
    · cases h
    · split at h
      · cases h
      · cases h
        exact hn

/-- C103: both new matrices have the number of rows that goes to the configuration: the size of the donor's vocabulary, or more if its ids go beyond. -/
theorem C103_size {ws : Char → Bool} {b1 p1 b2 p2 : Bool} {f g : Emb R → Emb R → Approx R} {batch : Option Int} {v donor : Vocab} {junk : List Nat}
    {oe oh de dh ne nh : Option (Emb R)} (h1 : NewMatrix ws b1 p1 f batch v donor junk oe de ne) (h2 : NewMatrix ws b2 p2 g batch v donor junk oh dh nh)
    {m : Emb R} (hm : ne = some m ∨ nh = some m) :
    newSize ne nh = some m.rows ∧ donor.length ≤ m.rows ∧ (∀ e ∈ donor, e.2 < m.rows) ∧ (m.rows = donor.length ∨ ∃ e ∈ donor, e.2 + 1 = m.rows) := by
  have hr : ∀ x, ne = some x ∨ nh = some x → outSize donor = .ok x.rows := by
    rintro x (hx | hx)
    · rcases h1 with ⟨_, h⟩ | ⟨_, _, z, _, _, h, hb⟩
      · rw [h] at hx; cases hx
      · rw [h] at hx; cases hx
        exact build_rows hb
    · rcases h2 with ⟨_, h⟩ | ⟨_, _, z, _, _, h, hb⟩
      · rw [h] at hx; cases hx
      · rw [h] at hx; cases hx
        exact build_rows hb
  have hout := hr m hm
  have hfold : ∀ (l : List Nat) (i : Nat), (∀ x ∈ i :: l, x ≤ l.foldl max i) ∧ l.foldl max i ∈ i :: l := by
    intro l
    induction l with
    | nil => intro i; simp
    | cons a l ih =>
      intro i
      obtain ⟨h3, h4⟩ := ih (max i a)
      simp only [List.foldl_cons]
      refine ⟨?_, ?_⟩
      · intro x hx
        have hb := h3 (max i a) List.mem_cons_self
        rcases List.mem_cons.mp hx with rfl | hx
        · exact (le_max_left _ _).trans hb
        · rcases List.mem_cons.mp hx with rfl | hx
          · exact (le_max_right _ _).trans hb
          · exact h3 x (List.mem_cons_of_mem _ hx)
      · rcases List.mem_cons.mp h4 with h5 | h5
        · rw [h5]
          rcases le_total i a with h | h
          · rw [max_eq_right h]; simp
          · rw [max_eq_left h]; simp
        · exact List.mem_cons_of_mem _ (List.mem_cons_of_mem _ h5)
  refine ⟨?_, ?_⟩
  · unfold newSize
    cases ne with
    | some x =>
      have := hr x (Or.inl rfl)
      rw [hout] at this
      simp only [Except.ok.inj this]
    | none =>
      rcases hm with hm | hm
      · cases hm
      · rw [hm]
  · unfold outSize at hout
    cases donor with
    | nil => cases hout
    | cons e es =>
      have hrows : max (e :: es).length ((es.map Prod.snd).foldl max e.2 + 1) = m.rows := Except.ok.inj hout
      obtain ⟨h3, h4⟩ := hfold (es.map Prod.snd) e.2
      refine ⟨by omega, ?_, ?_⟩
      · intro x hx
        have : x.2 ≤ (es.map Prod.snd).foldl max e.2 := h3 x.2 (by
          rcases List.mem_cons.mp hx with rfl | hx
          · exact List.mem_cons_self
          · exact List.mem_cons_of_mem _ (List.mem_map_of_mem hx))
        omega
      · rcases le_total ((es.map Prod.snd).foldl max e.2 + 1) (e :: es).length with hle | hle
        · left; omega
        · right
          rw [max_eq_right hle] at hrows
          rcases List.mem_cons.mp h4 with h5 | h5
          · exact ⟨e, List.mem_cons_self, by omega⟩
          · obtain ⟨x, hx, hx'⟩ := List.mem_map.mp h5
            exact ⟨x, List.mem_cons_of_mem _ hx, by omega⟩

omit [Zero R] [Add R] in
/-- C103: if the model has neither matrix, the size of the vocabulary is removed from the configuration (set to `None`). -/
theorem C103_no_matrix {number : Option Nat → V} {vocabKey : Option Str} {model donor out : Cfg V} {key : Str}
    (hkey : key = sizeKey vocabKey) (hk : ∀ k ∈ specialKeys, Apart k key)
    (h : outConfig number vocabKey (newSize (none : Option (Emb R)) none) model donor = .ok out) : getConfigValue out key = .ok (.leaf (number none)) :=
  (C103_config h hkey hk).1

/-- A model with a nested size of the vocabulary, a donor with other special tokens. -/
example : (match outConfig (V := Option Nat) id (some cs!"text_config.vocab_size") (some 7)
      (.obj [(cs!"text_config", .obj [(cs!"vocab_size", .leaf (some 5))]), (cs!"eos_token_id", .leaf (some 1)), (cs!"mask_token_id", .leaf (some 3))])
      (.obj [(cs!"eos_token_id", .leaf (some 2)), (cs!"pad_token_id", .leaf none)]) with
    | .error _ => false
    | .ok c => (match getConfigValue c cs!"text_config.vocab_size", getConfigValue c cs!"eos_token_id", getConfigValue c cs!"mask_token_id" with
      | .ok (.leaf a), .ok (.leaf b), .ok (.leaf d) => decide (a = some 7 ∧ b = some 2 ∧ d = some 3)
      | _, _, _ => false)) = true := by decide +kernel

example : ∀ k ∈ specialKeys, Apart k cs!"text_config.vocab_size" := by unfold Apart; decide +kernel

end Verif.Surgeon
