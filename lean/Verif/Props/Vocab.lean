import Verif.Model.Tokenizer
import Mathlib.Data.List.Nodup
import Mathlib.Data.List.Perm.Basic
import Mathlib.Data.List.Range
import Mathlib.Tactic.Linarith

/-! # C49, C50, C53, C54: merged vocabularies, permutations, padding, token normalization -/

set_option linter.unusedSectionVars false

namespace Verif.Tok

variable {T M : Type} [DecidableEq T] [DecidableEq M]

/-- The tokens of a vocabulary. -/
def keys (v : List (T × Nat)) : List T := v.map Prod.fst

/-- The ids of a vocabulary are 0, 1, ..., n - 1 in some order. -/
def Gapless (v : List (T × Nat)) : Prop := (v.map Prod.snd).Perm (List.range v.length)

/-- The library's choice of new ids: the next one, for vocabularies whose ids have no gaps. -/
def NextId (fresh : Tokenizer T → Nat) : Prop := ∀ t, Gapless t.vocab → fresh t = t.vocab.length

theorem addToken_vocab (fresh : Tokenizer T → Nat) (t : Tokenizer T) (tok : T) :
    (addToken fresh t tok).vocab = if tok ∈ keys t.vocab then t.vocab else t.vocab ++ [(tok, fresh t)] := by
  unfold addToken keys
  split
  · rfl
  · rename_i h
    have hm : tok ∉ t.model.map Prod.fst := by
      intro hh
      apply h
      unfold Tokenizer.vocab
      rw [List.map_append]
      exact List.mem_append_left _ hh
    unfold Tokenizer.vocab
    simp only [List.filter_append]
    rw [List.filter_cons_of_pos (by simpa using hm), List.filter_nil, List.append_assoc]

theorem gapless_append (v : List (T × Nat)) (new : List T) (h : Gapless v) : Gapless (v ++ new.zipIdx v.length) := by
  unfold Gapless at h ⊢
  rw [List.map_append, List.length_append, List.length_zipIdx]
  have : (new.zipIdx v.length).map Prod.snd = List.range' v.length new.length := by
    rw [List.zipIdx_map_snd]
  rw [this, List.range_eq_range', ← List.range'_append_1, Nat.zero_add, ← List.range_eq_range']
  exact List.Perm.append_right _ h

/-- Adding a list of tokens. -/
theorem addTokens_vocab (fresh : Tokenizer T → Nat) (toks : List T) (t : Tokenizer T) :
    ∃ ext : List (T × Nat), (toks.foldl (addToken fresh) t).vocab = t.vocab ++ ext ∧ (keys ext).Nodup ∧
      (∀ tok, tok ∈ keys ext ↔ tok ∈ toks ∧ tok ∉ keys t.vocab) ∧
      (NextId fresh → Gapless t.vocab → ext = (keys ext).zipIdx t.vocab.length) := by
  induction toks generalizing t with
  | nil => exact ⟨[], by simp, by simp [keys], by simp [keys], fun _ _ => rfl⟩
  | cons a toks ih =>
    obtain ⟨ext, h1, h2, h3, h4⟩ := ih (addToken fresh t a)
    rw [List.foldl_cons]
    by_cases ha : a ∈ keys t.vocab
    · have hv : (addToken fresh t a).vocab = t.vocab := by rw [addToken_vocab, if_pos ha]
      rw [hv] at h1 h3 h4
      refine ⟨ext, h1, h2, ?_, h4⟩
      intro tok
      rw [h3]
      constructor
      · rintro ⟨x, y⟩
        exact ⟨List.mem_cons_of_mem _ x, y⟩
      · rintro ⟨x, y⟩
        rcases List.mem_cons.1 x with rfl | x
        · exact absurd ha y
        · exact ⟨x, y⟩
    · have hv : (addToken fresh t a).vocab = t.vocab ++ [(a, fresh t)] := by rw [addToken_vocab, if_neg ha]
      have hk : keys (t.vocab ++ [(a, fresh t)]) = keys t.vocab ++ [a] := by simp [keys]
      rw [hv] at h1 h3 h4
      rw [hk] at h3
      have hke : keys ((a, fresh t) :: ext) = a :: keys ext := rfl
      refine ⟨(a, fresh t) :: ext, by rw [h1]; simp, ?_, ?_, ?_⟩
      · rw [hke, List.nodup_cons]
        refine ⟨fun h => ?_, h2⟩
        exact ((h3 a).1 h).2 (by simp)
      · intro tok
        rw [hke, List.mem_cons, List.mem_cons, h3, List.mem_append, List.mem_singleton]
        constructor
        · rintro (rfl | ⟨x, y⟩)
          · exact ⟨Or.inl rfl, ha⟩
          · exact ⟨Or.inr x, fun hh => y (Or.inl hh)⟩
        · rintro ⟨rfl | x, y⟩
          · exact Or.inl rfl
          · by_cases h : tok = a
            · exact Or.inl h
            · exact Or.inr ⟨x, fun hh => hh.elim y h⟩
      · intro hn hg
        have hf := hn t hg
        have hg' : Gapless (t.vocab ++ [(a, fresh t)]) := by
          have := gapless_append t.vocab [a] hg
          rw [hf]
          simpa using this
        have := h4 hn hg'
        rw [hke, List.zipIdx_cons, hf]
        rw [List.length_append, List.length_singleton] at this
        rw [← this]

theorem mem_insertNew (l : List T) (a x : T) : x ∈ insertNew l a ↔ x ∈ l ∨ x = a := by
  unfold insertNew
  split
  · constructor
    · exact Or.inl
    · rintro (h | rfl)
      · exact h
      · assumption
  · simp

theorem mem_insertAll (xs l : List T) (x : T) : x ∈ xs.foldl insertNew l ↔ x ∈ l ∨ x ∈ xs := by
  induction xs generalizing l with
  | nil => simp
  | cons a xs ih =>
    rw [List.foldl_cons, ih, mem_insertNew, List.mem_cons, or_assoc]

theorem mem_union (cfg : M → Option Nat) (ts : List (M × Tokenizer T)) (acc : List T × List T) (x : T) :
    let r := ts.foldl (fun acc e => unionStep (cfg e.1) e.2 acc) acc
    (x ∈ r.1 ∨ x ∈ r.2) ↔ (x ∈ acc.1 ∨ x ∈ acc.2) ∨
      ∃ e ∈ ts, ∃ id < orSize (cfg e.1) e.2.size, (x, id) ∈ e.2.vocab ∨ (x, id) ∈ e.2.added := by
  induction ts generalizing acc with
  | nil => simp
  | cons e ts ih =>
    simp only [List.foldl_cons] at ih ⊢
    rw [ih]
    unfold unionStep
    simp only [mem_insertAll, List.mem_map, List.mem_filter, decide_eq_true_eq, List.mem_cons]
    constructor
    · rintro ((h | h) | h)
      · rcases h with h | ⟨y, ⟨h1, h2⟩, rfl⟩
        · exact Or.inl (Or.inl h)
        · exact Or.inr ⟨e, Or.inl rfl, y.2, h2, Or.inl h1⟩
      · rcases h with h | ⟨y, ⟨h1, h2⟩, rfl⟩
        · exact Or.inl (Or.inr h)
        · exact Or.inr ⟨e, Or.inl rfl, y.2, h2, Or.inr h1⟩
      · obtain ⟨e', h1, h2⟩ := h
        exact Or.inr ⟨e', Or.inr h1, h2⟩
    · rintro (h | ⟨e', rfl | h1, id, h2, h3⟩)
      · rcases h with h | h
        · exact Or.inl (Or.inl (Or.inl h))
        · exact Or.inl (Or.inr (Or.inl h))
      · rcases h3 with h3 | h3
        · exact Or.inl (Or.inl (Or.inr ⟨_, ⟨h3, h2⟩, rfl⟩))
        · exact Or.inl (Or.inr (Or.inr ⟨_, ⟨h3, h2⟩, rfl⟩))
      · exact Or.inr ⟨e', h1, id, h2, h3⟩

/-- **C49** The union vocabulary starts with the base's vocabulary unchanged, and contains besides exactly the tokens some model has at an id below its
vocabulary size (`config.json`'s, or if that is missing the tokenizer's own count, which leaves out added tokens).  If the base's ids have no gaps, the new
tokens get the consecutive ids after them, so that no id is used twice. -/
theorem C49_union (fresh : Tokenizer T → Nat) (cfg : M → Option Nat) (base : Tokenizer T) (ts : List (M × Tokenizer T)) :
    ∃ ext, (unionTokenizer fresh cfg base ts).vocab = base.vocab ++ ext ∧
      (∀ tok, tok ∈ keys (unionTokenizer fresh cfg base ts).vocab ↔ tok ∈ keys base.vocab ∨
        ∃ e ∈ ts, ∃ id < orSize (cfg e.1) e.2.size, (tok, id) ∈ e.2.vocab ∨ (tok, id) ∈ e.2.added) ∧
      ((keys base.vocab).Nodup → (keys (unionTokenizer fresh cfg base ts).vocab).Nodup) ∧
      (NextId fresh → Gapless base.vocab → ext = (keys ext).zipIdx base.vocab.length ∧
        Gapless (unionTokenizer fresh cfg base ts).vocab ∧ ((unionTokenizer fresh cfg base ts).vocab.map Prod.snd).Nodup) := by
  unfold unionTokenizer
  simp only
  have hmem := mem_union cfg ts ([], [])
  simp only at hmem
  generalize ts.foldl (fun acc e => unionStep (cfg e.1) e.2 acc) ([], []) = acc at hmem
  obtain ⟨ext1, a1, a2, a3, a4⟩ := addTokens_vocab fresh
    (acc.1.filter (fun tok => decide (tok ∉ acc.2 ∧ tok ∉ base.vocab.map Prod.fst))) base
  generalize (acc.1.filter (fun tok => decide (tok ∉ acc.2 ∧ tok ∉ base.vocab.map Prod.fst))).foldl (addToken fresh) base = r1 at a1
  obtain ⟨ext2, b1, b2, b3, b4⟩ := addTokens_vocab fresh acc.2 r1
  rw [a1] at b1 b3 b4
  have hk : ∀ a b : List (T × Nat), keys (a ++ b) = keys a ++ keys b := fun a b => List.map_append
  refine ⟨ext1 ++ ext2, by rw [b1, List.append_assoc], ?_, ?_, ?_⟩
  · intro tok
    rw [b1, hk, hk, List.mem_append, List.mem_append, b3, a3, hk, List.mem_append, a3]
    simp only [List.mem_filter, decide_eq_true_eq]
    have := hmem tok
    simp only [List.not_mem_nil, or_self, false_or] at this
    rw [← this]
    change _ ↔ tok ∈ keys base.vocab ∨ _
    constructor
    · rintro ((h | ⟨⟨h, _⟩, _⟩) | ⟨h, _⟩)
      · exact Or.inl h
      · exact Or.inr (Or.inl h)
      · exact Or.inr (Or.inr h)
    · intro h
      by_cases hb : tok ∈ keys base.vocab
      · exact Or.inl (Or.inl hb)
      · rcases h with h | h
        · exact absurd h hb
        · by_cases h2 : tok ∈ acc.2
          · by_cases h3 : tok ∈ keys base.vocab ∨ (tok ∈ acc.1 ∧ tok ∉ acc.2 ∧ tok ∉ keys base.vocab) ∧ tok ∉ keys base.vocab
            · exact Or.inl h3
            · exact Or.inr ⟨h2, h3⟩
          · rcases h with h | h
            · exact Or.inl (Or.inr ⟨⟨h, h2, hb⟩, hb⟩)
            · exact absurd h h2
  · intro hn
    rw [b1, hk, hk, List.nodup_append, List.nodup_append]
    refine ⟨⟨hn, a2, ?_⟩, b2, ?_⟩
    · rintro x hx y hy rfl
      exact ((a3 x).1 hy).2 hx
    · rintro x hx y hy rfl
      rw [← hk] at hx
      exact ((b3 x).1 hy).2 hx
  · intro hn hg
    have h1 := a4 hn hg
    have hg1 : Gapless (base.vocab ++ ext1) := by rw [h1]; exact gapless_append _ _ hg
    have h2 := b4 hn hg1
    have hext : ext1 ++ ext2 = (keys (ext1 ++ ext2)).zipIdx base.vocab.length := by
      rw [hk, List.zipIdx_append, ← h1]
      rw [List.length_append] at h2
      unfold keys at h2 ⊢
      rw [List.length_map, ← h2]
    have hg2 : Gapless (base.vocab ++ ext1 ++ ext2) := by
      rw [List.append_assoc, hext]
      exact gapless_append _ _ hg
    refine ⟨hext, by rw [b1]; exact hg2, ?_⟩
    rw [b1]
    exact hg2.nodup_iff.2 List.nodup_range

/-- **C49** If the vocabulary sizes are known from the configurations and cover the vocabularies, no token of any model is lost. -/
theorem C49_complete (fresh : Tokenizer T → Nat) (cfg : M → Option Nat) (base : Tokenizer T) (ts : List (M × Tokenizer T))
    (h : ∀ e ∈ ts, ∃ n, cfg e.1 = some (n + 1) ∧ ∀ x ∈ e.2.vocab, x.2 < n + 1) (e : M × Tokenizer T) (he : e ∈ ts) (tok : T)
    (htok : tok ∈ keys e.2.vocab) : tok ∈ keys (unionTokenizer fresh cfg base ts).vocab := by
  obtain ⟨_, _, h2, _⟩ := C49_union fresh cfg base ts
  rw [h2]
  right
  obtain ⟨n, hn, hlt⟩ := h e he
  obtain ⟨x, hx, rfl⟩ := List.mem_map.1 htok
  exact ⟨e, he, x.2, by rw [hn]; exact hlt x hx, Or.inl hx⟩

/-- **C49** refuted for models whose configured vocabulary size cannot be read: their added tokens with ids after the model's own vocabulary are lost
(unless another model has them). -/
theorem C49_added_lost (fresh : Tokenizer T → Nat) (cfg : M → Option Nat) (base t : Tokenizer T) (m : M) (hc : cfg m = none)
    (tok : T) (hids : ∀ id, (tok, id) ∈ t.vocab ∨ (tok, id) ∈ t.added → t.model.length ≤ id) (hb : tok ∉ keys base.vocab) :
    tok ∉ keys (unionTokenizer fresh cfg base [(m, t)]).vocab := by
  obtain ⟨_, _, h2, _⟩ := C49_union fresh cfg base [(m, t)]
  rw [h2]
  rintro (h | ⟨e, he, id, h1, h3⟩)
  · exact hb h
  · rw [List.mem_singleton] at he
    subst he
    have := hids id h3
    simp only [hc, orSize, Tokenizer.size] at h1
    omega

/-- Two vocabularies with an overlap, one with an added token. -/
def exA : Tokenizer Nat := { model := [(10, 0), (11, 1), (12, 2)], added := [(99, 3)] }
def exB : Tokenizer Nat := { model := [(12, 0), (13, 1), (10, 2)], added := [(77, 3)] }
def exFresh (t : Tokenizer Nat) : Nat := t.vocab.length

/-- The number of rows the base model's tokenizer is cut to: the configured vocabulary size, or the number of its tokens if that is not
known or 0. -/
def cutSize (cfg : Option Nat) (t : Tokenizer T) : Nat := if cfg = none ∨ cfg = some 0 then t.vocab.length else cfg.getD 0

/-- **C49** The base model's tokenizer, from which the output tokenizer starts, has exactly the tokens whose ids are below the model's vocabulary
size, with the same ids.  Tokens can only be removed from fast BPE tokenizers; without any to remove, the tokenizer is used as it is. -/
theorem C49_stripped (cfg : Option Nat) (t : Tokenizer T) :
    (∀ t', stripped cfg t = .ok t' →
      (∀ e ∈ t.vocab, e.2 < cutSize cfg t → e ∈ t'.vocab) ∧ (∀ e ∈ t'.vocab, e.2 < cutSize cfg t ∧ (e ∈ t.model ∨ e ∈ t.added))) ∧
    ((∀ e ∈ t.vocab, e.2 < cutSize cfg t) → stripped cfg t = .ok t) ∧
    ((∃ e, stripped cfg t = .error e) ↔ (∃ e ∈ t.vocab, cutSize cfg t ≤ e.2) ∧ ¬ (t.fast = true ∧ t.bpe = true)) := by
  have hn : orSize cfg t.vocab.length = cutSize cfg t := by
    unfold orSize cutSize
    rcases cfg with _ | _ | n <;> simp
  unfold stripped
  simp only [hn]
  generalize cutSize cfg t = n
  by_cases h : ∀ e ∈ t.vocab, e.2 < n
  · rw [if_pos (by simpa using h)]
    refine ⟨?_, fun _ => rfl, ?_⟩
    · rintro t' ht
      cases ht
      refine ⟨fun e he _ => he, fun e he => ⟨h e he, ?_⟩⟩
      rcases List.mem_append.1 he with h | h
      · exact Or.inl h
      · exact Or.inr (List.mem_of_mem_filter h)
    · constructor
      · rintro ⟨e, he⟩; cases he
      · rintro ⟨⟨e, he, hle⟩, _⟩
        exact absurd (h e he) (by omega)
  · rw [if_neg (by simpa using h)]
    have h' : ∃ e ∈ t.vocab, n ≤ e.2 := by
      by_contra hc
      exact h (fun e he => by by_contra hlt; exact hc ⟨e, he, by omega⟩)
    by_cases hf : t.fast = false
    · rw [if_pos hf]
      refine ⟨?_, fun hh => absurd hh h, ?_⟩
      · intro t' ht; cases ht
      · exact ⟨fun _ => ⟨h', by simp [hf]⟩, fun _ => ⟨_, rfl⟩⟩
    · rw [if_neg hf]
      by_cases hb : t.bpe = false
      · rw [if_pos hb]
        refine ⟨?_, fun hh => absurd hh h, ?_⟩
        · intro t' ht; cases ht
        · exact ⟨fun _ => ⟨h', by simp [hb]⟩, fun _ => ⟨_, rfl⟩⟩
      · rw [if_neg hb]
        refine ⟨?_, fun hh => absurd hh h, ?_⟩
        · intro t' ht
          cases ht
          constructor
          · intro e he hlt
            unfold Tokenizer.vocab at he ⊢
            simp only [List.mem_append, List.mem_filter] at he ⊢
            rcases he with he | ⟨he, hk⟩
            · exact Or.inl ⟨he, by simpa using hlt⟩
            · refine Or.inr ⟨⟨he, by simpa using hlt⟩, ?_⟩
              simp only [decide_eq_true_eq] at hk ⊢
              intro hm
              apply hk
              obtain ⟨x, hx, hxe⟩ := List.mem_map.1 hm
              exact List.mem_map.2 ⟨x, List.mem_of_mem_filter hx, hxe⟩
          · intro e he
            unfold Tokenizer.vocab at he
            simp only [List.mem_append, List.mem_filter, decide_eq_true_eq] at he
            rcases he with ⟨he, hlt⟩ | ⟨⟨he, hlt⟩, _⟩
            · exact ⟨hlt, Or.inl he⟩
            · exact ⟨hlt, Or.inr he⟩
        · constructor
          · rintro ⟨e, he⟩; cases he
          · rintro ⟨_, hh⟩
            exact absurd ⟨by simpa using hf, by simpa using hb⟩ hh

example : ∃ t', stripped (some 2) (⟨[(10, 0), (11, 1), (12, 2)], [(13, 3)], true, true⟩ : Tokenizer Nat) = .ok t' ∧
    t'.vocab = [(10, 0), (11, 1)] := ⟨_, rfl, rfl⟩

example : NextId exFresh := fun _ _ => rfl
example : Gapless exA.vocab ∧ (keys exA.vocab).Nodup := by
  refine ⟨?_, by decide⟩
  exact List.Perm.refl _
example : (unionTokenizer exFresh (fun _ : Nat => some 4) exA [(0, exA), (1, exB)]).vocab =
    [(10, 0), (11, 1), (12, 2), (99, 3), (13, 4), (77, 5)] := by decide
example : 77 ∉ keys (unionTokenizer exFresh (fun _ : Nat => none) exA [(1, exB)]).vocab := by decide

/-! ## C50 -/

theorem get_mem {A B : Type} [DecidableEq A] (d : List (A × B)) (a : A) (b : B) (h : get d a = some b) : (a, b) ∈ d := by
  unfold get at h
  rw [Option.map_eq_some_iff] at h
  obtain ⟨e, h1, rfl⟩ := h
  have h2 := List.find?_some h1
  simp only [decide_eq_true_eq] at h2
  subst h2
  exact List.mem_of_find?_eq_some h1

theorem get_of_mem {A B : Type} [DecidableEq A] (d : List (A × B)) (hn : (d.map Prod.fst).Nodup) (a : A) (b : B) (h : (a, b) ∈ d) :
    get d a = some b := by
  induction d with
  | nil => simp at h
  | cons e d ih =>
    rw [List.map_cons, List.nodup_cons] at hn
    unfold get at ih ⊢
    by_cases he : e.1 = a
    · rw [List.find?_cons_of_pos (by simpa using he)]
      rcases List.mem_cons.1 h with rfl | h
      · rfl
      · exact absurd (List.mem_map.2 ⟨_, h, he.symm⟩) hn.1
    · rw [List.find?_cons_of_neg (by simpa using he)]
      rcases List.mem_cons.1 h with rfl | h
      · exact absurd rfl he
      · exact ih hn.2 h

theorem get_none {A B : Type} [DecidableEq A] (d : List (A × B)) (a : A) : get d a = none ↔ a ∉ d.map Prod.fst := by
  unfold get
  rw [Option.map_eq_none_iff, List.find?_eq_none]
  simp only [decide_eq_true_eq, List.mem_map, not_exists, not_and]

theorem get_map {A B C : Type} [DecidableEq A] (f : A → B) (l : List A) (a : A) (h : a ∈ l) :
    get (l.map (fun a => (a, f a))) a = some (f a) := by
  unfold get
  induction l with
  | nil => simp at h
  | cons x l ih =>
    by_cases hx : x = a
    · subst hx
      simp
    · rw [List.map_cons, List.find?_cons_of_neg (by simpa using hx)]
      exact ih ((List.mem_cons.1 h).resolve_left (fun h => hx h.symm))

/-- The number of rows a model is taken to have (specification). -/
def rowCount (cfg : Option Nat) (v : List (T × Nat)) : Nat := cfg.getD v.length

theorem permutation_get (cfg : Option Nat) (vocabOut v : List (T × Nat)) (hn : (vocabOut.map Prod.snd).Nodup) (tok : T) (id : Nat)
    (h : (tok, id) ∈ vocabOut) :
    get (permutation cfg vocabOut v) id =
      match get v tok with
      | none => some none
      | some k => if k < rowCount cfg v then some (some k) else none := by
  unfold permutation rowCount
  generalize cfg.getD v.length = n
  induction vocabOut with
  | nil => simp at h
  | cons e vo ih =>
    rw [List.map_cons, List.nodup_cons] at hn
    have hnot : ∀ f : T × Nat → Option (Nat × Option Nat), (∀ e x, f e = some x → x.1 = e.2) → id ∉ vo.map Prod.snd →
        get (vo.filterMap f) id = none := by
      intro f hf hid
      rw [get_none]
      intro hmem
      obtain ⟨x, hx, rfl⟩ := List.mem_map.1 hmem
      obtain ⟨e', he', hfe⟩ := List.mem_filterMap.1 hx
      exact hid (List.mem_map.2 ⟨e', he', (hf e' x hfe).symm⟩)
    have hshape : ∀ e x, (fun e : T × Nat => match get v e.1 with
        | none => some (e.2, none)
        | some orig => if orig ≥ n then none else some (e.2, some orig)) e = some x → x.1 = e.2 := by
      intro e x hx
      simp only at hx
      split at hx
      · cases hx; rfl
      · split at hx
        · cases hx
        · cases hx; rfl
    by_cases he : e.2 = id
    · have heq : e = (tok, id) := by
        rcases List.mem_cons.1 h with h | h
        · exact h.symm
        · exact absurd (List.mem_map.2 ⟨_, h, he.symm⟩) hn.1
      subst heq
      have hrest := hnot _ hshape hn.1
      rw [List.filterMap_cons]
      simp only
      cases hg : get v tok with
      | none => simp [get]
      | some k =>
        simp only
        by_cases hk : k < n
        · rw [if_neg (by omega), if_pos hk]
          simp [get]
        · rw [if_pos (by omega), if_neg hk]
          exact hrest
    · have hmem : (tok, id) ∈ vo := by
        rcases List.mem_cons.1 h with h | h
        · rw [← h] at he
          exact absurd rfl he
        · exact h
      have hrec := ih hn.2 hmem
      rw [List.filterMap_cons]
      split
      · exact hrec
      · rename_i x hx
        have := hshape e x hx
        unfold get at hrec ⊢
        rw [List.find?_cons_of_neg (by simp; rw [this]; exact he)]
        exact hrec

/-- **C50** The permutation of a model gives for each output id the token's id in that model (if it is below the number of rows), or marks the
token as missing if the model does not have it; ids beyond the rows have no entry.  Different tokens never share a row. -/
theorem C50_permutation (cfg : Option Nat) (vocabOut v : List (T × Nat)) (hn : (vocabOut.map Prod.snd).Nodup)
    (hv : (v.map Prod.fst).Nodup) (hvi : (v.map Prod.snd).Nodup) :
    (∀ tok id, (tok, id) ∈ vocabOut →
      (get (permutation cfg vocabOut v) id = some none ↔ tok ∉ keys v) ∧
      (∀ k, get (permutation cfg vocabOut v) id = some (some k) ↔ (tok, k) ∈ v ∧ k < rowCount cfg v) ∧
      (get (permutation cfg vocabOut v) id = none ↔ ∃ k, (tok, k) ∈ v ∧ rowCount cfg v ≤ k)) ∧
    ∀ tok id tok' id' k, (tok, id) ∈ vocabOut → (tok', id') ∈ vocabOut →
      get (permutation cfg vocabOut v) id = some (some k) → get (permutation cfg vocabOut v) id' = some (some k) → tok = tok' := by
  have key : ∀ tok id, (tok, id) ∈ vocabOut →
      (get (permutation cfg vocabOut v) id = some none ↔ tok ∉ keys v) ∧
      (∀ k, get (permutation cfg vocabOut v) id = some (some k) ↔ (tok, k) ∈ v ∧ k < rowCount cfg v) ∧
      (get (permutation cfg vocabOut v) id = none ↔ ∃ k, (tok, k) ∈ v ∧ rowCount cfg v ≤ k) := by
    intro tok id h
    rw [permutation_get cfg vocabOut v hn tok id h]
    have hk : tok ∉ keys v ↔ get v tok = none := (get_none v tok).symm
    cases hg : get v tok with
    | none =>
      have hnot : tok ∉ keys v := hk.2 hg
      have hno : ∀ k, (tok, k) ∉ v := fun k hh => hnot (List.mem_map.2 ⟨_, hh, rfl⟩)
      simp [hnot, hno]
    | some k0 =>
      have hin := get_mem v tok k0 hg
      have hnot : tok ∈ keys v := List.mem_map.2 ⟨_, hin, rfl⟩
      have huniq : ∀ k, (tok, k) ∈ v → k = k0 := fun k hh => by
        have := get_of_mem v hv tok k hh
        rw [hg] at this
        exact (Option.some.inj this).symm
      simp only
      by_cases hlt : k0 < rowCount cfg v
      · rw [if_pos hlt]
        refine ⟨by simp [hnot], ?_, ?_⟩
        · intro k
          simp only [Option.some.injEq]
          constructor
          · rintro rfl
            exact ⟨hin, hlt⟩
          · rintro ⟨h1, _⟩
            exact (huniq k h1).symm
        · simp only [reduceCtorEq, false_iff, not_exists, not_and, not_le]
          intro k hk'
          rw [huniq k hk']
          exact hlt
      · rw [if_neg hlt]
        refine ⟨by simp [hnot], ?_, ?_⟩
        · intro k
          simp only [reduceCtorEq, false_iff, not_and]
          intro h1
          rw [huniq k h1]
          exact hlt
        · simp only [true_iff]
          exact ⟨k0, hin, not_lt.1 hlt⟩
  refine ⟨key, ?_⟩
  intro tok id tok' id' k h1 h2 h3 h4
  have a := ((key tok id h1).2.1 k).1 h3
  have b := ((key tok' id' h2).2.1 k).1 h4
  have := List.inj_on_of_nodup_map hvi a.1 b.1 rfl
  exact congrArg Prod.fst this

/-- The vocabulary of a model as the merge should see it: its tokenizer's, that of the base (without unused tokens) for the base and for models
whose tokenizer cannot be loaded (specification). -/
def vocabOf (load : M → Option (Tokenizer T)) (b : M) (base : Tokenizer T) (m : M) : List (T × Nat) :=
  if m = b then base.vocab else match load m with
    | some t => t.vocab
    | none => base.vocab

theorem get_others (load : M → Option (Tokenizer T)) (b : M) (x : Tokenizer T) (refs : List M) (m : M) (hm : m ∈ refs) :
    get ((b, x) :: (refs.filter (fun m => decide (m ≠ b))).filterMap (fun m => (load m).map (fun t => (m, t)))) m =
      if m = b then some x else load m := by
  unfold get
  by_cases h : m = b
  · subst h
    simp
  · rw [List.find?_cons_of_neg (by simpa using fun hh => h hh.symm), if_neg h]
    have hgen : ∀ l : List M, m ∈ l → ((l.filterMap (fun m => (load m).map (fun t => (m, t)))).find? (fun e => decide (e.1 = m))).map Prod.snd =
        load m := by
      intro l hl
      induction l with
      | nil => simp at hl
      | cons a l ih =>
        rw [List.filterMap_cons]
        by_cases ha : a = m
        · subst ha
          cases hla : load a with
          | none =>
            simp only [Option.map_none]
            by_cases hin : a ∈ l
            · rw [ih hin, hla]
            · rw [Option.map_eq_none_iff, List.find?_eq_none]
              rintro y hy
              obtain ⟨z, hz, hz2⟩ := List.mem_filterMap.1 hy
              rw [Option.map_eq_some_iff] at hz2
              obtain ⟨t, _, rfl⟩ := hz2
              simp only [decide_eq_true_eq]
              rintro rfl
              exact hin hz
          | some t => simp
        · have hin := (List.mem_cons.1 hl).resolve_left (fun hh => ha hh.symm)
          cases hla : load a with
          | none => simp only [Option.map_none]; exact ih hin
          | some t =>
            simp only [Option.map_some]
            rw [List.find?_cons_of_neg (by simpa using ha)]
            exact ih hin
    exact hgen _ (by simp [hm, h])

/-- **C50** Through `build_tokenizer`: each referenced model has a permutation, and it is the one described by `C50_permutation` for the model's own
vocabulary - unless tokens are added to the base model's tokenizer itself, see `C50_base_gains_tokens`. -/
theorem C50_build_partial (fresh : Tokenizer T → Nat) (load : M → Option (Tokenizer T)) (cfg : M → Option Nat) (b : M) (refs : List M)
    (source : Source M) (addTokens : List T) (tb base : Tokenizer T) (hl : load b = some tb) (hs : stripped (cfg b) tb = .ok base)
    (hsrc : (∃ m, source = .model m) ∨ source = .union ∨ (source = .base ∧ ∀ tok ∈ addTokens, tok ∈ keys base.vocab)) (info : Info T M)
    (h : buildTokenizer fresh load cfg (some b) refs source addTokens = .ok info) (m : M) (hm : m ∈ refs) :
    get info.permutations m = some (permutation (cfg m) info.vocab (vocabOf load b base m)) := by
  have hsame : ∀ toks : List T, (∀ tok ∈ toks, tok ∈ keys base.vocab) → toks.foldl (addToken fresh) base = base := by
    intro toks ht
    induction toks with
    | nil => rfl
    | cons a toks ih =>
      rw [List.foldl_cons]
      have : addToken fresh base a = base := by
        unfold addToken
        exact if_pos (ht a (by simp))
      rw [this]
      exact ih (fun x hx => ht x (by simp [hx]))
  have fin : ∀ out : Tokenizer T, get (refs.map (fun m => (m, permutation (cfg m) out.vocab
      (match get ((b, base) :: (refs.filter (fun m => decide (m ≠ b))).filterMap (fun m => (load m).map (fun t => (m, t)))) m with
        | some t => t.vocab
        | none => base.vocab)))) m = some (permutation (cfg m) out.vocab (vocabOf load b base m)) := by
    intro out
    rw [get_map (C := Unit) _ _ _ hm, get_others load b base refs m hm]
    unfold vocabOf
    by_cases hmb : m = b
    · simp [hmb]
    · simp only [hmb, if_false]
  unfold buildTokenizer at h
  simp only [hl, hs] at h
  rcases hsrc with ⟨sm, rfl⟩ | rfl | ⟨rfl, hadd⟩
  · simp only at h
    split at h
    · cases h
    · rename_i out hout
      cases h
      exact fin _
  · simp only at h
    cases h
    exact fin _
  · simp only at h
    rw [hsame addTokens hadd] at h
    cases h
    exact fin _

/-- **C50** refuted for tokens added to the base model's tokenizer (`source: base`): the token counts as present in the base model, at the new id
- a row of the base that does not belong to any token, or, if the base has no such row, no entry at all (an error when embeddings are built).  It is never
marked as missing. -/
theorem C50_base_gains_tokens (fresh : Tokenizer T → Nat) (load : M → Option (Tokenizer T)) (cfg : M → Option Nat) (b : M) (refs : List M)
    (hb : b ∈ refs) (tok : T) (tb base : Tokenizer T) (hl : load b = some tb) (hs : stripped (cfg b) tb = .ok base)
    (hids : (base.vocab.map Prod.snd).Nodup) (hnew : fresh base ∉ base.vocab.map Prod.snd)
    (htok : tok ∉ keys base.vocab) (n : Nat) (hc : cfg b = some n) :
    ∃ info p, buildTokenizer fresh load cfg (some b) refs .base [tok] = .ok info ∧ info.vocab = base.vocab ++ [(tok, fresh base)] ∧
      get info.permutations b = some p ∧ get p (fresh base) = if fresh base < n then some (some (fresh base)) else none := by
  have hv : (addToken fresh base tok).vocab = base.vocab ++ [(tok, fresh base)] := by rw [addToken_vocab, if_neg htok]
  unfold buildTokenizer
  simp only [hl, hs, List.foldl_cons, List.foldl_nil]
  refine ⟨_, permutation (cfg b) (addToken fresh base tok).vocab (addToken fresh base tok).vocab, rfl, hv, ?_, ?_⟩
  · simp only
    rw [get_map (C := Unit) _ _ _ hb, get_others load b _ refs b hb, if_pos rfl]
  · rw [hv]
    have hnd : ((base.vocab ++ [(tok, fresh base)]).map Prod.snd).Nodup := by
      rw [List.map_append, List.nodup_append]
      refine ⟨hids, by simp, ?_⟩
      rintro x hx y hy rfl
      simp only [List.map_cons, List.map_nil, List.mem_singleton] at hy
      subst hy
      exact hnew hx
    rw [permutation_get (cfg b) _ _ hnd tok (fresh base) (by simp)]
    have hg : get (base.vocab ++ [(tok, fresh base)]) tok = some (fresh base) := by
      unfold get
      rw [List.find?_append]
      have : base.vocab.find? (fun e => decide (e.1 = tok)) = none := by
        rw [List.find?_eq_none]
        intro e he hh
        exact htok (List.mem_map.2 ⟨e, he, by simpa using hh⟩)
      rw [this]
      simp
    rw [hg, hc]
    rfl

/-- The hypotheses are met by the vocabularies above: two models, the token 50 added to the base's tokenizer. -/
example : ∃ info, buildTokenizer exFresh (fun m : Nat => some (if m = 0 then exA else exB)) (fun _ => some 8) (some 0) [0, 1] .base [50] = .ok info ∧
    (get info.permutations 0).bind (fun p => get p 4) = some (some 4) := by
  refine ⟨_, rfl, by decide⟩

example : ∃ info, buildTokenizer exFresh (fun m : Nat => some (if m = 0 then exA else exB)) (fun _ => some 8) (some 0) [0, 1] .union [50] = .ok info ∧
    get info.permutations 0 = some [(0, some 0), (1, some 1), (2, some 2), (3, some 3), (4, none), (5, none), (6, none)] ∧
    get info.permutations 1 = some [(0, some 2), (1, none), (2, some 0), (3, none), (4, some 1), (5, some 3), (6, none)] := by
  refine ⟨_, rfl, by decide, by decide⟩

/-! ## C53 -/

/-- **C53** The embedding matrices and the configuration agree on the padded size; it is at least the number of tokens, and with a padding
multiple it is the smallest multiple of it that is. -/
theorem C53_padding (n : Nat) (pad : Option Nat) :
    padded n pad = paddedConfig n pad ∧ n ≤ padded n pad ∧ (pad = none ∨ pad = some 0 → padded n pad = n) ∧
    ∀ p, pad = some p → 0 < p → p ∣ padded n pad ∧ padded n pad < n + p ∧ ∀ k, p ∣ k → n ≤ k → padded n pad ≤ k := by
  cases pad with
  | none => simp [padded, paddedConfig]
  | some p =>
    unfold padded paddedConfig
    simp only
    by_cases h : p ≠ 0 ∧ n % p ≠ 0
    · rw [if_pos h]
      obtain ⟨hp, hm⟩ := h
      have h1 := Nat.div_add_mod n p
      have h2 := Nat.mod_lt n (Nat.pos_of_ne_zero hp)
      have h3 : (n / p + 1) * p = p * (n / p) + p := by rw [Nat.add_mul, Nat.one_mul, Nat.mul_comm]
      refine ⟨?_, by omega, ?_, ?_⟩
      · rw [if_pos ⟨hp, hm⟩]
        omega
      · rintro (h | h)
        · cases h
        · cases h; exact absurd rfl hp
      · rintro q hq hpos
        cases hq
        refine ⟨⟨n / p + 1, Nat.mul_comm _ _⟩, by omega, ?_⟩
        rintro k ⟨c, rfl⟩ hk
        have : n / p < c := by
          by_contra hcon
          have h4 : p * c ≤ p * (n / p) := Nat.mul_le_mul_left _ (by omega)
          omega
        rw [Nat.mul_comm p c]
        exact Nat.mul_le_mul_right _ this
    · rw [if_neg h, if_neg h]
      refine ⟨rfl, le_refl _, fun _ => rfl, ?_⟩
      rintro q hq hpos
      cases hq
      have : n % p = 0 := by
        by_contra hh
        exact h ⟨by omega, hh⟩
      exact ⟨Nat.dvd_of_mod_eq_zero this, by omega, fun k _ hk => hk⟩

example : padded 32003 (some 8) = 32008 ∧ padded 32000 (some 8) = 32000 := by decide

/-! ## C54 -/

open Verif.ModelRef (Str)

theorem prefixLoop_mem (ws : Char → Bool) (allow : Bool) (marker : Option Marker) (s : Str) (n : Nat) (hn : n ≤ s.length) (q : NToken) :
    q ∈ prefixLoop ws allow marker s n ↔
      q.1 = marker ∧ q.2 ≠ [] ∧ q.2.length ≤ n ∧ q.2 <+: s ∧ (allow = true ∨ ∃ c ∈ q.2, ws c = false) := by
  induction n with
  | zero =>
    simp only [prefixLoop, List.not_mem_nil, false_iff]
    rintro ⟨_, h2, h3, _⟩
    exact h2 (List.length_eq_zero_iff.1 (by omega))
  | succ n ih =>
    unfold prefixLoop
    by_cases hb : allow = false ∧ (s.take (n + 1)).all ws
    · rw [if_pos hb]
      simp only [List.not_mem_nil, false_iff]
      rintro ⟨_, h2, h3, h4, h5⟩
      rcases h5 with h5 | ⟨c, hc, hw⟩
      · rw [hb.1] at h5; cases h5
      · have hpre : q.2 <+: s.take (n + 1) := by
          rw [List.prefix_take_iff]
          exact ⟨h4, h3⟩
        have := List.all_eq_true.1 hb.2 c (hpre.subset hc)
        rw [hw] at this
        cases this
    · rw [if_neg hb, List.mem_cons, ih (by omega)]
      have hlen : (s.take (n + 1)).length = n + 1 := by rw [List.length_take]; omega
      constructor
      · rintro (rfl | ⟨h1, h2, h3, h4, h5⟩)
        · refine ⟨rfl, ?_, by rw [hlen], List.take_prefix _ _, ?_⟩
          · intro hh
            simp only at hh
            rw [hh] at hlen
            simp at hlen
          · by_cases ha : allow = true
            · exact Or.inl ha
            · right
              by_contra hcon
              push Not at hcon
              apply hb
              refine ⟨by simpa using ha, ?_⟩
              rw [List.all_eq_true]
              intro c hc
              have := hcon c hc
              simpa using this
        · exact ⟨h1, h2, by omega, h4, h5⟩
      · rintro ⟨h1, h2, h3, h4, h5⟩
        by_cases hl : q.2.length = n + 1
        · left
          have := List.prefix_iff_eq_take.1 h4
          rw [hl] at this
          exact Prod.ext h1 this
        · exact Or.inr ⟨h1, h2, by omega, h4, h5⟩

theorem prefixLoop_desc (ws : Char → Bool) (allow : Bool) (marker : Option Marker) (s : Str) (n : Nat) (hn : n ≤ s.length) :
    (prefixLoop ws allow marker s n).Pairwise (fun a b => b.2.length < a.2.length) := by
  induction n with
  | zero => exact List.Pairwise.nil
  | succ n ih =>
    unfold prefixLoop
    split
    · exact List.Pairwise.nil
    · refine List.Pairwise.cons ?_ (ih (by omega))
      intro q hq
      have := ((prefixLoop_mem ws allow marker s n (by omega) q).1 hq).2.2.1
      simp only [List.length_take]
      omega

/-- **C54** The prefixes tried for a token are its non-empty proper prefixes under the same marker, longest first, without the blank ones unless
these are allowed.  Special tokens have none. -/
theorem C54_prefixes (ws : Char → Bool) (allow : Bool) (t : NToken) :
    (t.1 = some .special → tokenPrefixes ws allow t = []) ∧
    (t.1 ≠ some .special → ∀ q, q ∈ tokenPrefixes ws allow t ↔
      q.1 = t.1 ∧ q.2 ≠ [] ∧ q.2 ≠ t.2 ∧ q.2 <+: t.2 ∧ (allow = true ∨ ∃ c ∈ q.2, ws c = false)) ∧
    (tokenPrefixes ws allow t).Pairwise (fun a b => b.2.length < a.2.length) := by
  refine ⟨fun h => by simp [tokenPrefixes, h], fun h q => ?_, ?_⟩
  · unfold tokenPrefixes
    rw [if_neg h, prefixLoop_mem _ _ _ _ _ (by omega)]
    constructor
    · rintro ⟨h1, h2, h3, h4, h5⟩
      refine ⟨h1, h2, ?_, h4, h5⟩
      intro hh
      rw [hh] at h3
      rw [hh] at h2
      have := List.length_pos_iff.2 h2
      omega
    · rintro ⟨h1, h2, h3, h4, h5⟩
      refine ⟨h1, h2, ?_, h4, h5⟩
      have hle := h4.length_le
      have : q.2.length ≠ t.2.length := fun hh => h3 (h4.eq_of_length hh)
      omega
  · unfold tokenPrefixes
    split
    · exact List.Pairwise.nil
    · exact prefixLoop_desc _ _ _ _ _ (by omega)

/-- **C54** Normalization: a word-start token turns into a marked token whose text is a blank and the rest; an ordinary token stays as it is; only
special tokens lose their text.  Different tokens are normalized differently unless they are special tokens of the same kind. -/
theorem C54_normalize (special : List (Str × List Str)) (wordStart : Str) (tok tok' : Str) :
    (∀ rest, tok = wordStart ++ rest → normalize special wordStart tok = (some .wordStart, rest) ∧
      unnormalize (normalize special wordStart tok) = ' ' :: rest) ∧
    (¬ wordStart <+: tok → (∀ e ∈ special, tok ∉ e.2) →
      normalize special wordStart tok = (none, tok) ∧ unnormalize (normalize special wordStart tok) = tok) ∧
    (¬ wordStart <+: tok → (∃ e ∈ special, tok ∈ e.2) → ∃ e ∈ special, tok ∈ e.2 ∧
      normalize special wordStart tok = (some .special, e.1)) ∧
    (normalize special wordStart tok = normalize special wordStart tok' → tok = tok' ∨
      ∃ e ∈ special, ∃ e' ∈ special, tok ∈ e.2 ∧ tok' ∈ e'.2 ∧ e.1 = e'.1) := by
  have hws : ∀ t rest, t = wordStart ++ rest → normalize special wordStart t = (some .wordStart, rest) := by
    rintro _ rest rfl
    unfold normalize
    rw [if_pos (by rw [List.isPrefixOf_iff_prefix]; exact List.prefix_append _ _), List.drop_left]
  have hord : ∀ t, ¬ wordStart <+: t → (∀ e ∈ special, t ∉ e.2) → normalize special wordStart t = (none, t) := by
    intro t h1 h2
    unfold normalize
    rw [if_neg (by rwa [List.isPrefixOf_iff_prefix])]
    have : special.find? (fun e => decide (t ∈ e.2)) = none := by
      rw [List.find?_eq_none]
      intro e he
      simpa using h2 e he
    rw [this]
  have hsp : ∀ t, ¬ wordStart <+: t → (∃ e ∈ special, t ∈ e.2) → ∃ e ∈ special, t ∈ e.2 ∧ normalize special wordStart t = (some .special, e.1) := by
    rintro t h1 ⟨e, he, hte⟩
    unfold normalize
    rw [if_neg (by rwa [List.isPrefixOf_iff_prefix])]
    cases hf : special.find? (fun e => decide (t ∈ e.2)) with
    | none =>
      rw [List.find?_eq_none] at hf
      exact absurd hte (by simpa using hf e he)
    | some e' => exact ⟨e', List.mem_of_find?_eq_some hf, by simpa using List.find?_some hf, rfl⟩
  refine ⟨?_, ?_, hsp tok, ?_⟩
  · intro rest h
    rw [hws tok rest h]
    exact ⟨rfl, rfl⟩
  · intro h1 h2
    rw [hord tok h1 h2]
    exact ⟨rfl, rfl⟩
  · intro heq
    by_cases h1 : wordStart <+: tok
    · obtain ⟨r, rfl⟩ := h1
      rw [hws _ r rfl] at heq
      by_cases h2 : wordStart <+: tok'
      · obtain ⟨r', rfl⟩ := h2
        rw [hws _ r' rfl] at heq
        cases heq
        exact Or.inl rfl
      · by_cases h3 : ∃ e ∈ special, tok' ∈ e.2
        · obtain ⟨e, _, _, h4⟩ := hsp tok' h2 h3
          rw [h4] at heq
          cases heq
        · push Not at h3
          rw [hord tok' h2 h3] at heq
          cases heq
    · by_cases h3 : ∃ e ∈ special, tok ∈ e.2
      · obtain ⟨e, he, hte, h4⟩ := hsp tok h1 h3
        rw [h4] at heq
        by_cases h2 : wordStart <+: tok'
        · obtain ⟨r', rfl⟩ := h2
          rw [hws _ r' rfl] at heq
          cases heq
        · by_cases h5 : ∃ e ∈ special, tok' ∈ e.2
          · obtain ⟨e', he', hte', h6⟩ := hsp tok' h2 h5
            rw [h6] at heq
            exact Or.inr ⟨e, he, e', he', hte, hte', congrArg Prod.snd heq⟩
          · push Not at h5
            rw [hord tok' h2 h5] at heq
            cases heq
      · push Not at h3
        rw [hord tok h1 h3] at heq
        by_cases h2 : wordStart <+: tok'
        · obtain ⟨r', rfl⟩ := h2
          rw [hws _ r' rfl] at heq
          cases heq
        · by_cases h5 : ∃ e ∈ special, tok' ∈ e.2
          · obtain ⟨e', _, _, h6⟩ := hsp tok' h2 h5
            rw [h6] at heq
            cases heq
          · push Not at h5
            rw [hord tok' h2 h5] at heq
            exact Or.inl (congrArg Prod.snd heq)

/-- **C54** In the normalized vocabulary every token that is not special is found under its own id. -/
theorem C54_vocabulary (special : List (Str × List Str)) (wordStart : Str) (vocab : List (Str × Nat)) (hn : (vocab.map Prod.fst).Nodup)
    (tok : Str) (id : Nat) (h : (tok, id) ∈ vocab) (hs : ∀ e ∈ special, tok ∉ e.2) :
    normalizedVocab special wordStart vocab (normalize special wordStart tok) = some id := by
  unfold normalizedVocab lastWins
  have huniq : ∀ e ∈ vocab, normalize special wordStart e.1 = normalize special wordStart tok → e = (tok, id) := by
    intro e he heq
    rcases (C54_normalize special wordStart e.1 tok).2.2.2 heq with h1 | ⟨_, _, e', he', _, h2, _⟩
    · have := get_of_mem vocab hn tok id h
      have h3 := get_of_mem vocab hn e.1 e.2 he
      rw [h1, this] at h3
      cases h3
      exact Prod.ext h1 rfl
    · exact absurd h2 (hs e' he')
  have hmem : (normalize special wordStart tok, id) ∈ (vocab.map (fun e => (normalize special wordStart e.1, e.2))).reverse := by
    rw [List.mem_reverse]
    exact List.mem_map.2 ⟨_, h, rfl⟩
  cases hg : get (vocab.map (fun e => (normalize special wordStart e.1, e.2))).reverse (normalize special wordStart tok) with
  | none =>
    rw [get_none] at hg
    exact absurd (List.mem_map.2 ⟨_, hmem, rfl⟩) hg
  | some k =>
    have := get_mem _ _ _ hg
    rw [List.mem_reverse] at this
    obtain ⟨e, he, heq⟩ := List.mem_map.1 this
    have h1 := huniq e he (congrArg Prod.fst heq)
    have h2 := congrArg Prod.snd heq
    rw [h1] at h2
    exact congrArg some h2.symm

/-- **C54** Two special tokens of one kind collide: the first one's id is lost. -/
theorem C54_special_collision (wordStart kind a b : Str) (i j : Nat) (ha : ¬ wordStart <+: a) (hb : ¬ wordStart <+: b) :
    normalizedVocab [(kind, [a, b])] wordStart [(a, i), (b, j)] (normalize [(kind, [a, b])] wordStart a) = some j := by
  have h1 : normalize [(kind, [a, b])] wordStart a = (some .special, kind) := by
    unfold normalize
    rw [if_neg (by rwa [List.isPrefixOf_iff_prefix])]
    simp
  have h2 : normalize [(kind, [a, b])] wordStart b = (some .special, kind) := by
    unfold normalize
    rw [if_neg (by rwa [List.isPrefixOf_iff_prefix])]
    simp
  unfold normalizedVocab lastWins
  simp [h1, h2, get]

example : normalize [("bos".toList, ["<s>".toList])] ['_'] "_the".toList = (some .wordStart, "the".toList) ∧
    tokenPrefixes (fun c => c == ' ') false (some .wordStart, "the".toList) =
      [(some .wordStart, "th".toList), (some .wordStart, "t".toList)] := by decide

end Verif.Tok
