import Verif.Props.WholeTokPlan
import Verif.Props.Embed
import Verif.Props.Vocab

/-! # C115: the rows of re-indexed embeddings, in terms of the models' vocabularies -/

set_option linter.unusedSectionVars false

namespace Verif.WholeTok

open Verif.ModelRef (Str Ref)
open Verif.Tensor (Tensor)
open Verif.Tok (Tokenizer Info TokCfg TokSource Source Emb Gapless keys padded)

section
variable {K : Type} [Field K]

/-! ## Specification -/

/-- Row `k` of a matrix. -/
def rowAt (t : Tensor K) (k : Nat) : Nat → K := fun j => t.get (k * t.shape.getD 1 0 + j)

/-- The row model `m` has for a token. -/
def Has (vocab : Ref → List (Str × Nat)) (mats : List (Ref × Tensor K)) (m : Ref) (tok : Str) (r : Nat → K) : Prop :=
  ∃ t k, (m, t) ∈ mats ∧ (tok, k) ∈ vocab m ∧ r = rowAt t k

/-- The row a configured source stands for: the row of the token itself in another model, or the row of an id or of another token there. -/
inductive SourceIs (vocab : Ref → List (Str × Nat)) (mats : List (Ref × Tensor K)) (tok : Str) : TokSource Str Ref → (Nat → K) → Prop
  | model (m : Ref) (r : Nat → K) : Has vocab mats m tok r → SourceIs vocab mats tok (.model m) r
  | token (m : Ref) (tok' : Str) (r : Nat → K) : Has vocab mats m tok' r → SourceIs vocab mats tok (.row m (.inr tok')) r
  | id (m : Ref) (t : Tensor K) (i : Nat) : (m, t) ∈ mats → i < t.shape.getD 0 0 → SourceIs vocab mats tok (.row m (.inl i)) (rowAt t i)

/-- The mean of rows. -/
def meanOf (rs : List (Nat → K)) : Nat → K := fun j => (rs.map (fun r => r j)).sum / (rs.length : K)

/-- What the row of a token should be in the re-indexed embedding of model `m`: its own row if it has the token, unless a source is forced; for a token with a
configured source, that, where the source is forced or the model lacks the token; otherwise, where the model lacks the token, the row of the base model or, if the
base model has none (or there is no base model), the mean of the rows of the models that have it. -/
inductive TokenRow (tokens : List (Str × TokCfg Str Ref)) (base : Option Ref) (vocab : Ref → List (Str × Nat)) (mats : List (Ref × Tensor K)) (m : Ref)
    (tok : Str) : (Nat → K) → Prop
  | own (r : Nat → K) : (∀ c, (tok, c) ∈ tokens → c.force = false) → Has vocab mats m tok r → TokenRow tokens base vocab mats m tok r
  | source (c : TokCfg Str Ref) (r : Nat → K) : (tok, c) ∈ tokens → c.force = true ∨ tok ∉ keys (vocab m) → SourceIs vocab mats tok c.source r →
      TokenRow tokens base vocab mats m tok r
  | base (b : Ref) (r : Nat → K) : tok ∉ tokens.map Prod.fst → tok ∉ keys (vocab m) → base = some b → Has vocab mats b tok r →
      TokenRow tokens base vocab mats m tok r
  | mean (ms : List Ref) (rs : List (Nat → K)) : tok ∉ tokens.map Prod.fst → tok ∉ keys (vocab m) → (∀ b, base = some b → tok ∉ keys (vocab b)) →
      ms.Nodup → (∀ m', m' ∈ ms ↔ m' ∈ mats.map Prod.fst ∧ tok ∈ keys (vocab m')) → List.Forall₂ (fun m' r => Has vocab mats m' tok r) ms rs →
      TokenRow tokens base vocab mats m tok (meanOf rs)

/-- A tokenizer was built for these settings: `b` is the base model (the first one referenced, if none is given), its tokenizer can be loaded, and no tokens are
added to its own tokenizer (see C50 for that). -/
structure Built (fresh : Tokenizer Str → Nat) (load : Ref → Option (Tokenizer Str)) (cfg : Ref → Option Nat) (base : Option Ref) (refs : List Ref)
    (st : TokSettings) (b : Ref) (tb strip : Tokenizer Str) (info : Info Str Ref) : Prop where
  isBase : base = some b ∨ base = none ∧ refs.head? = some b
  loads : load b = some tb
  strips : Tok.stripped (cfg b) tb = .ok strip
  source : (∃ m, st.source = .model m) ∨ st.source = .union ∨ (st.source = .base ∧ ∀ tok ∈ st.tokens.map Prod.fst, tok ∈ keys strip.vocab)
  built : Tok.buildTokenizer fresh load cfg base refs st.source (st.tokens.map Prod.fst) = .ok info

/-- The matrices fit the vocabularies: all have one width and belong to models referenced; every token of a model's vocabulary has a row, below the
configured vocabulary size. -/
structure Fits (cfg : Ref → Option Nat) (refs : List Ref) (vocab : Ref → List (Str × Nat)) (mats : List (Ref × Tensor K)) (width : Nat) : Prop where
  once : (mats.map Prod.fst).Nodup
  known : ∀ e ∈ mats, e.1 ∈ refs
  shape : ∀ e ∈ mats, ∃ n, e.2.shape = [n, width] ∧ ∀ x ∈ vocab e.1, x.2 < n ∧ x.2 < (cfg e.1).getD (vocab e.1).length
  keys : ∀ e ∈ mats, (Tok.keys (vocab e.1)).Nodup

/-- What a merge method is given for an embedding: a matrix for each model, with as many rows as the output has tokens (padded), all of one width; the row of a
token is what it should be, and rows after the tokens are the mean of those before. -/
def Reindexed (st : TokSettings) (base : Option Ref) (vocab : Ref → List (Str × Nat)) (out : List (Str × Nat)) (mats : List (Ref × Tensor K)) (width : Nat)
    (ts : List (Ref × Tensor K)) : Prop :=
  (ts.map Prod.fst).Perm (mats.map Prod.fst) ∧ ∀ e ∈ ts,
    e.2.shape = [padded out.length st.pad, width] ∧
    (∀ tok id, (tok, id) ∈ out → ∃ r, TokenRow st.tokens base vocab mats e.1 tok r ∧ ∀ j < width, rowAt e.2 id j = r j) ∧
    ∀ k, out.length ≤ k → k < padded out.length st.pad → ∀ j < width,
      rowAt e.2 k j = ((List.range out.length).map (fun i => rowAt e.2 i j)).sum / (out.length : K)

/-! ## Lemmas -/

theorem get_mem_iff {A B : Type} [DecidableEq A] (v : List (A × B)) (hn : (v.map Prod.fst).Nodup) (a : A) (b : B) :
    Tok.get v a = some b ↔ (a, b) ∈ v := by
  unfold Tok.get
  induction v with
  | nil => simp
  | cons e v ih =>
    obtain ⟨x, y⟩ := e
    simp only [List.map_cons, List.nodup_cons] at hn
    by_cases h : x = a
    · subst h
      rw [List.find?_cons_of_pos (by simp)]
      simp only [Option.map_some, Option.some.injEq, List.mem_cons, Prod.mk.injEq, true_and]
      constructor
      · intro h; exact Or.inl h.symm
      · rintro (h | h)
        · exact h.symm
        · exact absurd (List.mem_map.2 ⟨_, h, rfl⟩) hn.1
    · rw [List.find?_cons_of_neg (by simpa using h), ih hn.2]
      simp only [List.mem_cons, Prod.mk.injEq]
      constructor
      · intro hh; exact Or.inr hh
      · rintro (⟨hh, _⟩ | hh)
        · exact absurd hh.symm h
        · exact hh

theorem get_none_iff {A B : Type} [DecidableEq A] (v : List (A × B)) (a : A) : Tok.get v a = none ↔ a ∉ v.map Prod.fst := by
  unfold Tok.get
  rw [Option.map_eq_none_iff, List.find?_eq_none]
  constructor
  · intro h hm
    obtain ⟨e, he, rfl⟩ := List.mem_map.1 hm
    exact h e he (by simp)
  · intro h e he
    simp only [decide_eq_true_eq]
    rintro rfl
    exact h (List.mem_map.2 ⟨_, he, rfl⟩)

/-- The vocabulary of each model. -/
theorem Built.perm {fresh : Tokenizer Str → Nat} {load : Ref → Option (Tokenizer Str)} {cfg : Ref → Option Nat} {base : Option Ref} {refs : List Ref}
    {st : TokSettings} {b : Ref} {tb strip : Tokenizer Str} {info : Info Str Ref} (h : Built fresh load cfg base refs st b tb strip info) (m : Ref)
    (hm : m ∈ refs) : Tok.get info.permutations m = some (Tok.permutation (cfg m) info.vocab (Tok.vocabOf load b strip m)) := by
  refine Tok.C50_build_partial fresh load cfg b refs st.source _ tb strip h.loads h.strips h.source info ?_ m hm
  have := h.built
  rcases h.isBase with hb | ⟨hb, hr⟩
  · rw [hb] at this; exact this
  · rw [hb] at this
    unfold Tok.buildTokenizer at this ⊢
    simp only [hr] at this
    exact this

theorem Built.orig {fresh : Tokenizer Str → Nat} {load : Ref → Option (Tokenizer Str)} {cfg : Ref → Option Nat} {base : Option Ref} {refs : List Ref}
    {st : TokSettings} {b : Ref} {tb strip : Tokenizer Str} {info : Info Str Ref} (h : Built fresh load cfg base refs st b tb strip info) (m : Ref)
    (hm : m ∈ refs) : Tok.get info.originalVocabs m = if m = b then some strip.vocab else (load m).map (·.vocab) := by
  have hsame : ∀ toks : List Str, (∀ tok ∈ toks, tok ∈ keys strip.vocab) → toks.foldl (Tok.addToken fresh) strip = strip := by
    intro toks ht
    induction toks with
    | nil => rfl
    | cons a toks ih =>
      rw [List.foldl_cons]
      have : Tok.addToken fresh strip a = strip := by
        unfold Tok.addToken
        exact if_pos (ht a (by simp))
      rw [this]
      exact ih (fun x hx => ht x (by simp [hx]))
  have fin : Tok.get (((b, strip) :: (refs.filter (fun m => decide (m ≠ b))).filterMap (fun m => (load m).map (fun t => (m, t)))).map
      (fun e => (e.1, e.2.vocab))) m = if m = b then some strip.vocab else (load m).map (·.vocab) := by
    have hg := Tok.get_others load b strip refs m hm
    have hmap : ∀ l : List (Ref × Tokenizer Str), Tok.get (l.map (fun e => (e.1, e.2.vocab))) m = (Tok.get l m).map (·.vocab) := by
      intro l
      unfold Tok.get
      rw [List.find?_map]
      simp [Function.comp_def]
    rw [hmap, hg]
    split <;> rfl
  have hbu := h.built
  have hbu : Tok.buildTokenizer fresh load cfg (some b) refs st.source (st.tokens.map Prod.fst) = .ok info := by
    rcases h.isBase with hb | ⟨hb, hr⟩
    · rw [hb] at hbu; exact hbu
    · rw [hb] at hbu
      unfold Tok.buildTokenizer at hbu ⊢
      simp only [hr] at hbu
      exact hbu
  unfold Tok.buildTokenizer at hbu
  simp only [h.loads, h.strips] at hbu
  rcases h.source with ⟨sm, hs⟩ | hs | ⟨hs, hadd⟩
  · rw [hs] at hbu
    simp only at hbu
    split at hbu
    · cases hbu
    · cases hbu
      exact fin
  · rw [hs] at hbu
    simp only at hbu
    cases hbu
    exact fin
  · rw [hs] at hbu
    simp only at hbu
    rw [hsame _ hadd] at hbu
    cases hbu
    exact fin

/-- The matrices as lists of rows. -/
theorem embs_ok (cfg : Ref → Option Nat) (refs : List Ref) (vocab : Ref → List (Str × Nat)) (mats : List (Ref × Tensor K)) (width : Nat)
    (hf : ∀ e ∈ mats, ∃ n, e.2.shape = [n, width]) :
    mats.mapM (fun e => (embOf e.2).map (fun x => (e.1, x))) =
      .ok (mats.map (fun e => (e.1, (⟨width, (List.range (e.2.shape.getD 0 0)).map (rowAt e.2)⟩ : Emb K)))) := by
  rw [Tok.mapM_ok]
  rw [List.forall₂_map_right_iff, List.forall₂_same]
  intro e he
  obtain ⟨n, hn⟩ := hf e he
  have hr : rowAt e.2 = fun i j => e.2.get (i * width + j) := by
    funext i j
    simp [rowAt, hn]
  simp only [embOf, hn, Except.map, hr, List.getD_cons_zero]

theorem get_embs (mats : List (Ref × Tensor K)) (width : Nat) (hn : (mats.map Prod.fst).Nodup) (m : Ref) (t : Tensor K) (hm : (m, t) ∈ mats) :
    Tok.get (mats.map (fun e => (e.1, (⟨width, (List.range (e.2.shape.getD 0 0)).map (rowAt e.2)⟩ : Emb K)))) m =
      some ⟨width, (List.range (t.shape.getD 0 0)).map (rowAt t)⟩ := by
  rw [get_mem_iff _ (by simpa [List.map_map, Function.comp_def] using hn)]
  exact List.mem_map.2 ⟨_, hm, rfl⟩

/-- The setting of the lemmas below. -/
abbrev embsOf (mats : List (Ref × Tensor K)) (width : Nat) : List (Ref × Emb K) :=
  mats.map (fun e => (e.1, (⟨width, (List.range (e.2.shape.getD 0 0)).map (rowAt e.2)⟩ : Emb K)))

theorem get_embs_none (mats : List (Ref × Tensor K)) (width : Nat) (m : Ref) (hm : m ∉ mats.map Prod.fst) :
    Tok.get (embsOf mats width) m = none := by
  rw [get_none_iff]
  simpa [embsOf, List.map_map, Function.comp_def] using hm

section
variable {fresh : Tokenizer Str → Nat} {load : Ref → Option (Tokenizer Str)} {cfg : Ref → Option Nat} {base : Option Ref} {refs : List Ref}
  {st : TokSettings} {b : Ref} {tb strip : Tokenizer Str} {info : Info Str Ref}

theorem marked_at (h : Built fresh load cfg base refs st b tb strip info) (hg : Gapless info.vocab) (mats : List (Ref × Tensor K)) (width : Nat)
    (hf : Fits cfg refs (Tok.vocabOf load b strip) mats width) (m : Ref) (t : Tensor K) (hm : (m, t) ∈ mats) (tok : Str) (id : Nat)
    (hin : (tok, id) ∈ info.vocab) : Tok.marked info m id = some (Tok.get (Tok.vocabOf load b strip m) tok) := by
  have hnd : (info.vocab.map Prod.snd).Nodup := hg.nodup_iff.2 List.nodup_range
  unfold Tok.marked
  rw [h.perm m (hf.known _ hm), Option.bind_some, Tok.permutation_get _ _ _ hnd tok id hin]
  cases hgt : Tok.get (Tok.vocabOf load b strip m) tok with
  | none => rfl
  | some k =>
    simp only
    have hk := (get_mem_iff _ (hf.keys _ hm) tok k).1 hgt
    obtain ⟨n, hn, hall⟩ := hf.shape _ hm
    have := (hall _ hk).2
    simp only at this
    rw [if_pos]
    exact this

theorem row_at (mats : List (Ref × Tensor K)) (width : Nat) (hn : (mats.map Prod.fst).Nodup) (m : Ref) (t : Tensor K) (hm : (m, t) ∈ mats) (k : Nat) :
    (Tok.get (embsOf mats width) m).bind (fun e => e.rows[k]?) = if k < t.shape.getD 0 0 then some (rowAt t k) else none := by
  rw [get_embs mats width hn m t hm, Option.bind_some]
  simp only [List.getElem?_map]
  split
  · rename_i hk
    rw [List.getElem?_range hk]
    rfl
  · rename_i hk
    rw [List.getElem?_eq_none (by simpa using hk)]
    rfl

theorem own_at (h : Built fresh load cfg base refs st b tb strip info) (hg : Gapless info.vocab) (mats : List (Ref × Tensor K)) (width : Nat)
    (hf : Fits cfg refs (Tok.vocabOf load b strip) mats width) (m : Ref) (t : Tensor K) (hm : (m, t) ∈ mats) (tok : Str) (id : Nat)
    (hin : (tok, id) ∈ info.vocab) :
    Tok.ownRow info (embsOf mats width) m id = (Tok.get (Tok.vocabOf load b strip m) tok).map (rowAt t) := by
  have hmk := marked_at h hg mats width hf m t hm tok id hin
  unfold Tok.marked at hmk
  rw [h.perm m (hf.known _ hm), Option.bind_some] at hmk
  unfold Tok.ownRow
  rw [h.perm m (hf.known _ hm)]
  simp only [hmk]
  cases hgt : Tok.get (Tok.vocabOf load b strip m) tok with
  | none => rfl
  | some k =>
    simp only
    have hk := (get_mem_iff _ (hf.keys _ hm) tok k).1 hgt
    obtain ⟨n, hn, hall⟩ := hf.shape _ hm
    rw [row_at mats width hf.once m t hm, if_pos]
    · rfl
    · simp only at hn
      rw [hn]
      exact (hall _ hk).1

theorem own_has (h : Built fresh load cfg base refs st b tb strip info) (hg : Gapless info.vocab) (mats : List (Ref × Tensor K)) (width : Nat)
    (hf : Fits cfg refs (Tok.vocabOf load b strip) mats width) (m : Ref) (tok : Str) (id : Nat)
    (hin : (tok, id) ∈ info.vocab) (r : Nat → K) :
    Tok.ownRow info (embsOf mats width) m id = some r ↔ Has (Tok.vocabOf load b strip) mats m tok r := by
  by_cases hm : m ∈ mats.map Prod.fst
  · obtain ⟨⟨m', t⟩, hmt, rfl⟩ := List.mem_map.1 hm
    simp only
    rw [own_at h hg mats width hf m' t hmt tok id hin, Option.map_eq_some_iff]
    constructor
    · rintro ⟨k, hk, rfl⟩
      exact ⟨t, k, hmt, (get_mem_iff _ (hf.keys _ hmt) tok k).1 hk, rfl⟩
    · rintro ⟨t', k, ht', hk, rfl⟩
      have : t' = t := by
        have := List.inj_on_of_nodup_map hf.once ht' hmt rfl
        exact congrArg Prod.snd this
      subst this
      exact ⟨k, (get_mem_iff _ (hf.keys _ hmt) tok k).2 hk, rfl⟩
  · constructor
    · intro ho
      unfold Tok.ownRow at ho
      rw [get_embs_none mats width m hm] at ho
      split at ho
      · cases ho
      · split at ho <;> cases ho
    · rintro ⟨t, k, ht, _⟩
      exact absurd (List.mem_map.2 ⟨_, ht, rfl⟩) hm

theorem own_lacks (h : Built fresh load cfg base refs st b tb strip info) (hg : Gapless info.vocab) (mats : List (Ref × Tensor K)) (width : Nat)
    (hf : Fits cfg refs (Tok.vocabOf load b strip) mats width) (m : Ref) (hm : m ∈ mats.map Prod.fst) (tok : Str) (id : Nat)
    (hin : (tok, id) ∈ info.vocab) :
    Tok.ownRow info (embsOf mats width) m id = none ↔ tok ∉ keys (Tok.vocabOf load b strip m) := by
  obtain ⟨⟨m', t⟩, hmt, rfl⟩ := List.mem_map.1 hm
  simp only
  rw [own_at h hg mats width hf m' t hmt tok id hin, Option.map_eq_none_iff]
  exact get_none_iff _ _

/-- A configured source, in terms of the vocabularies. -/
theorem source_is (h : Built fresh load cfg base refs st b tb strip info) (hg : Gapless info.vocab) (mats : List (Ref × Tensor K)) (width : Nat)
    (hf : Fits cfg refs (Tok.vocabOf load b strip) mats width) (tok : Str) (id : Nat) (hin : (tok, id) ∈ info.vocab) (src : TokSource Str Ref)
    (r : Nat → K) (hs : Tok.sourceRow info (embsOf mats width) id src = some r) : SourceIs (Tok.vocabOf load b strip) mats tok src r := by
  cases src with
  | zero => cases hs
  | unset => cases hs
  | model m => exact .model m r ((own_has h hg mats width hf m tok id hin r).1 hs)
  | row m x =>
    cases x with
    | inl i =>
      simp only [Tok.sourceRow] at hs
      split at hs
      · rename_i hi
        by_cases hm : m ∈ mats.map Prod.fst
        · obtain ⟨⟨m', t⟩, hmt, rfl⟩ := List.mem_map.1 hm
          rw [row_at mats width hf.once m' t hmt] at hs
          split at hs
          · rename_i hlt
            cases hs
            have := SourceIs.id (vocab := Tok.vocabOf load b strip) (tok := tok) m' t i.toNat hmt hlt
            rw [Int.toNat_of_nonneg hi] at this
            exact this
          · cases hs
        · rw [get_embs_none mats width m hm] at hs
          cases hs
      · cases hs
    | inr tok' =>
      simp only [Tok.sourceRow] at hs
      rw [Option.bind_eq_some_iff] at hs
      obtain ⟨v, hv, hs⟩ := hs
      rw [Option.bind_eq_some_iff] at hs
      obtain ⟨k, hk, hs⟩ := hs
      by_cases hm : m ∈ mats.map Prod.fst
      · obtain ⟨⟨m', t⟩, hmt, rfl⟩ := List.mem_map.1 hm
        rw [row_at mats width hf.once m' t hmt] at hs
        split at hs
        · cases hs
          rw [h.orig m' (hf.known _ hmt)] at hv
          have hvv : v = Tok.vocabOf load b strip m' := by
            unfold Tok.vocabOf
            by_cases hb : m' = b
            · rw [if_pos hb] at hv ⊢
              cases hv
              rfl
            · rw [if_neg hb] at hv ⊢
              obtain ⟨t', ht', rfl⟩ := Option.map_eq_some_iff.1 hv
              rw [ht']
          subst hvv
          exact .token m' tok' _ ⟨t, k, hmt, (get_mem_iff _ (hf.keys _ hmt) tok' k).1 hk, rfl⟩
        · cases hs
      · rw [get_embs_none mats width m hm] at hs
        cases hs

theorem modelSet_perm (order : List Ref → List Ref) (ho : ∀ l, (order l).Perm l) (ms : List Ref) (base : Option Ref)
    (hb : ∀ x, base = some x → x ∈ ms) : (modelSet order ms base).Perm ms := by
  unfold modelSet
  cases base with
  | none => exact ho _
  | some x =>
    simp only
    rw [if_pos (hb x rfl)]
    exact ho _

theorem row_ofEmb (e : Emb K) (k : Nat) (r : Nat → K) (hr : e.rows[k]? = some r) (j : Nat) (hj : j < e.width) : rowAt (ofEmb e) k j = r j := by
  unfold rowAt ofEmb
  simp only [List.getD_cons_succ, List.getD_cons_zero]
  have h0 : 0 < e.width := by omega
  rw [Nat.add_comm, Nat.add_mul_div_right _ _ h0, Nat.div_eq_of_lt hj, Nat.zero_add, hr, Nat.add_mul_mod_self_right, Nat.mod_eq_of_lt hj]
  rfl

/-- **C115** Whenever the embeddings are re-indexed, the matrices a merge method is given have a row for each output token which is the model's own row for that
token, or the one that should stand in for it. -/
theorem C115_rows {base0 : Option Ref} (h : Built fresh load cfg base0 refs st b tb strip info) (hg : Gapless info.vocab) (hd : (st.tokens.map Prod.fst).Nodup)
    (order : List Ref → List Ref) (ho : ∀ l, (order l).Perm l) (mats : List (Ref × Tensor K)) (width : Nat)
    (hf : Fits cfg refs (Tok.vocabOf load b strip) mats width) (hb : ∀ x, base = some x → x ∈ mats.map Prod.fst)
    (ts : List (Ref × Tensor K)) (hts : reindexTensors order st.tokens st.pad base info mats = .ok ts) :
    Reindexed st base (Tok.vocabOf load b strip) info.vocab mats width ts := by
  unfold reindexTensors at hts
  rw [embs_ok cfg refs (Tok.vocabOf load b strip) mats width (fun e he => by obtain ⟨n, hn, _⟩ := hf.shape e he; exact ⟨n, hn⟩)] at hts
  simp only [Except.bind] at hts
  rw [Tok.map_ok] at hts
  obtain ⟨res, hres, rfl⟩ := hts
  have hms := modelSet_perm order ho (mats.map Prod.fst) base hb
  obtain ⟨h1, h2⟩ := Tok.C51_rows info (embsOf mats width) st.tokens st.pad base _ (fun x hx => hms.mem_iff.2 (hb x hx)) hg res hres
  refine ⟨?_, ?_⟩
  · rw [List.map_map]
    have : (Prod.fst ∘ fun e : Ref × Emb K => (e.1, ofEmb e.2)) = Prod.fst := rfl
    rw [this, h1]
    exact hms
  · intro e he
    obtain ⟨⟨m, e⟩, hme, rfl⟩ := List.mem_map.1 he
    obtain ⟨hlen, hwid, hrow, hpad⟩ := h2 m e hme
    have hmm : m ∈ mats.map Prod.fst := by
      rw [← hms.mem_iff, ← h1]
      exact List.mem_map.2 ⟨_, hme, rfl⟩
    have hw : e.width = width := by
      obtain ⟨⟨m', t⟩, hmt, rfl⟩ := List.mem_map.1 hmm
      exact hwid _ (List.mem_map.2 ⟨_, hmt, rfl⟩)
    have hnp : ∀ n p, n ≤ padded n p := by
      intro n p
      unfold padded
      split
      · exact le_refl _
      · rename_i q
        split
        · rename_i hc
          have := Nat.div_add_mod n q
          have h2 : n % q < q := Nat.mod_lt _ (Nat.pos_of_ne_zero hc.1)
          rw [Nat.add_mul, Nat.one_mul, Nat.mul_comm]
          omega
        · exact le_refl _
    simp only
    refine ⟨?_, ?_, ?_⟩
    · unfold ofEmb
      simp only
      rw [hlen, hw]
    · intro tok id hin
      obtain ⟨r1, r2, r3⟩ := hrow tok id hin
      have hlt := Tok.gapless_lt _ hg tok id hin
      obtain ⟨r, hr⟩ : ∃ r, e.rows[id]? = some r :=
        ⟨_, List.getElem?_eq_getElem (by rw [hlen]; exact lt_of_lt_of_le hlt (hnp _ _))⟩
      refine ⟨r, ?_, fun j hj => row_ofEmb e id r hr j (by rw [hw]; exact hj)⟩
      have hlacks := own_lacks h hg mats width hf m hmm tok id hin
      cases hc : Tok.get st.tokens tok with
      | some c =>
        have hmem := (get_mem_iff _ hd tok c).1 hc
        by_cases hcond : c.force = true ∨ Tok.ownRow info (embsOf mats width) m id = none
        · obtain ⟨q, _⟩ := r2 c hc hcond
          rw [hr] at q
          exact .source c r hmem (hcond.imp (fun x => x) hlacks.1) (source_is h hg mats width hf tok id hin c.source r q.symm)
        · push Not at hcond
          obtain ⟨hnf, hno⟩ := hcond
          obtain ⟨r', hr'⟩ := Option.ne_none_iff_exists'.1 hno
          have := r1 (by rw [hc]; rintro c' ⟨⟩; simpa using hnf) r' hr'
          rw [hr] at this
          cases this
          refine .own r ?_ ((own_has h hg mats width hf m tok id hin r).1 hr')
          intro c' hc'
          have := (get_mem_iff _ hd tok c').2 hc'
          rw [hc] at this
          cases this
          simpa using hnf
      | none =>
        have hnot := (get_none_iff _ _).1 hc
        cases hown : Tok.ownRow info (embsOf mats width) m id with
        | some r' =>
          have := r1 (by rw [hc]; simp) r' hown
          rw [hr] at this
          cases this
          exact .own r (fun c' hc' => absurd (List.mem_map.2 ⟨_, hc', rfl⟩) hnot) ((own_has h hg mats width hf m tok id hin r).1 hown)
        | none =>
          obtain ⟨q1, q2⟩ := r3 hc hown
          by_cases hbase : ∀ x, base = some x → Tok.ownRow info (embsOf mats width) x id = none
          · have := q2 hbase
            rw [hr] at this
            cases this
            have hmean : Tok.meanRow ((modelSet order (mats.map Prod.fst) base).filterMap (fun m => Tok.ownRow info (embsOf mats width) m id)) =
                meanOf ((modelSet order (mats.map Prod.fst) base).filterMap (fun m => Tok.ownRow info (embsOf mats width) m id)) := rfl
            rw [hmean]
            refine .mean ((modelSet order (mats.map Prod.fst) base).filter (fun m => (Tok.ownRow info (embsOf mats width) m id).isSome)) _ hnot
              (hlacks.1 hown) (fun x hx => (own_lacks h hg mats width hf x (hb x hx) tok id hin).1 (hbase x hx))
              ((hms.nodup_iff.2 hf.once).filter _) ?_ ?_
            · intro m'
              rw [List.mem_filter, hms.mem_iff]
              constructor
              · rintro ⟨a, hs⟩
                refine ⟨a, ?_⟩
                by_contra hcon
                rw [(own_lacks h hg mats width hf m' a tok id hin).2 hcon] at hs
                cases hs
              · rintro ⟨a, hs⟩
                refine ⟨a, ?_⟩
                rw [Option.isSome_iff_ne_none]
                intro hcon
                exact (own_lacks h hg mats width hf m' a tok id hin).1 hcon hs
            · generalize modelSet order (mats.map Prod.fst) base = l
              induction l with
              | nil => exact .nil
              | cons a l ih =>
                cases ha : Tok.ownRow info (embsOf mats width) a id with
                | none =>
                  rw [List.filter_cons_of_neg (by simp [ha]), List.filterMap_cons_none (f := fun m => Tok.ownRow info (embsOf mats width) m id) ha]
                  exact ih
                | some ra =>
                  rw [List.filter_cons_of_pos (by simp [ha]), List.filterMap_cons_some (f := fun m => Tok.ownRow info (embsOf mats width) m id) ha]
                  exact .cons ((own_has h hg mats width hf a tok id hin ra).1 ha) ih
          · push Not at hbase
            obtain ⟨x, hx, hno⟩ := hbase
            obtain ⟨r', hr'⟩ := Option.ne_none_iff_exists'.1 hno
            have := q1 x r' hx hr'
            rw [hr] at this
            cases this
            exact .base x r hnot (hlacks.1 hown) hx ((own_has h hg mats width hf x tok id hin r).1 hr')
    · intro k hk1 hk2 j hj
      have := hpad k hk1 hk2
      rw [row_ofEmb e k _ this j (by rw [hw]; exact hj)]
      have hlen' : (e.rows.take info.vocab.length).length = info.vocab.length := by
        rw [List.length_take, hlen, Nat.min_eq_left (hnp _ _)]
      unfold Tok.meanRow
      rw [hlen']
      congr 2
      apply List.ext_getElem (by rw [List.length_map, hlen', List.length_map, List.length_range])
      intro i hi1 hi2
      simp only [List.getElem_map, List.getElem_take, List.getElem_range]
      rw [row_ofEmb e i _ (List.getElem?_eq_getElem _) j (by rw [hw]; exact hj)]

/-- Every output token has a row somewhere: a token without a configured source is in some model, a configured source exists. -/
structure Sourced (load : Ref → Option (Tokenizer Str)) (b : Ref) (st : TokSettings) (vocab : Ref → List (Str × Nat)) (out : List (Str × Nat))
    (mats : List (Ref × Tensor K)) : Prop where
  held : ∀ tok id, (tok, id) ∈ out → tok ∉ st.tokens.map Prod.fst → ∃ m ∈ mats.map Prod.fst, tok ∈ keys (vocab m)
  configured : ∀ tok id, (tok, id) ∈ out → ∀ c, (tok, c) ∈ st.tokens → ∃ r, SourceIs vocab mats tok c.source r
  loaded : ∀ tok c m tok', (tok, c) ∈ st.tokens → c.source = .row m (.inr tok') → m = b ∨ (load m).isSome

/-- **C115** Re-indexing works whenever every output token has a row somewhere. -/
theorem C115_reindexes {base0 : Option Ref} (h : Built fresh load cfg base0 refs st b tb strip info) (hg : Gapless info.vocab)
    (hd : (st.tokens.map Prod.fst).Nodup)
    (order : List Ref → List Ref) (ho : ∀ l, (order l).Perm l) (mats : List (Ref × Tensor K)) (width : Nat)
    (hf : Fits cfg refs (Tok.vocabOf load b strip) mats width) (hb : ∀ x, base = some x → x ∈ mats.map Prod.fst) (hne : mats ≠ [])
    (hs : Sourced load b st (Tok.vocabOf load b strip) info.vocab mats) :
    ∃ ts, reindexTensors order st.tokens st.pad base info mats = .ok ts ∧
      Reindexed st base (Tok.vocabOf load b strip) info.vocab mats width ts := by
  have hms := modelSet_perm order ho (mats.map Prod.fst) base hb
  obtain ⟨res, hres⟩ := Tok.C51_succeeds info (embsOf mats width) st.tokens st.pad base (modelSet order (mats.map Prod.fst) base)
    (by
      intro hcon
      rw [hcon] at hms
      have := hms.symm.eq_nil
      exact hne (List.map_eq_nil_iff.1 this))
    (fun x hx => hms.mem_iff.2 (hb x hx)) hg width
    (by
      intro e he
      obtain ⟨x, _, rfl⟩ := List.mem_map.1 he
      rfl)
    (by
      intro m hm
      obtain ⟨⟨m', t⟩, hmt, rfl⟩ := List.mem_map.1 (hms.mem_iff.1 hm)
      rw [get_embs mats width hf.once m' t hmt]
      rfl)
    (by
      intro m hm
      obtain ⟨⟨m', t⟩, hmt, rfl⟩ := List.mem_map.1 (hms.mem_iff.1 hm)
      rw [h.perm m' (hf.known _ hmt)]
      rfl)
    (by
      rintro m hm ⟨tok, id⟩ hin
      obtain ⟨⟨m', t⟩, hmt, rfl⟩ := List.mem_map.1 (hms.mem_iff.1 hm)
      simp only
      rw [marked_at h hg mats width hf m' t hmt tok id hin, own_at h hg mats width hf m' t hmt tok id hin]
      cases Tok.get (Tok.vocabOf load b strip m') tok with
      | none => exact Or.inl rfl
      | some k => exact Or.inr ⟨_, rfl⟩)
    (by
      rintro ⟨tok, id⟩ hin hno
      obtain ⟨m, hm, hk⟩ := hs.held tok id hin ((get_none_iff _ _).1 hno)
      refine ⟨m, hms.mem_iff.2 hm, ?_⟩
      rw [← Option.ne_none_iff_exists']
      intro hcon
      exact (own_lacks h hg mats width hf m hm tok id hin).1 hcon hk)
    (by
      rintro ⟨tok, id⟩ hin c hc
      have hc' := (get_mem_iff _ hd tok c).1 hc
      obtain ⟨r, hr⟩ := hs.configured tok id hin c hc'
      generalize c.source = src at hr
      cases hr with
      | model m r h1 => exact Or.inl ⟨m, rfl⟩
      | token m tok' r h1 =>
        obtain ⟨t, k, hmt, _⟩ := h1
        exact Or.inr ⟨m, _, rfl, by rw [h.perm m (hf.known _ hmt)]; rfl⟩
      | id m t i hmt hi => exact Or.inr ⟨m, _, rfl, by rw [h.perm m (hf.known _ hmt)]; rfl⟩)
    (by
      rintro ⟨tok, id⟩ hin c hc
      have hc' := (get_mem_iff _ hd tok c).1 hc
      obtain ⟨r, hr⟩ := hs.configured tok id hin c hc'
      have hld := hs.loaded tok c
      generalize c.source = src at hr hld
      simp only
      cases hr with
      | model m r h1 =>
        simp only [Tok.sourceRow]
        rw [(own_has h hg mats width hf m tok id hin r).2 h1]
        simp
      | token m tok' r h1 =>
        obtain ⟨t, k, hmt, hk, rfl⟩ := h1
        simp only [Tok.sourceRow]
        have hv : Tok.get info.originalVocabs m = some (Tok.vocabOf load b strip m) := by
          rw [h.orig m (hf.known _ hmt)]
          unfold Tok.vocabOf
          rcases hld m tok' hc' rfl with hb' | hl
          · rw [if_pos hb', if_pos hb']
          · obtain ⟨x, hx⟩ := Option.isSome_iff_exists.1 hl
            split
            · rfl
            · rw [hx]; rfl
        rw [hv, Option.bind_some, (get_mem_iff _ (hf.keys _ hmt) tok' k).2 hk, Option.bind_some, row_at mats width hf.once m t hmt, if_pos]
        · simp
        · obtain ⟨n, hn, hall⟩ := hf.shape _ hmt
          simp only at hn
          rw [hn]
          exact (hall _ hk).1
      | id m t i hmt hi =>
        simp only [Tok.sourceRow]
        rw [if_pos (by omega), row_at mats width hf.once m t hmt, if_pos (by simpa using hi)]
        simp)
  refine ⟨res.map (fun e => (e.1, ofEmb e.2)), ?_, ?_⟩
  · unfold reindexTensors
    rw [embs_ok cfg refs (Tok.vocabOf load b strip) mats width (fun e he => by obtain ⟨n, hn, _⟩ := hf.shape e he; exact ⟨n, hn⟩)]
    simp only [Except.bind]
    rw [Tok.map_ok]
    exact ⟨res, hres, rfl⟩
  · apply C115_rows h hg hd order ho mats width hf hb
    unfold reindexTensors
    rw [embs_ok cfg refs (Tok.vocabOf load b strip) mats width (fun e he => by obtain ⟨n, hn, _⟩ := hf.shape e he; exact ⟨n, hn⟩)]
    simp only [Except.bind]
    rw [Tok.map_ok]
    exact ⟨res, hres, rfl⟩

/-- **C115** The base model of a place must be among its sources: otherwise nothing is re-indexed, in whatever order, as soon as the base model has one of the
output tokens (for which no source is forced). -/
theorem C115_base_missing_fails {base0 : Option Ref} (h : Built fresh load cfg base0 refs st b tb strip info) (hg : Gapless info.vocab)
    (order : List Ref → List Ref) (ho : ∀ l, (order l).Perm l) (x : Ref) (hxr : x ∈ refs)
    (mats : List (Ref × Tensor K)) (width : Nat) (hf : ∀ e ∈ mats, ∃ n, e.2.shape = [n, width]) (hx : x ∉ mats.map Prod.fst) (tok : Str) (id k : Nat)
    (hin : (tok, id) ∈ info.vocab) (hk : Tok.get (Tok.vocabOf load b strip x) tok = some k) (hkn : k < (cfg x).getD (Tok.vocabOf load b strip x).length)
    (hforce : ∀ c, Tok.get st.tokens tok = some c → c.force = false) (ts : List (Ref × Tensor K)) :
    reindexTensors order st.tokens st.pad (some x) info mats ≠ .ok ts := by
  intro hts
  unfold reindexTensors at hts
  rw [embs_ok cfg refs (Tok.vocabOf load b strip) mats width hf] at hts
  simp only [Except.bind] at hts
  rw [Tok.map_ok] at hts
  obtain ⟨res, hres, _⟩ := hts
  obtain ⟨h1, e0, _, hall⟩ := Tok.permuted_ok info (embsOf mats width) st.tokens st.pad (some x) _ res hg hres
  have hxm : x ∈ res.map Prod.fst := by
    rw [h1]
    unfold modelSet
    simp only
    rw [(ho _).mem_iff]
    split
    · assumption
    · simp
  obtain ⟨⟨x', e⟩, hxe, rfl⟩ := List.mem_map.1 hxm
  simp only at hx hk hkn hxr hres hall
  obtain ⟨_, _, hrow, _⟩ := hall x' e hxe
  obtain ⟨ch, dflt, r, p, k1, k2, k3, k4, _⟩ := hrow tok id hin
  have hnd : (info.vocab.map Prod.snd).Nodup := hg.nodup_iff.2 List.nodup_range
  have hmk : Tok.marked info x' id = some (some k) := by
    unfold Tok.marked
    rw [h.perm x' hxr, Option.bind_some, Tok.permutation_get _ _ _ hnd tok id hin, hk]
    simp only
    rw [if_pos]
    exact hkn
  rcases Tok.newRow_cases info (embsOf mats width) x' p id ch dflt r k3 k4 with ⟨_, ⟨c, rfl, hc⟩ | hno⟩ | ⟨hr, _, _⟩
  · rcases Tok.assignOne_ok info _ _ st.tokens tok id _ k1 with ⟨c', hc', hcc⟩ | ⟨_, d, _, hcc⟩ | ⟨_, b, _, _, hcc⟩ | ⟨_, _, hcc, _⟩
    · cases hcc
      rw [hforce _ hc'] at hc
      cases hc
    · cases hcc; cases hc
    · cases hcc; cases hc
    · cases hcc
  · rw [hmk] at hno; cases hno
  · unfold Tok.ownRow at hr
    rw [get_embs_none mats width x' hx] at hr
    split at hr
    · cases hr
    · split at hr <;> cases hr

end

end

end Verif.WholeTok
