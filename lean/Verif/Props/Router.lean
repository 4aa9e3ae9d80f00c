import Verif.Model.Router
import Mathlib.Tactic.Linarith
import Mathlib.Tactic.Ring
import Mathlib.Tactic.NormNum
import Mathlib.Tactic.FieldSimp
import Mathlib.Algebra.BigOperators.Field
import Mathlib.Algebra.Order.BigOperators.Ring.Finset
import Mathlib.Data.Fin.VecNotation
import Mathlib.Algebra.BigOperators.Fin
import Mathlib.Tactic.FinCases

/-! # Gate vectors (C101) -/

namespace Verif.Router

open Finset
open Verif.ModelRef (Str)
open Verif.Surgeon (Emb)

variable {M K : Type} {n : Nat}

/-! ## Helpers -/

theorem mapM_spec {A B : Type} {f : A → Except Err B} : ∀ {as : List A} {bs : List B}, as.mapM f = .ok bs →
    bs.length = as.length ∧ ∀ (k : Nat) a, as[k]? = some a → ∃ b, f a = .ok b ∧ bs[k]? = some b
  | [], bs, h => by
    cases h
    simp
  | a :: as, bs, h => by
    rw [List.mapM_cons] at h
    cases ha : f a with
    | error e => rw [ha] at h; cases h
    | ok b =>
      rw [ha] at h
      cases hr : as.mapM f with
      | error e => rw [hr] at h; cases h
      | ok bs' =>
        rw [hr] at h
        cases h
        obtain ⟨h1, h2⟩ := mapM_spec hr
        refine ⟨by simp [h1], ?_⟩
        intro k x hk
        cases k with
        | zero => cases hk; exact ⟨b, ha, rfl⟩
        | succ k => exact h2 k x hk

theorem filterMap_all {A B : Type} {f : A → Option B} : ∀ {as : List A}, (∀ a ∈ as, (f a).isSome) →
    (as.filterMap f).length = as.length ∧ ∀ (k : Nat) a, as[k]? = some a → (as.filterMap f)[k]? = f a
  | [], _ => by simp
  | a :: as, h => by
    obtain ⟨b, hb⟩ := Option.isSome_iff_exists.mp (h a List.mem_cons_self)
    obtain ⟨h1, h2⟩ := filterMap_all (f := f) (as := as) (fun x hx => h x (List.mem_cons_of_mem _ hx))
    rw [List.filterMap_cons_some hb]
    refine ⟨by simp [h1], ?_⟩
    intro k x hk
    cases k with
    | zero => cases hk; simp [hb]
    | succ k => simpa using h2 k x hk

theorem exceptBind_ok {A B : Type} {x : Except Err A} {f : A → Except Err B} {b : B} (h : x.bind f = .ok b) : ∃ a, x = .ok a ∧ f a = .ok b := by
  cases x with
  | error e => cases h
  | ok a => exact ⟨a, rfl, h⟩

theorem exceptMap_ok {A B : Type} {x : Except Err A} {f : A → B} {b : B} (h : x.map f = .ok b) : ∃ a, x = .ok a ∧ f a = b := by
  cases x with
  | error e => cases h
  | ok a => exact ⟨a, rfl, Except.ok.inj h⟩

theorem norm_nonneg (v : Vec n) : 0 ≤ norm v := Real.sqrt_nonneg _

theorem norm_unit (v : Vec n) : norm (unit v) = norm v / max (norm v) (1 / 10 ^ 8) := by
  have hp : (0 : ℝ) < max (norm v) (1 / 10 ^ 8) := lt_max_of_lt_right (by norm_num)
  unfold norm
  simp only [unit, div_pow]
  rw [← Finset.sum_div, Real.sqrt_div (Finset.sum_nonneg fun j _ => sq_nonneg _), Real.sqrt_sq hp.le]
  rfl

/-! ## What the vectors are -/

/-- The Euclidean length. -/
noncomputable def len (v : Vec n) : ℝ := Real.sqrt (∑ j, v j ^ 2)

/-- A vector scaled to length one, if its length is at least `1e-8`; otherwise times `10^8`. -/
noncomputable def direction (v : Vec n) : Vec n := if 1 / 10 ^ 8 ≤ len v then (len v)⁻¹ • v else (10 ^ 8 : ℝ) • v

/-- A representation of prompts (given by their tokens) for each layer, for example by the embeddings of their tokens. -/
abbrev Rep (n : Nat) := Nat → List (List Nat) → Vec n

/-- The tokens of a list of prompts, after the token for the beginning, if there is one. -/
def tokens (t : Tokenizer) (prompts : List Str) : List (List Nat) :=
  prompts.map (fun p => t.encode (match t.bos with
    | some b => b.1 ++ p
    | none => p))

/-- The difference between the positive and the negative prompts of an expert. -/
def contrast (t : Tokenizer) (r : Rep n) (e : Moe.Expert M K) (l : Nat) : Vec n :=
  r l (tokens t (e.positive.getD [])) - (match e.negative with
    | none => 0
    | some [] => 0
    | some (p :: ps) => r l (tokens t (p :: ps)))

/-- The gate vectors are those of a representation: for each layer and each expert the difference, scaled to length one (times `10^8` if it is very
short). -/
def Represents (t : Tokenizer) (r : Rep n) (layers : Nat) (experts : List (Moe.Expert M K)) (rows : List (List (Vec n))) : Prop :=
  rows.length = layers ∧ ∀ l row, rows[l]? = some row → row.length = experts.length ∧
    ∀ (k : Nat) e, experts[k]? = some e → row[k]? = some (direction (contrast t r e l))

theorem unit_eq (d : Vec n) : unit d = direction d := by
  unfold direction
  funext j
  show d j / max (len d) (1 / 10 ^ 8) = _
  split
  · rename_i h
    rw [max_eq_left h]
    simp only [Pi.smul_apply, smul_eq_mul]
    rw [div_eq_inv_mul]
  · rename_i h
    rw [max_eq_right (not_le.mp h).le]
    simp only [Pi.smul_apply, smul_eq_mul]
    norm_num
    ring

/-- C101: gates of a representation have length one, or (if the difference is very short) at most one. -/
theorem C101_length {t : Tokenizer} {r : Rep n} {layers : Nat} {experts : List (Moe.Expert M K)} {rows : List (List (Vec n))}
    (h : Represents t r layers experts rows) {l : Nat} {row : List (Vec n)} (hl : rows[l]? = some row) {k : Nat} {e : Moe.Expert M K} (hk : experts[k]? = some e) :
    ∃ g, row[k]? = some g ∧ len g ≤ 1 ∧ (1 / 10 ^ 8 ≤ len (contrast t r e l) → len g = 1) := by
  refine ⟨_, (h.2 l row hl).2 k e hk, ?_⟩
  have hp : (0 : ℝ) < max (norm (contrast t r e l)) (1 / 10 ^ 8) := lt_max_of_lt_right (by norm_num)
  rw [← unit_eq]
  show norm (unit _) ≤ 1 ∧ (1 / 10 ^ 8 ≤ norm _ → norm (unit _) = 1)
  refine ⟨?_, ?_⟩
  · rw [norm_unit, div_le_one hp]
    exact le_max_left _ _
  · intro hc
    rw [norm_unit, max_eq_left hc, div_self]
    exact (lt_of_lt_of_le (by norm_num) hc).ne'

/-! ## From the code to representations -/

theorem tokenize_ok {t : Tokenizer} {ps : List Str} {x : Encoded} (h : tokenize t ps = .ok x) : x.prompts = tokens t ps ∧ ps ≠ [] := by
  unfold tokenize at h
  split at h
  · cases h
  · rename_i hne
    refine ⟨?_, hne⟩
    unfold tokens
    split at h
    · rename_i hb; cases h; simp [hb]
    · rename_i hb _; cases h; simp [hb]
    · cases h

theorem given_iff {p : Option (List Str)} : Moe.given p = true ↔ ∃ a as, p = some (a :: as) := by
  unfold Moe.given
  cases p with
  | none => simp
  | some l => cases l <;> simp

/-- What a mode makes of prompts that satisfy `P` is a representation. -/
def Yields (P : List (List Nat) → Prop) (s : Source n) (mode : Str) (r : Rep n) : Prop :=
  ∀ x hs, x.prompts ≠ [] → P x.prompts → probe s mode x = .ok hs → hs.length = s.layers ∧ ∀ l, l < s.layers → hs[l]? = some (r l x.prompts)

/-- All lists of prompts of an expert satisfy `P`. -/
def Fit (P : List (List Nat) → Prop) (t : Tokenizer) (e : Moe.Expert M K) : Prop := ∀ ps, e.positive = some ps ∨ e.negative = some ps → P (tokens t ps)

theorem gateOf_ok {P : List (List Nat) → Prop} {t : Tokenizer} {s : Source n} {mode : Str} {r : Rep n} (hy : Yields P s mode r) {e : Moe.Expert M K} (he : Fit P t e)
    {vs : List (Vec n)} (h : gateOf t s mode e = .ok vs) : vs.length = s.layers ∧ ∀ l, l < s.layers → vs[l]? = some (unit (contrast t r e l)) := by
  unfold gateOf at h
  cases hp : e.positive with
  | none => rw [hp] at h; cases h
  | some p =>
    rw [hp] at h
    obtain ⟨hs, h1, h2⟩ := exceptBind_ok h
    obtain ⟨x, h3, h4⟩ := exceptBind_ok h1
    obtain ⟨h5, h6⟩ := tokenize_ok h3
    have hxe : x.prompts ≠ [] := by rw [h5]; unfold tokens; simpa using h6
    obtain ⟨hlen, hval⟩ := hy x hs hxe (by rw [h5]; exact he p (Or.inl hp)) h4
    obtain ⟨ds, h7, rfl⟩ := exceptMap_ok h2
    by_cases hg : Moe.given e.negative = true
    · rw [if_pos hg] at h7
      obtain ⟨a, as, ha⟩ := given_iff.mp hg
      rw [ha] at h7
      obtain ⟨hs', h8, rfl⟩ := exceptMap_ok h7
      obtain ⟨x', h9, h10⟩ := exceptBind_ok h8
      obtain ⟨h11, h12⟩ := tokenize_ok h9
      have hxe' : x'.prompts ≠ [] := by rw [h11]; unfold tokens; simp
      obtain ⟨hlen', hval'⟩ := hy x' hs' hxe' (by rw [h11]; exact he _ (Or.inr ha)) h10
      refine ⟨by simp [hlen, hlen'], ?_⟩
      intro l hl
      rw [List.getElem?_map, List.getElem?_zipWith, hval l hl, hval' l hl, h5, h11]
      simp [contrast, hp, ha]
    · rw [if_neg hg] at h7
      cases h7
      refine ⟨by simp [hlen], ?_⟩
      intro l hl
      rw [List.getElem?_map, hval l hl, h5]
      have : contrast t r e l = r l (tokens t p) := by
        unfold contrast
        rw [hp]
        cases hn : e.negative with
        | none => simp
        | some q =>
          cases q with
          | nil => simp
          | cons a as => exact absurd (given_iff.mpr ⟨a, as, hn⟩) hg
      rw [this]
      rfl

theorem represents_of {P : List (List Nat) → Prop} {t : Tokenizer} {s : Source n} {mode : Str} {r : Rep n} (hr : mode ≠ cs!"random") (hu : mode ≠ cs!"uniform_random")
    (hy : Yields P s mode r) {experts : List (Moe.Expert M K)} (hf : ∀ e ∈ experts, Fit P t e) {rows : List (List (Vec n))} (h : params t s mode experts = .ok rows) :
    Represents t r s.layers experts rows := by
  unfold params at h
  rw [if_neg hr, if_neg hu] at h
  obtain ⟨vs, h1, h2⟩ := exceptBind_ok h
  obtain ⟨hl, hv⟩ := mapM_spec h1
  have hall : ∀ v ∈ vs, v.length = s.layers := by
    intro v hv'
    obtain ⟨k, hk, rfl⟩ := List.getElem_of_mem hv'
    obtain ⟨b, hb, hb'⟩ := hv k (experts[k]'(by omega)) (List.getElem?_eq_getElem _)
    rw [List.getElem?_eq_getElem hk] at hb'
    cases hb'
    exact (gateOf_ok hy (hf _ (List.getElem_mem _)) hb).1
  cases vs with
  | nil => cases h2
  | cons v vs' =>
    simp only at h2
    cases h2
    have hv0 := hall v List.mem_cons_self
    refine ⟨by simp [hv0], ?_⟩
    intro l row hrow
    rw [List.getElem?_map] at hrow
    have hlt : l < s.layers := by
      by_contra hcon
      rw [List.getElem?_eq_none (by simp; omega)] at hrow
      cases hrow
    rw [List.getElem?_range (by omega)] at hrow
    simp only [Option.map_some, Option.some.injEq] at hrow
    subst hrow
    have hsome : ∀ a ∈ v :: vs', (a[l]?).isSome := by
      intro a ha
      rw [List.getElem?_eq_getElem (by have := hall a ha; omega)]
      rfl
    obtain ⟨f1, f2⟩ := filterMap_all (f := fun v : List (Vec n) => v[l]?) hsome
    refine ⟨by rw [f1, hl], ?_⟩
    intro k e hk
    obtain ⟨b, hb, hb'⟩ := hv k e hk
    rw [← unit_eq, f2 k b hb']
    exact (gateOf_ok hy (hf _ (List.mem_of_getElem? hk)) hb).2 l hlt

/-! ## Cheap embeddings -/

theorem row_length_le (x : Encoded) {p : List Nat} (hp : p ∈ x.prompts) : p.length ≤ x.width := by
  unfold Encoded.width
  generalize x.prompts = ps at hp
  induction ps with
  | nil => cases hp
  | cons q ps ih =>
    simp only [List.map_cons, List.foldr_cons]
    rcases List.mem_cons.mp hp with rfl | h
    · exact le_max_left _ _
    · exact (ih h).trans (le_max_right _ _)

theorem width_reached (x : Encoded) (h : 0 < x.width) : ∃ q ∈ x.prompts, q.length = x.width := by
  unfold Encoded.width at h ⊢
  generalize x.prompts = ps at h
  induction ps with
  | nil => simp at h
  | cons q ps ih =>
    simp only [List.map_cons, List.foldr_cons] at h ⊢
    rcases le_total ((ps.map List.length).foldr max 0) q.length with hle | hle
    · exact ⟨q, List.mem_cons_self, by rw [max_eq_left hle]⟩
    · rw [max_eq_right hle] at h ⊢
      obtain ⟨r, hr, hr'⟩ := ih h
      exact ⟨r, List.mem_cons_of_mem _ hr, hr'⟩

theorem zip_replicate_zero (f : Nat → Vec n) (a : Nat) : ∀ k, (List.zipWith (fun i (w : Nat) => (w : ℝ) • f i) (List.replicate k a) (List.replicate k 0)).sum = 0
  | 0 => rfl
  | k + 1 => by simp [List.replicate_succ, zip_replicate_zero f a k]

theorem zip_replicate_one (f : Nat → Vec n) : ∀ p : List Nat, (List.zipWith (fun i (w : Nat) => (w : ℝ) • f i) p (List.replicate p.length 1)).sum = (p.map f).sum
  | [] => rfl
  | a :: p => by simp [List.replicate_succ, zip_replicate_one f p]

/-- The sum of the embeddings of all tokens of all prompts. -/
def bag (embed : Emb (Vec n)) (ps : List (List Nat)) : Vec n := (ps.flatten.map embed.row).sum

theorem masked_sum (embed : Emb (Vec n)) (x : Encoded) :
    (List.zipWith (fun r m => (List.zipWith (fun i (w : Nat) => (w : ℝ) • embed.row i) r m).sum) x.ids x.mask).sum = bag embed x.prompts := by
  unfold Encoded.ids Encoded.mask bag
  generalize x.width = w
  generalize x.pad = a
  induction x.prompts with
  | nil => rfl
  | cons p ps ih =>
    simp only [List.map_cons, List.zipWith_cons_cons, List.sum_cons, List.flatten_cons, List.map_append, List.sum_append, ih]
    rw [List.zipWith_append (by simp), List.sum_append, zip_replicate_zero, zip_replicate_one, zero_add]

/-- C101: with `cheap_embed`, each layer has the same vectors, made of the embeddings of the tokens of the prompts (added up and scaled to length one,
for the positive and the negative prompts each); padding does not count. -/
theorem C101_cheap {t : Tokenizer} {s : Source n} {experts : List (Moe.Expert M K)} {rows : List (List (Vec n))} (h : params t s cs!"cheap_embed" experts = .ok rows) :
    Represents t (fun _ ps => direction (bag s.embed ps)) s.layers experts rows := by
  refine represents_of (P := fun _ => True) (by decide +kernel) (by decide +kernel) ?_ (fun _ _ _ _ => trivial) h
  intro x hs _ _ hp
  unfold probe at hp
  rw [if_pos rfl] at hp
  unfold cheap at hp
  split at hp
  · cases hp
  · split at hp
    · cases hp
    · cases hp
      refine ⟨by simp, ?_⟩
      intro l hl
      rw [List.getElem?_replicate, if_pos hl, masked_sum, unit_eq]

/-- C101: they depend on how often each token occurs only, not on its place or on how the tokens are distributed over the prompts. -/
theorem C101_cheap_order {t : Tokenizer} {e e' : Moe.Expert M K} (embed : Emb (Vec n)) {p p' q q' : List Str} (hp : e.positive = some p) (hp' : e'.positive = some p')
    (hq : e.negative = some q) (hq' : e'.negative = some q') (hn : q = [] ↔ q' = []) (h1 : (tokens t p).flatten.Perm (tokens t p').flatten)
    (h2 : (tokens t q).flatten.Perm (tokens t q').flatten) (l : Nat) :
    contrast t (fun _ ps => direction (bag embed ps)) e l = contrast t (fun _ ps => direction (bag embed ps)) e' l := by
  have hb : ∀ {a b : List (List Nat)}, a.flatten.Perm b.flatten → bag embed a = bag embed b := fun h => (h.map _).sum_eq
  unfold contrast
  rw [hp, hp', hq, hq']
  cases q with
  | nil => rw [hn.mp rfl]; simp [hb h1]
  | cons a as =>
    cases q' with
    | nil => exact absurd (hn.mpr rfl) (by simp)
    | cons b bs => simp [hb h1, hb h2]

/-- C101: cheap embeddings are refused exactly if a token has no place in the vocabulary of the configuration, or the matrix has another size. -/
theorem C101_cheap_refused (s : Source n) (x : Encoded) :
    (∃ hs, probe s cs!"cheap_embed" x = .ok hs) ↔ (∀ p ∈ x.prompts, ∀ i ∈ p, i < s.vocab) ∧ ((∃ p ∈ x.prompts, ∃ q ∈ x.prompts, p.length < q.length) → x.pad < s.vocab) ∧ s.embed.rows = s.vocab := by
  have hlonger : (∃ p ∈ x.prompts, ∃ q ∈ x.prompts, p.length < q.length) ↔ ∃ p ∈ x.prompts, p.length < x.width := by
    constructor
    · rintro ⟨p, hp, q, hq, h⟩
      exact ⟨p, hp, lt_of_lt_of_le h (row_length_le x hq)⟩
    · rintro ⟨p, hp, h⟩
      obtain ⟨q, hq, hw⟩ := width_reached x (by omega)
      exact ⟨p, hp, q, hq, by omega⟩
  rw [hlonger]
  unfold probe
  rw [if_pos rfl]
  unfold cheap
  have hids : (∀ row ∈ x.ids, ∀ i ∈ row, i < s.vocab) ↔ (∀ p ∈ x.prompts, ∀ i ∈ p, i < s.vocab) ∧ ((∃ p ∈ x.prompts, p.length < x.width) → x.pad < s.vocab) := by
    unfold Encoded.ids
    simp only [List.mem_map, forall_exists_index, and_imp, forall_apply_eq_imp_iff₂, List.mem_append, List.mem_replicate]
    constructor
    · intro h
      refine ⟨fun p hp i hi => h p hp i (Or.inr hi), ?_⟩
      rintro p hp hlt
      exact h p hp x.pad (Or.inl ⟨by omega, rfl⟩)
    · rintro ⟨h1, h2⟩ p hp i (⟨h3, rfl⟩ | h3)
      · exact h2 p hp (by omega)
      · exact h1 p hp i h3
  by_cases h1 : ∀ row ∈ x.ids, ∀ i ∈ row, i < s.vocab
  · rw [if_neg (not_not.mpr h1)]
    have h1' := hids.mp h1
    by_cases h2 : s.embed.rows = s.vocab
    · rw [if_neg (not_not.mpr h2)]
      exact ⟨fun _ => ⟨h1'.1, h1'.2, h2⟩, fun _ => ⟨_, rfl⟩⟩
    · rw [if_pos h2]
      exact ⟨fun ⟨_, h⟩ => (by cases h), fun h => absurd h.2.2 h2⟩
  · rw [if_pos h1]
    exact ⟨fun ⟨_, h⟩ => (by cases h), fun h => absurd (hids.mpr ⟨h.1, h.2.1⟩) h1⟩

/-! ## Hidden states -/

/-- The mode `hidden` is the mode `hidden_last`. -/
theorem C101_hidden_is_last (t : Tokenizer) (s : Source n) (experts : List (Moe.Expert M K)) : params t s cs!"hidden" experts = params t s cs!"hidden_last" experts := by
  have h : probe s cs!"hidden" = probe s cs!"hidden_last" := by
    funext x
    unfold probe
    rw [if_neg (by decide +kernel), if_pos (by decide +kernel), if_neg (by decide +kernel), if_pos (by decide +kernel)]
    rfl
  have h' : gateOf t s cs!"hidden" = gateOf (M := M) (K := K) t s cs!"hidden_last" := by
    funext e
    unfold gateOf
    rw [h]
  unfold params
  rw [h', if_neg (by decide +kernel), if_neg (by decide +kernel), if_neg (by decide +kernel), if_neg (by decide +kernel)]

/-- A model whose states (the inputs of its layers) at the tokens of a prompt depend on this prompt only, whatever is masked before it: `f l p k` for the
token `k` of the prompt `p`. -/
def Causal (s : Source n) (f : Nat → List Nat → Nat → Vec n) : Prop :=
  ∀ ids mask, (s.model ids mask).length = s.layers + 1 ∧
    ∀ l h, l < s.layers → (s.model ids mask)[l]? = some h → ∀ (b : Nat) (pads p : List Nat), ids[b]? = some (pads ++ p) →
      mask[b]? = some (List.replicate pads.length 0 ++ List.replicate p.length 1) → ∀ k < p.length, h b (pads.length + k) = f l p k

theorem Causal.at {s : Source n} {f : Nat → List Nat → Nat → Vec n} (hc : Causal s f) {x : Encoded} {l : Nat} {h : States n} (hl : l < s.layers)
    (hh : (s.model x.ids x.mask)[l]? = some h) {b : Nat} {p : List Nat} (hb : x.prompts[b]? = some p) {k : Nat} (hk : k < p.length) :
    h b (x.width - p.length + k) = f l p k := by
  have := (hc x.ids x.mask).2 l h hl hh b (List.replicate (x.width - p.length) x.pad) p (by unfold Encoded.ids; rw [List.getElem?_map, hb]; rfl)
    (by unfold Encoded.mask; rw [List.getElem?_map, hb]; simp) k hk
  simpa using this

theorem sum_rows {F : Nat → Vec n} {g : List Nat → Vec n} : ∀ {ps : List (List Nat)}, (∀ (b : Nat) p, ps[b]? = some p → F b = g p) →
    ∑ b ∈ range ps.length, F b = (ps.map g).sum := by
  intro ps
  induction ps generalizing F with
  | nil => intro _; simp
  | cons p ps ih =>
    intro h
    rw [List.length_cons, Finset.sum_range_succ', ih (F := fun b => F (b + 1)) (fun b q hb => h (b + 1) q (by simpa using hb)), h 0 p rfl]
    simp [add_comm]

theorem hidden_yields {P : List (List Nat) → Prop} {s : Source n} {f : Nat → List Nat → Nat → Vec n} (hc : Causal s f) {mode : Str} {average : Bool}
    (hm : ∀ x, probe s mode x = hidden s.model average x) {g : Nat → List Nat → Vec n}
    (hg : ∀ (x : Encoded), P x.prompts → ∀ l h, l < s.layers → (s.model x.ids x.mask)[l]? = some h → ∀ (b : Nat) p, x.prompts[b]? = some p →
      (if average then (x.width : ℝ)⁻¹ • ∑ p ∈ range x.width, h b p else h b (x.width - 1)) = g l p) :
    Yields P s mode (fun l ps => (ps.length : ℝ)⁻¹ • (ps.map (g l)).sum) := by
  intro x hs hx hP hp
  rw [hm] at hp
  unfold hidden at hp
  split at hp
  · cases hp
  · cases hp
    have hlen := (hc x.ids x.mask).1
    refine ⟨by simp [hlen], ?_⟩
    intro l hl
    have hd : (s.model x.ids x.mask).dropLast[l]? = some ((s.model x.ids x.mask)[l]'(by omega)) := by
      rw [List.getElem?_dropLast, if_pos (by omega), List.getElem?_eq_getElem]
    rw [List.getElem?_map, hd]
    simp only [Option.map_some, Option.some.injEq]
    rw [sum_rows (fun b p hb => hg x hP l _ hl (List.getElem?_eq_getElem _) b p hb)]

/-- C101: with `hidden_last`, the vectors are made of the states at the last token of each prompt, the average over the prompts. -/
theorem C101_hidden_last {t : Tokenizer} {s : Source n} {f : Nat → List Nat → Nat → Vec n} (hc : Causal s f) {experts : List (Moe.Expert M K)}
    (hne : ∀ e ∈ experts, Fit (fun ps => [] ∉ ps) t e) {rows : List (List (Vec n))} (h : params t s cs!"hidden_last" experts = .ok rows) :
    Represents t (fun l ps => (ps.length : ℝ)⁻¹ • (ps.map (fun p => f l p (p.length - 1))).sum) s.layers experts rows := by
  refine represents_of (P := fun ps => [] ∉ ps) (by decide +kernel) (by decide +kernel) (hidden_yields (average := false) hc ?_ ?_) hne h
  · intro x
    unfold probe
    rw [if_neg (by decide +kernel), if_pos (by decide +kernel)]
    rfl
  · intro x hP l h hl hh b p hb
    have hmem := List.mem_of_getElem? hb
    have hpos : 0 < p.length := by
      rcases Nat.eq_zero_or_pos p.length with h0 | h0
      · exact absurd (List.length_eq_zero_iff.mp h0 ▸ hmem) hP
      · exact h0
    have hw := row_length_le x hmem
    rw [if_neg (by simp), ← hc.at hl hh hb (k := p.length - 1) (by omega)]
    congr 1
    omega

/-- C101, in part: with `hidden_avg`, the vectors are made of the average of the states at the tokens of each prompt and over the prompts, if all prompts
in a list have the same number of tokens.  In general the states at padding tokens count. -/
theorem C101_hidden_avg_partial {t : Tokenizer} {s : Source n} {f : Nat → List Nat → Nat → Vec n} (hc : Causal s f) {experts : List (Moe.Expert M K)}
    (hne : ∀ e ∈ experts, Fit (fun ps => ∀ p ∈ ps, ∀ q ∈ ps, p.length = q.length) t e) {rows : List (List (Vec n))} (h : params t s cs!"hidden_avg" experts = .ok rows) :
    Represents t (fun l ps => (ps.length : ℝ)⁻¹ • (ps.map (fun p => (p.length : ℝ)⁻¹ • ∑ k ∈ range p.length, f l p k)).sum) s.layers experts rows := by
  refine represents_of (P := fun ps => ∀ p ∈ ps, ∀ q ∈ ps, p.length = q.length) (by decide +kernel) (by decide +kernel) (hidden_yields (average := true) hc ?_ ?_) hne h
  · intro x
    unfold probe
    rw [if_neg (by decide +kernel), if_pos (by decide +kernel)]
    rfl
  · intro x hP l h hl hh b p hb
    have hmem := List.mem_of_getElem? hb
    have hw : x.width = p.length := by
      apply le_antisymm _ (row_length_le x hmem)
      have : ∀ ps : List (List Nat), (∀ q ∈ ps, q.length ≤ p.length) → (ps.map List.length).foldr max 0 ≤ p.length := by
        intro ps
        induction ps with
        | nil => intro _; simp
        | cons q ps ih =>
          intro hq
          simp only [List.map_cons, List.foldr_cons]
          exact max_le (hq q List.mem_cons_self) (ih fun r hr => hq r (List.mem_cons_of_mem _ hr))
      exact this x.prompts fun q hq => (hP q hq p hmem).le
    rw [if_pos rfl, hw]
    congr 1
    apply Finset.sum_congr rfl
    intro k hk
    have := hc.at hl hh hb (Finset.mem_range.mp hk)
    rwa [hw, Nat.sub_self, Nat.zero_add] at this

/-- C101: the random modes give a vector for each layer and expert; with `uniform_random` no entry is larger than `sqrt (1 / n)`. -/
theorem C101_random {t : Tokenizer} {s : Source n} (hr : ∀ l e j, 0 ≤ s.rand l e j ∧ s.rand l e j < 1) (experts : List (Moe.Expert M K)) :
    (∃ rows, params t s cs!"random" experts = .ok rows ∧ rows.length = s.layers ∧ ∀ row ∈ rows, row.length = experts.length) ∧
    ∃ rows, params t s cs!"uniform_random" experts = .ok rows ∧ rows.length = s.layers ∧
      ∀ row ∈ rows, row.length = experts.length ∧ ∀ g ∈ row, ∀ j, -Real.sqrt (1 / n) ≤ g j ∧ (0 < n → g j < Real.sqrt (1 / n)) := by
  unfold params
  rw [if_pos rfl, if_neg (by decide +kernel), if_pos rfl]
  refine ⟨⟨_, rfl, by simp, ?_⟩, ⟨_, rfl, by simp, ?_⟩⟩
  · intro row hrow
    obtain ⟨l, _, rfl⟩ := List.mem_map.mp hrow
    simp
  · intro row hrow
    obtain ⟨l, _, rfl⟩ := List.mem_map.mp hrow
    refine ⟨by simp, ?_⟩
    intro g hg j
    obtain ⟨e, _, rfl⟩ := List.mem_map.mp hg
    have h1 := hr l e j
    have h2 := Real.sqrt_nonneg (1 / (n : ℝ))
    constructor
    · nlinarith
    · intro hn
      have h3 : 0 < Real.sqrt (1 / (n : ℝ)) := Real.sqrt_pos.mpr (by positivity)
      nlinarith

/-- C101: with the random modes every layer and every expert has a draw of its own: no draw of the generator is used for two of them. -/
theorem C101_random_own {t : Tokenizer} {s : Source n} (experts : List (Moe.Expert M K)) {l k : Nat} (hl : l < s.layers) (hk : k < experts.length) :
    (∃ rows row, params t s cs!"random" experts = .ok rows ∧ rows[l]? = some row ∧ row[k]? = some (s.randn l k)) ∧
    ∃ rows row g, params t s cs!"uniform_random" experts = .ok rows ∧ rows[l]? = some row ∧ row[k]? = some g ∧
      ∀ j, g j = (2 * s.rand l k j - 1) * Real.sqrt (1 / n) := by
  unfold params
  rw [if_pos rfl, if_neg (by decide +kernel), if_pos rfl]
  refine ⟨⟨_, (List.range experts.length).map (s.randn l), rfl, by simp [hl], by simp [hk]⟩,
    ⟨_, (List.range experts.length).map (fun e j => s.rand l e j * 2 * Real.sqrt (1 / n) - Real.sqrt (1 / n)), _, rfl, by simp [hl],
      by simp only [List.getElem?_map, List.getElem?_range hk]; rfl, ?_⟩⟩
  intro j
  ring

/-- C101: another mode is refused. -/
theorem C101_unknown {t : Tokenizer} {s : Source n} {mode : Str} (hm : mode ∉ [cs!"random", cs!"uniform_random", cs!"cheap_embed", cs!"hidden", cs!"hidden_avg", cs!"hidden_last"])
    (experts : List (Moe.Expert M K)) : ∃ e, params t s mode experts = .error e := by
  simp only [List.mem_cons, List.not_mem_nil, or_false, not_or] at hm
  obtain ⟨m1, m2, m3, m4, m5, m6⟩ := hm
  unfold params
  rw [if_neg m1, if_neg m2]
  cases hr : experts.mapM (gateOf t s mode) with
  | error e => exact ⟨e, rfl⟩
  | ok vs =>
    cases experts with
    | nil => cases hr; exact ⟨_, rfl⟩
    | cons e es =>
      obtain ⟨b, hb, _⟩ := (mapM_spec hr).2 0 e rfl
      have hp : ∀ x, probe s mode x = .error .type := by
        intro x
        unfold probe
        rw [if_neg m3, if_neg (by tauto)]
      unfold gateOf at hb
      cases hpos : e.positive with
      | none => rw [hpos] at hb; cases hb
      | some p =>
        rw [hpos] at hb
        obtain ⟨a, ha, _⟩ := exceptBind_ok hb
        obtain ⟨x, _, hx⟩ := exceptBind_ok ha
        rw [hp] at hx
        cases hx

/-! ## A model that only looks at the token -/

/-- The embedding of a token: the token 0 one way, all others the other way. -/
noncomputable def twoWays (i : Nat) : Vec 2 := if i = 0 then ![1, 0] else ![0, 1]

/-- One layer; its input is the embedding of the token. -/
noncomputable def small : Source 2 :=
  { embed := ⟨10, twoWays⟩, layers := 1, vocab := 10,
    model := fun ids _ => [fun b p => twoWays ((ids.getD b []).getD p 0), fun _ _ => 0], randn := fun _ _ => 0, rand := fun _ _ => 0 }

theorem small_causal : Causal small (fun _ p k => twoWays (p.getD k 0)) := by
  intro ids mask
  refine ⟨rfl, ?_⟩
  intro l h hl hh b pads p hb _ k hk
  have hl' : l = 0 := by have : l < 1 := hl; omega
  subst hl'
  cases hh
  have : ids.getD b [] = pads ++ p := by
    rw [List.getD_eq_getElem?_getD, hb]
    rfl
  simp only [this]
  congr 1
  rw [List.getD_eq_getElem?_getD, List.getD_eq_getElem?_getD, List.getElem?_append_right (by simp)]
  simp

/-- A token for each character, none for the beginning. -/
def chars : Tokenizer := { encode := fun s => s.map (fun _ => 1), bos := none, eos := some (cs!"</s>", 0) }

/-- An expert with two prompts of different lengths. -/
def expert : Moe.Expert Unit ℚ := { source := (), positive := some [cs!"a", cs!"aa"] }

example : Fit (fun ps => [] ∉ ps) chars expert := by
  intro ps h
  rcases h with h | h
  · cases h; decide +kernel
  · cases h

example : ∃ rows, params chars small cs!"hidden_last" [expert] = .ok rows := ⟨_, rfl⟩

example : ∃ rows, params chars small cs!"cheap_embed" [expert] = .ok rows := by
  unfold params
  rw [if_neg (by decide +kernel), if_neg (by decide +kernel)]
  have h : ∃ v, gateOf chars small cs!"cheap_embed" expert = .ok v := by
    unfold gateOf expert
    simp only [tokenize, chars]
    rw [if_neg (by simp)]
    have := (C101_cheap_refused small ⟨[[1], [1, 1]], 0⟩).mpr ⟨by simp [small], by simp [small], rfl⟩
    obtain ⟨v, hv⟩ := this
    exact ⟨_, by
      show ((probe small cs!"cheap_embed" ⟨[[1], [1, 1]], 0⟩).bind _) = _
      rw [hv]
      rfl⟩
  obtain ⟨v, hv⟩ := h
  rw [List.mapM_cons, hv]
  exact ⟨_, rfl⟩

/-- C101 does not hold for `hidden_avg`: with prompts of different lengths the states at padding tokens count. -/
theorem C101_hidden_avg_padding : ∃ rows, params chars small cs!"hidden_avg" [expert] = .ok rows ∧
    ¬ Represents chars (fun l ps => (ps.length : ℝ)⁻¹ • (ps.map (fun p => (p.length : ℝ)⁻¹ • ∑ k ∈ range p.length, (fun _ p k => twoWays (p.getD k 0)) l p k)).sum)
      small.layers [expert] rows := by
  refine ⟨[[unit (((2 : Nat) : ℝ)⁻¹ • ∑ b ∈ range 2, ((2 : Nat) : ℝ)⁻¹ • ∑ p ∈ range 2, twoWays ((([[0, 1], [1, 1]] : List (List Nat)).getD b []).getD p 0))]], rfl, ?_⟩
  intro h
  have h1 := (h.2 0 _ rfl).2 0 expert rfl
  have hc : contrast chars (fun l ps => (ps.length : ℝ)⁻¹ • (ps.map (fun p => (p.length : ℝ)⁻¹ • ∑ k ∈ range p.length, (fun _ p k => twoWays (p.getD k 0)) l p k)).sum)
      expert 0 = ![0, 1] := by
    have ht : tokens chars (expert.positive.getD []) = [[1], [1, 1]] := by decide +kernel
    unfold contrast
    rw [ht]
    funext j
    fin_cases j <;> simp [expert, twoWays, Finset.sum_range_succ]
    norm_num
  rw [hc] at h1
  have hn : len (![0, 1] : Vec 2) = 1 := by unfold len; simp [Fin.sum_univ_two]
  have hd : direction (![0, 1] : Vec 2) = ![0, 1] := by unfold direction; rw [hn, if_pos (by norm_num), inv_one, one_smul]
  rw [hd] at h1
  have h4 := congrFun (Option.some.inj h1) 0
  have hpos : (0 : ℝ) < max (norm (((2 : Nat) : ℝ)⁻¹ • ∑ b ∈ range 2, ((2 : Nat) : ℝ)⁻¹ • ∑ p ∈ range 2, twoWays ((([[0, 1], [1, 1]] : List (List Nat)).getD b []).getD p 0)))
      (1 / 10 ^ 8) := lt_max_of_lt_right (by norm_num)
  unfold unit at h4
  rw [div_eq_iff hpos.ne'] at h4
  simp [Finset.sum_range_succ, twoWays] at h4

end Verif.Router
