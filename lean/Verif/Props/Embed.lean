import Verif.Props.Vocab
import Mathlib.Data.Rat.Init
import Mathlib.Algebra.Field.Rat
import Mathlib.Tactic.NormNum

/-! # C51, C52: re-indexed embeddings -/

set_option linter.unusedSectionVars false

namespace Verif.Tok

variable {T M K : Type} [DecidableEq T] [DecidableEq M]

theorem mapM_ok {A B E : Type} (f : A → Except E B) (l : List A) (r : List B) :
    l.mapM f = .ok r ↔ List.Forall₂ (fun a b => f a = .ok b) l r := by
  induction l generalizing r with
  | nil =>
    simp only [List.mapM_nil, List.forall₂_nil_left_iff]
    constructor
    · intro h; cases h; rfl
    · rintro rfl; rfl
  | cons a l ih =>
    rw [List.mapM_cons]
    cases hf : f a with
    | error e =>
      simp only [bind, Except.bind, reduceCtorEq, false_iff]
      intro h
      cases h with
      | cons h1 _ => rw [hf] at h1; cases h1
    | ok b =>
      simp only [bind, Except.bind]
      cases hl : l.mapM f with
      | error e =>
        simp only [reduceCtorEq, false_iff]
        intro h
        cases h with
        | cons _ h2 => rw [(ih _).2 h2] at hl; cases hl
      | ok bs =>
        simp only [pure, Except.pure, Except.ok.injEq]
        constructor
        · rintro rfl
          exact .cons hf ((ih _).1 hl)
        · intro h
          cases h with
          | cons h1 h2 =>
            rw [hf] at h1
            rw [(ih _).2 h2] at hl
            cases h1
            cases hl
            rfl

theorem mapM_total {A B E : Type} (f : A → Except E B) (l : List A) (h : ∀ a ∈ l, ∃ b, f a = .ok b) : ∃ r, l.mapM f = .ok r := by
  induction l with
  | nil => exact ⟨[], rfl⟩
  | cons a l ih =>
    obtain ⟨b, hb⟩ := h a (by simp)
    obtain ⟨r, hr⟩ := ih (fun x hx => h x (by simp [hx]))
    refine ⟨b :: r, ?_⟩
    rw [List.mapM_cons, hb, hr]
    rfl

theorem forall₂_left {A B : Type} {R : A → B → Prop} {l : List A} {r : List B} (h : List.Forall₂ R l r) (a : A) (ha : a ∈ l) :
    ∃ b ∈ r, R a b := by
  induction h with
  | nil => simp at ha
  | cons h1 _ ih =>
    rcases List.mem_cons.1 ha with rfl | ha
    · exact ⟨_, by simp, h1⟩
    · obtain ⟨b, hb, hr⟩ := ih ha
      exact ⟨b, by simp [hb], hr⟩

theorem forall₂_right {A B : Type} {R : A → B → Prop} {l : List A} {r : List B} (h : List.Forall₂ R l r) (b : B) (hb : b ∈ r) :
    ∃ a ∈ l, R a b := by
  induction h with
  | nil => simp at hb
  | cons h1 _ ih =>
    rcases List.mem_cons.1 hb with rfl | hb
    · exact ⟨_, by simp, h1⟩
    · obtain ⟨a, ha, hr⟩ := ih hb
      exact ⟨a, by simp [ha], hr⟩

theorem bind_ok {A B E : Type} (x : Except E A) (f : A → Except E B) (b : B) : x.bind f = .ok b ↔ ∃ a, x = .ok a ∧ f a = .ok b := by
  cases x with
  | error e => simp [Except.bind]
  | ok a => simp [Except.bind]

theorem map_ok {A B E : Type} (x : Except E A) (f : A → B) (b : B) : x.map f = .ok b ↔ ∃ a, x = .ok a ∧ f a = b := by
  cases x with
  | error e => simp [Except.map]
  | ok a => simp [Except.map]

theorem getKey_ok {A B : Type} [DecidableEq A] (d : List (A × B)) (a : A) (b : B) : getKey d a = .ok b ↔ get d a = some b := by
  unfold getKey
  cases get d a <;> simp

/-- The row of model `m` for output id `id`, if it has the token (specification). -/
def ownRow (info : Info T M) (tensors : List (M × Emb K)) (m : M) (id : Nat) : Option (Nat → K) :=
  match get info.permutations m with
  | none => none
  | some p => match get p id with
    | some (some k) => (get tensors m).bind (fun e => e.rows[k]?)
    | _ => none

theorem rowOf_ok (tensors : List (M × Emb K)) (m : M) (k : Nat) (r : Nat → K) :
    rowOf tensors m k = .ok r ↔ (get tensors m).bind (fun e => e.rows[k]?) = some r := by
  unfold rowOf
  rw [bind_ok]
  constructor
  · rintro ⟨e, h1, h2⟩
    rw [getKey_ok] at h1
    rw [h1, Option.bind_some]
    split at h2
    · cases h2
    · rename_i r' hr
      cases h2
      exact hr
  · intro h
    cases hg : get tensors m with
    | none => rw [hg] at h; cases h
    | some e =>
      rw [hg, Option.bind_some] at h
      exact ⟨e, (getKey_ok _ _ _).2 hg, by rw [h]⟩

section
variable [Field K]

/-- The mean of rows (specification). -/
def meanRow (rows : List (Nat → K)) : Nat → K := fun c => (rows.map (fun r => r c)).sum / (rows.length : K)

theorem averageRow_ok (info : Info T M) (tensors : List (M × Emb K)) (models : List M) (id : Nat) (r : Nat → K)
    (h : averageRow info tensors models id = .ok r) : r = meanRow (models.filterMap (fun m => ownRow info tensors m id)) := by
  unfold averageRow at h
  split at h
  · cases h
  · rename_i rows hrows
    cases h
    rw [mapM_ok] at hrows
    have : rows.filterMap (fun r => r) = models.filterMap (fun m => ownRow info tensors m id) := by
      induction hrows with
      | nil => rfl
      | @cons m r ms rs h1 _ ih =>
        rw [List.filterMap_cons, List.filterMap_cons]
        unfold heldRow at h1
        rw [bind_ok] at h1
        obtain ⟨p, hp, h1⟩ := h1
        rw [bind_ok] at h1
        obtain ⟨k, hk, h1⟩ := h1
        rw [getKey_ok] at hp hk
        have hown : ownRow info tensors m id = r := by
          unfold ownRow
          rw [hp]
          simp only [hk]
          cases k with
          | none => cases h1; rfl
          | some k =>
            simp only at h1 ⊢
            rw [map_ok] at h1
            obtain ⟨r', h2, rfl⟩ := h1
            exact (rowOf_ok _ _ _ _).1 h2
        rw [hown]
        cases r with
        | none => exact ih
        | some r' => simp only; rw [ih]
    rw [this]
    rfl

theorem default_model (info : Info T M) (tensors : List (M × Emb K)) (id : Nat) (m : M) (f : Bool) (r : Nat → K)
    (h : computeDefault info tensors id (⟨.model m, f⟩ : TokCfg T M) = .ok r) : ownRow info tensors m id = some r := by
  unfold computeDefault at h
  simp only at h
  rw [bind_ok] at h
  obtain ⟨p, hp, h1⟩ := h
  rw [bind_ok] at h1
  obtain ⟨k, hk, h1⟩ := h1
  rw [getKey_ok] at hp hk
  unfold ownRow
  rw [hp]
  simp only [hk]
  cases k with
  | none => cases h1
  | some k => exact (rowOf_ok _ _ _ _).1 h1

/-- Does model `m` have a row for the id, according to its permutation? -/
def marked (info : Info T M) (m : M) (id : Nat) : Option (Option Nat) := (get info.permutations m).bind (fun p => get p id)

theorem marked_ok (info : Info T M) (m : M) (id : Nat) (x : Option Nat) :
    (getKey info.permutations m).bind (fun p => getKey p id) = .ok x ↔ marked info m id = some x := by
  rw [bind_ok]
  unfold marked
  constructor
  · rintro ⟨p, h1, h2⟩
    rw [getKey_ok] at h1 h2
    rw [h1, Option.bind_some, h2]
  · intro h
    rw [Option.bind_eq_some_iff] at h
    obtain ⟨p, h1, h2⟩ := h
    exact ⟨p, (getKey_ok _ _ _).2 h1, (getKey_ok _ _ _).2 h2⟩

/-- The same as a test. -/
def holds (info : Info T M) (id : Nat) (m : M) : Bool :=
  match marked info m id with
  | some (some _) => true
  | _ => false

theorem holds_iff (info : Info T M) (id : Nat) (m : M) : holds info id m = true ↔ ∃ k, marked info m id = some (some k) := by
  unfold holds
  split
  · rename_i k hk
    exact ⟨fun _ => ⟨k, hk⟩, fun _ => rfl⟩
  · rename_i hno
    constructor
    · intro h; cases h
    · rintro ⟨k, hk⟩
      exact absurd hk (hno k)

theorem holders_zip (info : Info T M) (id : Nat) (models : List M) (has : List (Option Nat))
    (h : List.Forall₂ (fun m x => (getKey info.permutations m).bind (fun p => getKey p id) = .ok x) models has) :
    ((models.zip has).filter (fun e => e.2.isSome)).map Prod.fst =
      models.filter (holds info id) := by
  induction h with
  | nil => rfl
  | @cons m x ms xs h1 _ ih =>
    rw [marked_ok] at h1
    rw [List.zip_cons_cons]
    cases x with
    | none =>
      rw [List.filter_cons_of_neg (by simp), List.filter_cons_of_neg (by simp [holds, h1])]
      exact ih
    | some k =>
      rw [List.filter_cons_of_pos (by simp), List.filter_cons_of_pos (by simp [holds, h1]), List.map_cons, ih]

/-- The models that have the token, according to the permutations (specification). -/
def holders (info : Info T M) (models : List M) (id : Nat) : List M :=
  models.filter (holds info id)

theorem assignOne_ok (info : Info T M) (models : List M) (base : Option M) (tokens : List (T × TokCfg T M)) (tok : T) (id : Nat)
    (ch : Choice T M) (h : assignOne info.permutations models base tokens tok id = .ok ch) :
    (∃ c, get tokens tok = some c ∧ ch = .cfg c) ∨
    (get tokens tok = none ∧ (∃ d, holders info models id = [d] ∧ ch = .cfg ⟨.model d, false⟩)) ∨
    (get tokens tok = none ∧ ∃ b, base = some b ∧ (∃ k, marked info b id = some (some k)) ∧ ch = .cfg ⟨.model b, false⟩) ∨
    (get tokens tok = none ∧ (∀ b, base = some b → marked info b id = some none) ∧ ch = .average ∧ holders info models id ≠ []) := by
  unfold assignOne at h
  cases hg : get tokens tok with
  | some c =>
    rw [hg] at h
    cases h
    exact Or.inl ⟨c, rfl, rfl⟩
  | none =>
    rw [hg] at h
    right
    simp only at h
    split at h
    · cases h
    · rename_i has hhas
      rw [mapM_ok] at hhas
      have hz := holders_zip info id models has hhas
      split at h
      · cases h
      · rename_i d hd
        cases h
        left
        refine ⟨rfl, d.1, ?_, rfl⟩
        rw [hd] at hz
        exact hz.symm
      · rename_i hne _
        right
        have hne' : holders info models id ≠ [] := by
          intro hcon
          change holders info models id = [] at hcon
          unfold holders at hcon
          rw [hcon, List.map_eq_nil_iff] at hz
          exact hne hz
        cases base with
        | none =>
          cases h
          exact Or.inr ⟨rfl, by simp, rfl, hne'⟩
        | some b =>
          simp only at h
          split at h
          · cases h
          · rename_i k hk
            cases h
            rw [marked_ok] at hk
            exact Or.inl ⟨rfl, b, rfl, ⟨k, hk⟩, rfl⟩
          · rename_i hk
            cases h
            rw [marked_ok] at hk
            refine Or.inr ⟨rfl, ?_, rfl, hne'⟩
            intro b' hb'
            cases hb'
            exact hk

theorem get_of_forall₂ {A C : Type} (l : List A) (r : List (Nat × C)) (idf : A → Nat) (R : A → Nat × C → Prop)
    (h : List.Forall₂ R l r) (hid : ∀ a c, R a c → c.1 = idf a) (hn : (l.map idf).Nodup) (a : A) (ha : a ∈ l) :
    ∃ c, R a c ∧ get r (idf a) = some c.2 := by
  have hmap : r.map Prod.fst = l.map idf := by
    clear hn ha
    induction h with
    | nil => rfl
    | cons h1 _ ih => rw [List.map_cons, List.map_cons, ih, hid _ _ h1]
  obtain ⟨c, hc, hr⟩ := forall₂_left h a ha
  refine ⟨c, hr, ?_⟩
  apply get_of_mem r (by rw [hmap]; exact hn)
  rw [← hid a c hr]
  exact hc

theorem gapless_lt (v : List (T × Nat)) (h : Gapless v) (tok : T) (id : Nat) (hm : (tok, id) ∈ v) : id < v.length :=
  List.mem_range.1 (h.mem_iff.1 (List.mem_map.2 ⟨_, hm, rfl⟩))

/-- What a successful run of the re-indexing did. -/
theorem permuted_ok (info : Info T M) (tensors : List (M × Emb K)) (tokens : List (T × TokCfg T M)) (pad : Option Nat)
    (base : Option M) (models : List M) (res : List (M × Emb K)) (hg : Gapless info.vocab)
    (h : permutedEmbeddings info tensors tokens pad base models = .ok res) :
    res.map Prod.fst = models ∧
    ∃ e0, (∀ e ∈ tensors, e.2.width = e0) ∧ ∀ m e, (m, e) ∈ res →
      e.width = e0 ∧ e.rows.length = padded info.vocab.length pad ∧
      (∀ tok id, (tok, id) ∈ info.vocab → ∃ ch dflt r p, assignOne info.permutations models base tokens tok id = .ok ch ∧
        defaultRow info tensors models id ch = .ok dflt ∧ get info.permutations m = some p ∧ newRow tensors m p id ch dflt = .ok r ∧
        e.rows[id]? = some r) ∧
      ∀ k, info.vocab.length ≤ k → k < padded info.vocab.length pad →
        e.rows[k]? = some (meanRow (e.rows.take info.vocab.length)) := by
  unfold permutedEmbeddings at h
  split at h
  · cases h
  · rename_i m0 hm0
    rw [bind_ok] at h
    obtain ⟨e0, he0, h⟩ := h
    split at h
    · rename_i hw
      rw [bind_ok] at h
      obtain ⟨choices, hch, h⟩ := h
      rw [bind_ok] at h
      obtain ⟨plan, hplan, h⟩ := h
      rw [mapM_ok] at hch hplan h
      have hlen : plan.length = info.vocab.length := by rw [← hplan.length_eq, ← hch.length_eq]
      have hres : res.map Prod.fst = models := by
        clear hm0
        generalize hnl : padded info.vocab.length pad = nn at h
        clear hnl hch hplan hlen
        induction h with
        | nil => rfl
        | cons h1 _ ih =>
          rw [List.map_cons, ih]
          unfold newEmb at h1
          rw [bind_ok] at h1
          obtain ⟨p, _, h1⟩ := h1
          rw [bind_ok] at h1
          obtain ⟨rows, _, h1⟩ := h1
          rw [map_ok] at h1
          obtain ⟨_, _, rfl⟩ := h1
          rfl
      refine ⟨hres, e0.width, ?_, ?_⟩
      · intro e he
        have := List.all_eq_true.1 hw e he
        simpa using this
      · intro m e hme
        obtain ⟨m', hm', hnew⟩ := forall₂_right h _ hme
        unfold newEmb at hnew
        rw [bind_ok] at hnew
        obtain ⟨p, hp, hnew⟩ := hnew
        rw [bind_ok] at hnew
        obtain ⟨rows, hrows, hnew⟩ := hnew
        rw [map_ok] at hnew
        obtain ⟨e', hass, heq⟩ := hnew
        cases heq
        rw [getKey_ok] at hp
        rw [mapM_ok] at hrows
        -- the plan for each token
        have hplanTok : ∀ tok id, (tok, id) ∈ info.vocab → ∃ ch dflt, (tok, id, ch, dflt) ∈ plan ∧
            assignOne info.permutations models base tokens tok id = .ok ch ∧ defaultRow info tensors models id ch = .ok dflt := by
          intro tok id hin
          obtain ⟨c, hc, hcr⟩ := forall₂_left hch _ hin
          rw [map_ok] at hcr
          obtain ⟨ch, h1, rfl⟩ := hcr
          obtain ⟨q, hq, hqr⟩ := forall₂_left hplan _ hc
          rw [map_ok] at hqr
          obtain ⟨dflt, h2, rfl⟩ := hqr
          exact ⟨ch, dflt, hq, h1, h2⟩
        have hplanIds : plan.map (fun e => e.2.1) = info.vocab.map Prod.snd := by
          have h1 : choices.map (fun e => e.2.1) = info.vocab.map Prod.snd := by
            clear hplan hplanTok hg hlen
            generalize info.vocab = vv at hch
            induction hch with
            | nil => rfl
            | cons h1 _ ih =>
              rw [map_ok] at h1
              obtain ⟨ch, _, rfl⟩ := h1
              rw [List.map_cons, List.map_cons, ih]
          rw [← h1]
          clear h hrows hplanTok hass hg hlen hch h1
          induction hplan with
          | nil => rfl
          | cons h1 _ ih =>
            rw [map_ok] at h1
            obtain ⟨ch, _, rfl⟩ := h1
            rw [List.map_cons, List.map_cons, ih]
        have hnd : (plan.map (fun e => e.2.1)).Nodup := by
          rw [hplanIds]
          exact hg.nodup_iff.2 List.nodup_range
        unfold assemble at hass
        split at hass
        · cases hass
          have hget : ∀ k < padded info.vocab.length pad, (List.map (fun k => if plan.length ≤ k then
              (fun c => ((List.range plan.length).map (fun k => (get rows k).getD (fun _ => 0) c)).sum / (plan.length : K)) else
              (get rows k).getD (fun _ => 0)) (List.range (padded info.vocab.length pad)))[k]? =
              some (if plan.length ≤ k then
              (fun c => ((List.range plan.length).map (fun k => (get rows k).getD (fun _ => 0) c)).sum / (plan.length : K)) else
              (get rows k).getD (fun _ => 0)) := by
            intro k hk
            rw [List.getElem?_map, List.getElem?_range hk]
            rfl
          have hnle : info.vocab.length ≤ padded info.vocab.length pad := (C53_padding _ pad).2.1
          refine ⟨rfl, by simp, ?_, ?_⟩
          · intro tok id hin
            have hlt := gapless_lt info.vocab hg tok id hin
            obtain ⟨ch, dflt, hq, h1, h2⟩ := hplanTok tok id hin
            obtain ⟨c, hc1, hc2⟩ := get_of_forall₂ plan rows (fun e => e.2.1) _ hrows
              (by
                intro a c hc
                rw [map_ok] at hc
                obtain ⟨r, _, rfl⟩ := hc
                rfl) hnd _ hq
            rw [map_ok] at hc1
            obtain ⟨r, hr, rfl⟩ := hc1
            refine ⟨ch, dflt, r, p, h1, h2, hp, hr, ?_⟩
            simp only at hc2 ⊢
            rw [hget id (by omega), if_neg (by omega), hc2]
            rfl
          · intro k hk1 hk2
            simp only
            rw [hget k hk2, if_pos (by omega)]
            congr 1
            funext c
            unfold meanRow
            rw [← List.map_take, List.map_map, List.length_map, List.length_take, List.length_range, hlen, List.take_range,
              Nat.min_eq_left hnle]
            congr 2
            refine List.map_congr_left (fun j hj => ?_)
            rw [List.mem_range] at hj
            simp only [Function.comp_def]
            rw [if_neg (by omega)]
        · cases hass
    · cases h

/-- The row a configured source stands for (specification). -/
def sourceRow (info : Info T M) (tensors : List (M × Emb K)) (id : Nat) : TokSource T M → Option (Nat → K)
  | .model m => ownRow info tensors m id
  | .row m (.inl i) => if 0 ≤ i then (get tensors m).bind (fun e => e.rows[i.toNat]?) else none
  | .row m (.inr tok) => (get info.originalVocabs m).bind (fun v => (get v tok).bind (fun i => (get tensors m).bind (fun e => e.rows[i]?)))
  | _ => none

theorem default_source (info : Info T M) (tensors : List (M × Emb K)) (id : Nat) (c : TokCfg T M) (r : Nat → K)
    (h : computeDefault info tensors id c = .ok r) : sourceRow info tensors id c.source = some r := by
  obtain ⟨src, f⟩ := c
  cases src with
  | zero => cases h
  | unset => cases h
  | model m => exact default_model info tensors id m f r h
  | row m s =>
    unfold computeDefault at h
    simp only at h
    split at h
    · cases h
    · rw [bind_ok] at h
      obtain ⟨i, hi, h⟩ := h
      rw [bind_ok] at h
      obtain ⟨e, he, h⟩ := h
      rw [getKey_ok] at he
      split at h
      · cases h
      · rename_i hneg
        split at h
        · cases h
        · rename_i r' hr
          cases h
          cases s with
          | inl i' =>
            cases hi
            simp only [sourceRow]
            rw [if_pos (by omega), he, Option.bind_some, hr]
          | inr tok =>
            simp only at hi
            rw [bind_ok] at hi
            obtain ⟨v, hv, hi⟩ := hi
            rw [getKey_ok] at hv
            split at hi
            · cases hi
            · rename_i i' hi'
              cases hi
              simp only [sourceRow]
              rw [hv, Option.bind_some, hi', Option.bind_some, he, Option.bind_some]
              exact hr

theorem newRow_cases (info : Info T M) (tensors : List (M × Emb K)) (m : M) (p : List (Nat × Option Nat)) (id : Nat) (ch : Choice T M)
    (dflt r : Nat → K) (hp : get info.permutations m = some p) (h : newRow tensors m p id ch dflt = .ok r) :
    (r = dflt ∧ ((∃ c, ch = .cfg c ∧ c.force = true) ∨ marked info m id = some none)) ∨
    (ownRow info tensors m id = some r ∧ (∃ k, marked info m id = some (some k)) ∧ ∀ c, ch = .cfg c → c.force = false) := by
  unfold newRow at h
  simp only at h
  rw [bind_ok] at h
  obtain ⟨k, hk, h⟩ := h
  rw [getKey_ok] at hk
  have hmk : marked info m id = some k := by
    unfold marked
    rw [hp, Option.bind_some, hk]
  cases k with
  | none =>
    cases h
    exact Or.inl ⟨rfl, Or.inr hmk⟩
  | some k =>
    simp only at h
    have hown : ∀ r, rowOf tensors m k = .ok r → ownRow info tensors m id = some r := by
      intro r hr
      unfold ownRow
      rw [hp]
      simp only [hk]
      exact (rowOf_ok _ _ _ _).1 hr
    cases ch with
    | average =>
      simp only [Bool.false_eq_true, if_false] at h
      exact Or.inr ⟨hown r h, ⟨k, hmk⟩, by simp⟩
    | cfg c =>
      simp only at h
      by_cases hf : c.force = true
      · rw [if_pos hf] at h
        cases h
        exact Or.inl ⟨rfl, Or.inl ⟨c, rfl, hf⟩⟩
      · rw [if_neg hf] at h
        refine Or.inr ⟨hown r h, ⟨k, hmk⟩, ?_⟩
        intro c' hc'
        cases hc'
        simpa using hf

theorem marked_none (info : Info T M) (tensors : List (M × Emb K)) (m : M) (id : Nat) (h : ∀ k, marked info m id ≠ some (some k)) :
    ownRow info tensors m id = none := by
  unfold ownRow
  unfold marked at h
  cases hp : get info.permutations m with
  | none => rfl
  | some p =>
    rw [hp, Option.bind_some] at h
    simp only

theorem own_marked (info : Info T M) (tensors : List (M × Emb K)) (m : M) (id : Nat) (r : Nat → K) (h : ownRow info tensors m id = some r) :
    ∃ k, marked info m id = some (some k) := by
  by_contra hcon
  push Not at hcon
  rw [marked_none info tensors m id hcon] at h
  cases h

/-- **C51** In the re-indexed embedding of a model, the row of an output token is
* the model's own row, if the model has the token and no source is forced;
* for a token with a configured source: the source's row, if forced or the model lacks the token;
* for any other token: the base model's row if the base has the token, else the mean of the rows of the models that have it.
Rows after the tokens are the mean of the rows before; all embeddings have the common width. -/
theorem C51_rows (info : Info T M) (tensors : List (M × Emb K)) (tokens : List (T × TokCfg T M)) (pad : Option Nat)
    (base : Option M) (models : List M) (hb : ∀ b, base = some b → b ∈ models) (hg : Gapless info.vocab)
    (res : List (M × Emb K)) (h : permutedEmbeddings info tensors tokens pad base models = .ok res) :
    res.map Prod.fst = models ∧ ∀ m e, (m, e) ∈ res →
      e.rows.length = padded info.vocab.length pad ∧ (∀ e' ∈ tensors, e.width = e'.2.width) ∧
      (∀ tok id, (tok, id) ∈ info.vocab →
        ((∀ c, get tokens tok = some c → c.force = false) → ∀ r, ownRow info tensors m id = some r → e.rows[id]? = some r) ∧
        (∀ c, get tokens tok = some c → c.force = true ∨ ownRow info tensors m id = none →
          e.rows[id]? = sourceRow info tensors id c.source ∧ e.rows[id]? ≠ none) ∧
        (get tokens tok = none → ownRow info tensors m id = none →
          (∀ b r, base = some b → ownRow info tensors b id = some r → e.rows[id]? = some r) ∧
          ((∀ b, base = some b → ownRow info tensors b id = none) →
            e.rows[id]? = some (meanRow (models.filterMap (fun m => ownRow info tensors m id)))))) ∧
      ∀ k, info.vocab.length ≤ k → k < padded info.vocab.length pad → e.rows[k]? = some (meanRow (e.rows.take info.vocab.length)) := by
  obtain ⟨h1, e0, hwidth, hall⟩ := permuted_ok info tensors tokens pad base models res hg h
  refine ⟨h1, fun m e hme => ?_⟩
  obtain ⟨g1, g2, g3, g4⟩ := hall m e hme
  refine ⟨g2, fun e' he' => by rw [g1, hwidth e' he'], ?_, g4⟩
  intro tok id hin
  obtain ⟨ch, dflt, r, p, k1, k2, k3, k4, k5⟩ := g3 tok id hin
  have hnc := newRow_cases info tensors m p id ch dflt r k3 k4
  -- unconfigured tokens: rows of all models that have it exist
  have hun : get tokens tok = none → ∀ m' ∈ models, ∀ k, marked info m' id = some (some k) → ∃ r', ownRow info tensors m' id = some r' := by
    intro hnone m' hm' k hk
    rw [← h1] at hm'
    obtain ⟨x, hx, hx2⟩ := List.mem_map.1 hm'
    obtain ⟨m'', e''⟩ := x
    simp only at hx2
    subst hx2
    obtain ⟨_, _, g3', _⟩ := hall m'' e'' hx
    obtain ⟨ch', dflt', r', p', k1', k2', k3', k4', k5'⟩ := g3' tok id hin
    rcases newRow_cases info tensors m'' p' id ch' dflt' r' k3' k4' with ⟨_, ⟨c, hc, hf⟩ | hno⟩ | ⟨hr, _, _⟩
    · subst hc
      rcases assignOne_ok info models base tokens tok id _ k1' with ⟨c', hc', hcc⟩ | ⟨_, d, _, hcc⟩ | ⟨_, b, _, _, hcc⟩ | ⟨_, _, hcc, _⟩
      · rw [hnone] at hc'; cases hc'
      · cases hcc; cases hf
      · cases hcc; cases hf
      · cases hcc
    · rw [hk] at hno; cases hno
    · exact ⟨r', hr⟩
  refine ⟨?_, ?_, ?_⟩
  · intro hforce r' hr'
    rcases hnc with ⟨_, ⟨c, rfl, hf⟩ | hno⟩ | ⟨hr, _, _⟩
    · rcases assignOne_ok info models base tokens tok id _ k1 with ⟨c', hc', hcc⟩ | ⟨_, d, _, hcc⟩ | ⟨_, b, _, _, hcc⟩ | ⟨_, _, hcc, _⟩
      · cases hcc
        have := hforce c hc'
        rw [hf] at this
        cases this
      · cases hcc; cases hf
      · cases hcc; cases hf
      · cases hcc
    · obtain ⟨k, hk⟩ := own_marked info tensors m id r' hr'
      rw [hk] at hno
      cases hno
    · rw [hr] at hr'
      cases hr'
      exact k5
  · intro c hc hor
    have hch : ch = .cfg c := by
      rcases assignOne_ok info models base tokens tok id _ k1 with ⟨c', hc', hcc⟩ | ⟨hn, _⟩ | ⟨hn, _⟩ | ⟨hn, _⟩
      · rw [hc] at hc'
        cases hc'
        exact hcc
      all_goals (rw [hc] at hn; cases hn)
    subst hch
    have hsrc := default_source info tensors id c dflt k2
    rcases hnc with ⟨rfl, _⟩ | ⟨hr, _, hf⟩
    · rw [k5, hsrc]
      exact ⟨rfl, by simp⟩
    · rcases hor with hor | hor
      · rw [hf c rfl] at hor; cases hor
      · rw [hr] at hor; cases hor
  · intro hnone hown
    have hd : r = dflt := by
      rcases hnc with ⟨hr, _⟩ | ⟨hr, _⟩
      · exact hr
      · rw [hr] at hown; cases hown
    subst hd
    rcases assignOne_ok info models base tokens tok id _ k1 with ⟨c', hc', _⟩ | ⟨_, d, hd, rfl⟩ | ⟨_, b, hbb, hbk, rfl⟩ | ⟨_, hbn, rfl, _⟩
    · rw [hnone] at hc'; cases hc'
    · have hdr := default_model info tensors id d false r k2
      have hmem : ∀ m', m' ∈ models → (∃ k, marked info m' id = some (some k)) → m' = d := by
        intro m' hm' hk
        have : m' ∈ holders info models id := by
          unfold holders
          rw [List.mem_filter]
          exact ⟨hm', (holds_iff _ _ _).2 hk⟩
        rw [hd] at this
        simpa using this
      refine ⟨?_, ?_⟩
      · intro b r' hbb hbr
        have := hmem b (hb b hbb) (own_marked info tensors b id r' hbr)
        subst this
        rw [hdr] at hbr
        cases hbr
        exact k5
      · intro _
        have hfm : models.filterMap (fun m => ownRow info tensors m id) = [r] := by
          have e1 : models.filterMap (fun m => ownRow info tensors m id) =
              (holders info models id).filterMap (fun m => ownRow info tensors m id) := by
            unfold holders
            rw [List.filterMap_filter]
            refine List.filterMap_congr (fun m' _ => ?_)
            split
            · rfl
            · rename_i hno
              apply marked_none
              intro k hk
              exact hno ((holds_iff _ _ _).2 ⟨k, hk⟩)
          rw [e1, hd]
          simp [hdr]
        rw [k5, hfm]
        congr 1
        funext c
        simp [meanRow]
    · have hdr := default_model info tensors id b false r k2
      refine ⟨?_, ?_⟩
      · intro b' r' hb' hbr
        rw [hbb] at hb'
        cases hb'
        rw [hdr] at hbr
        cases hbr
        exact k5
      · intro hno
        have := hno b hbb
        rw [hdr] at this
        cases this
    · refine ⟨?_, ?_⟩
      · intro b r' hbb hbr
        obtain ⟨k, hk⟩ := own_marked info tensors b id r' hbr
        rw [hbn b hbb] at hk
        cases hk
      · intro _
        rw [k5, ← averageRow_ok info tensors models id r k2]

/-! ## C52 -/

/-- **C52** refuted: a token configured with a zero source makes the re-indexing fail, whatever the models. -/
theorem C52_configured_zero_fails (info : Info T M) (tensors : List (M × Emb K)) (tokens : List (T × TokCfg T M)) (pad : Option Nat)
    (base : Option M) (models : List M) (hg : Gapless info.vocab) (hne : models ≠ []) (tok : T) (id : Nat) (hin : (tok, id) ∈ info.vocab)
    (f : Bool) (hz : get tokens tok = some ⟨.zero, f⟩) (res : List (M × Emb K)) :
    permutedEmbeddings info tensors tokens pad base models ≠ .ok res := by
  intro h
  obtain ⟨h1, _, _, hall⟩ := permuted_ok info tensors tokens pad base models res hg h
  cases res with
  | nil => exact hne h1.symm
  | cons e res =>
    obtain ⟨_, _, g3, _⟩ := hall e.1 e.2 (by simp)
    obtain ⟨ch, dflt, r, p, k1, k2, _⟩ := g3 tok id hin
    rcases assignOne_ok info models base tokens tok id _ k1 with ⟨c', hc', rfl⟩ | ⟨hn, _⟩ | ⟨hn, _⟩ | ⟨hn, _⟩
    · rw [hz] at hc'
      cases hc'
      cases k2
    all_goals (rw [hz] at hn; cases hn)

/-- **C52** refuted: so does a token without configured source that no model has. -/
theorem C52_absent_token_fails (info : Info T M) (tensors : List (M × Emb K)) (tokens : List (T × TokCfg T M)) (pad : Option Nat)
    (base : Option M) (models : List M) (hg : Gapless info.vocab) (hne : models ≠ []) (tok : T) (id : Nat) (hin : (tok, id) ∈ info.vocab)
    (hb : ∀ b, base = some b → b ∈ models)
    (hz : get tokens tok = none) (hm : ∀ m ∈ models, marked info m id = some none) (res : List (M × Emb K)) :
    permutedEmbeddings info tensors tokens pad base models ≠ .ok res := by
  intro h
  obtain ⟨h1, _, _, hall⟩ := permuted_ok info tensors tokens pad base models res hg h
  have hno : holders info models id = [] := by
    unfold holders
    rw [List.filter_eq_nil_iff]
    intro m hmm
    rw [holds_iff]
    rintro ⟨k, hk⟩
    rw [hm m hmm] at hk
    cases hk
  cases res with
  | nil => exact hne h1.symm
  | cons e res =>
    obtain ⟨_, _, g3, _⟩ := hall e.1 e.2 (by simp)
    obtain ⟨ch, dflt, r, p, k1, k2, _⟩ := g3 tok id hin
    rcases assignOne_ok info models base tokens tok id _ k1 with ⟨c', hc', rfl⟩ | ⟨_, d, hd, _⟩ | ⟨_, b, hbb, ⟨k, hk⟩, _⟩ | ⟨_, _, _, hne'⟩
    · rw [hz] at hc'
      cases hc'
    · rw [hno] at hd; cases hd
    · rw [hm b (hb b hbb)] at hk
      cases hk
    · exact hne' hno

/-- **C51** The re-indexing succeeds if all models have tensors of one width, the permutations cover the output tokens and point into the tensors, every
token without configured source is in some model, and every configured source names an existing row. -/
theorem C51_succeeds (info : Info T M) (tensors : List (M × Emb K)) (tokens : List (T × TokCfg T M)) (pad : Option Nat)
    (base : Option M) (models : List M) (hne : models ≠ []) (hb : ∀ b, base = some b → b ∈ models) (hg : Gapless info.vocab)
    (width : Nat) (hw : ∀ e ∈ tensors, e.2.width = width) (ht : ∀ m ∈ models, (get tensors m).isSome)
    (hperm : ∀ m ∈ models, (get info.permutations m).isSome)
    (hp : ∀ m ∈ models, ∀ e ∈ info.vocab, marked info m e.2 = some none ∨ ∃ r, ownRow info tensors m e.2 = some r)
    (hhave : ∀ e ∈ info.vocab, get tokens e.1 = none → ∃ m ∈ models, ∃ r, ownRow info tensors m e.2 = some r)
    (hsrc : ∀ e ∈ info.vocab, ∀ c, get tokens e.1 = some c → (∃ m, c.source = .model m) ∨ (∃ m s, c.source = .row m s ∧ (get info.permutations m).isSome))
    (hsrc2 : ∀ e ∈ info.vocab, ∀ c, get tokens e.1 = some c → sourceRow info tensors e.2 c.source ≠ none) :
    ∃ res, permutedEmbeddings info tensors tokens pad base models = .ok res := by
  have hmk : ∀ m ∈ models, ∀ e ∈ info.vocab, ∃ x, marked info m e.2 = some x := by
    intro m hm e he
    rcases hp m hm e he with h | ⟨r, h⟩
    · exact ⟨_, h⟩
    · obtain ⟨k, hk⟩ := own_marked info tensors m e.2 r h
      exact ⟨_, hk⟩
  have hrow : ∀ m ∈ models, ∀ e ∈ info.vocab, ∀ k, marked info m e.2 = some (some k) → ∃ r, rowOf tensors m k = .ok r := by
    intro m hm e he k hk
    rcases hp m hm e he with h | ⟨r, h⟩
    · rw [h] at hk; cases hk
    · refine ⟨r, ?_⟩
      rw [rowOf_ok]
      unfold ownRow at h
      unfold marked at hk
      cases hpm : get info.permutations m with
      | none => rw [hpm] at hk; cases hk
      | some p =>
        rw [hpm, Option.bind_some] at hk
        rw [hpm] at h
        simp only [hk] at h
        exact h
  have hassign : ∀ e ∈ info.vocab, ∃ ch, assignOne info.permutations models base tokens e.1 e.2 = .ok ch := by
    intro e he
    unfold assignOne
    cases hgt : get tokens e.1 with
    | some c => exact ⟨_, rfl⟩
    | none =>
      simp only
      obtain ⟨has, hhas⟩ := mapM_total (fun m => (getKey info.permutations m).bind (fun p => getKey p e.2)) models (by
        intro m hm
        obtain ⟨x, hx⟩ := hmk m hm e he
        exact ⟨x, (marked_ok _ _ _ _).2 hx⟩)
      rw [hhas]
      simp only
      have hz := holders_zip info e.2 models has ((mapM_ok _ _ _).1 hhas)
      split
      · rename_i hnil
        exfalso
        obtain ⟨m, hm, r, hr⟩ := hhave e he hgt
        have hmem : m ∈ models.filter (holds info e.2) := by
          rw [List.mem_filter]
          exact ⟨hm, (holds_iff _ _ _).2 (own_marked info tensors m e.2 r hr)⟩
        rw [← hz, hnil] at hmem
        simp at hmem
      · exact ⟨_, rfl⟩
      · cases base with
        | none => exact ⟨_, rfl⟩
        | some b =>
          obtain ⟨x, hx⟩ := hmk b (hb b rfl) e he
          simp only
          rw [(marked_ok info b e.2 x).2 hx]
          cases x <;> exact ⟨_, rfl⟩
  have hdef : ∀ e ∈ info.vocab, ∀ ch, assignOne info.permutations models base tokens e.1 e.2 = .ok ch →
      ∃ r, defaultRow info tensors models e.2 ch = .ok r := by
    intro e he ch hch
    have hmodel : ∀ m f, (∃ r, ownRow info tensors m e.2 = some r) → ∃ r, computeDefault info tensors e.2 (⟨.model m, f⟩ : TokCfg T M) = .ok r := by
      rintro m f ⟨r, hr⟩
      unfold computeDefault
      simp only
      obtain ⟨k, hk⟩ := own_marked info tensors m e.2 r hr
      unfold marked at hk
      unfold ownRow at hr
      cases hpm : get info.permutations m with
      | none => rw [hpm] at hk; cases hk
      | some p =>
        rw [hpm, Option.bind_some] at hk
        rw [hpm] at hr
        simp only [hk] at hr
        refine ⟨r, ?_⟩
        rw [bind_ok]
        refine ⟨p, (getKey_ok _ _ _).2 hpm, ?_⟩
        rw [bind_ok]
        exact ⟨some k, (getKey_ok _ _ _).2 hk, (rowOf_ok _ _ _ _).2 hr⟩
    rcases assignOne_ok info models base tokens e.1 e.2 ch hch with ⟨c, hc, rfl⟩ | ⟨_, d, hd, rfl⟩ | ⟨_, b, hbb, ⟨k, hk⟩, rfl⟩ | ⟨_, _, rfl, _⟩
    · unfold defaultRow
      simp only
      have hs2 := hsrc2 e he c hc
      obtain ⟨src, f⟩ := c
      simp only at hs2
      rcases hsrc e he _ hc with ⟨m, hm⟩ | ⟨m, s, hm, hpm⟩
      · simp only at hm
        subst hm
        exact hmodel m f (Option.ne_none_iff_exists'.1 hs2)
      · simp only at hm
        subst hm
        unfold computeDefault
        simp only
        obtain ⟨p, hpm⟩ := Option.isSome_iff_exists.1 hpm
        rw [hpm]
        simp only
        obtain ⟨r, hr⟩ := Option.ne_none_iff_exists'.1 hs2
        refine ⟨r, ?_⟩
        rw [bind_ok]
        cases s with
        | inl i =>
          simp only [sourceRow] at hr
          split at hr
          · rename_i hi
            refine ⟨i, rfl, ?_⟩
            rw [bind_ok]
            rw [Option.bind_eq_some_iff] at hr
            obtain ⟨emb, h1, h2⟩ := hr
            refine ⟨emb, (getKey_ok _ _ _).2 h1, ?_⟩
            rw [if_neg (by omega), h2]
          · cases hr
        | inr tok =>
          simp only [sourceRow] at hr
          rw [Option.bind_eq_some_iff] at hr
          obtain ⟨v, hv, hr⟩ := hr
          rw [Option.bind_eq_some_iff] at hr
          obtain ⟨i, hi, hr⟩ := hr
          rw [Option.bind_eq_some_iff] at hr
          obtain ⟨emb, h1, h2⟩ := hr
          refine ⟨(i : Int), ?_, ?_⟩
          · simp only
            rw [bind_ok]
            refine ⟨v, (getKey_ok _ _ _).2 hv, ?_⟩
            rw [hi]
          · rw [bind_ok]
            refine ⟨emb, (getKey_ok _ _ _).2 h1, ?_⟩
            rw [if_neg (by omega), Int.toNat_natCast, h2]
    · apply hmodel d false
      have : d ∈ holders info models e.2 := by rw [hd]; simp
      unfold holders at this
      rw [List.mem_filter] at this
      obtain ⟨hm, hk⟩ := this
      rcases hp d hm e he with h | h
      · simp [holds, h] at hk
      · exact h
    · apply hmodel b false
      rcases hp b (hb b hbb) e he with h | h
      · rw [h] at hk; cases hk
      · exact h
    · unfold defaultRow averageRow
      simp only
      obtain ⟨rows, hrows⟩ := mapM_total (heldRow info tensors e.2) models (by
        intro m hm
        unfold heldRow
        obtain ⟨x, hx⟩ := hmk m hm e he
        have hx' := hx
        unfold marked at hx'
        rw [Option.bind_eq_some_iff] at hx'
        obtain ⟨p, h1, h2⟩ := hx'
        cases x with
        | none =>
          refine ⟨none, ?_⟩
          rw [bind_ok]
          refine ⟨p, (getKey_ok _ _ _).2 h1, ?_⟩
          rw [bind_ok]
          exact ⟨none, (getKey_ok _ _ _).2 h2, rfl⟩
        | some k =>
          obtain ⟨r, hr⟩ := hrow m hm e he k hx
          refine ⟨some r, ?_⟩
          rw [bind_ok]
          refine ⟨p, (getKey_ok _ _ _).2 h1, ?_⟩
          rw [bind_ok]
          exact ⟨some k, (getKey_ok _ _ _).2 h2, by simp only [hr]; rfl⟩)
      rw [hrows]
      exact ⟨_, rfl⟩
  unfold permutedEmbeddings
  cases hh : models.head? with
  | none => rw [List.head?_eq_none_iff] at hh; exact absurd hh hne
  | some m0 =>
    have hm0 : m0 ∈ models := List.mem_of_head? hh
    obtain ⟨e0, he0⟩ := Option.isSome_iff_exists.1 (ht m0 hm0)
    have hw0 := hw _ (get_mem _ _ _ he0)
    simp only at hw0 ⊢
    have hallw : tensors.all (fun e => decide (e.2.width = e0.width)) = true := by
      rw [List.all_eq_true]
      intro e he
      rw [hw0]
      simpa using hw e he
    obtain ⟨choices, hch⟩ := mapM_total (fun e : T × Nat => (assignOne info.permutations models base tokens e.1 e.2).map (fun ch => (e.1, e.2, ch)))
      info.vocab (by
        intro e he
        obtain ⟨ch, hc⟩ := hassign e he
        exact ⟨_, (map_ok _ _ _).2 ⟨ch, hc, rfl⟩⟩)
    have hch' := (mapM_ok _ _ _).1 hch
    obtain ⟨plan, hpl⟩ := mapM_total (fun e : T × Nat × Choice T M => (defaultRow info tensors models e.2.1 e.2.2).map (fun r => (e.1, e.2.1, e.2.2, r)))
      choices (by
        intro x hx
        obtain ⟨e, he, hr⟩ := forall₂_right hch' x hx
        rw [map_ok] at hr
        obtain ⟨ch, hc, rfl⟩ := hr
        obtain ⟨r, hr⟩ := hdef e he ch hc
        exact ⟨_, (map_ok _ _ _).2 ⟨r, hr, rfl⟩⟩)
    have hpl' := (mapM_ok _ _ _).1 hpl
    have hplan : ∀ x ∈ plan, ∃ e ∈ info.vocab, x.2.1 = e.2 ∧ assignOne info.permutations models base tokens e.1 e.2 = .ok x.2.2.1 := by
      intro x hx
      obtain ⟨c, hc, hr⟩ := forall₂_right hpl' x hx
      rw [map_ok] at hr
      obtain ⟨r, _, rfl⟩ := hr
      obtain ⟨e, he, hr⟩ := forall₂_right hch' c hc
      rw [map_ok] at hr
      obtain ⟨ch, hc', rfl⟩ := hr
      exact ⟨e, he, rfl, hc'⟩
    have hfin : ∃ res, models.mapM (newEmb info tensors e0.width (padded info.vocab.length pad) plan) = .ok res := by
      apply mapM_total
      intro m hm
      unfold newEmb
      obtain ⟨p, hpm⟩ := Option.isSome_iff_exists.1 (hperm m hm)
      have hlen : plan.length = info.vocab.length := by rw [← hpl'.length_eq, ← hch'.length_eq]
      obtain ⟨rows, hrows⟩ := mapM_total (fun x : T × Nat × Choice T M × (Nat → K) =>
          (newRow tensors m p x.2.1 x.2.2.1 x.2.2.2).map (fun r => (x.2.1, r))) plan (by
        intro x hx
        obtain ⟨e, he, hid, _⟩ := hplan x hx
        obtain ⟨y, hy⟩ := hmk m hm e he
        have hy' := hy
        unfold marked at hy'
        rw [hpm, Option.bind_some, ← hid] at hy'
        unfold newRow
        simp only [(getKey_ok _ _ _).2 hy', Except.bind]
        cases y with
        | none => exact ⟨_, rfl⟩
        | some k =>
          obtain ⟨r, hr⟩ := hrow m hm e he k hy
          simp only [hr]
          split
          · split
            · exact ⟨_, rfl⟩
            · exact ⟨_, rfl⟩
          · exact ⟨_, rfl⟩)
      have hrows' := (mapM_ok _ _ _).1 hrows
      have hass : ∃ e, assemble e0.width plan.length (padded info.vocab.length pad) rows = .ok e := by
        unfold assemble
        rw [if_pos]
        · exact ⟨_, rfl⟩
        · rw [List.all_eq_true]
          intro y hy
          obtain ⟨x, hx, hr⟩ := forall₂_right hrows' y hy
          rw [map_ok] at hr
          obtain ⟨r, _, rfl⟩ := hr
          obtain ⟨e, he, hid, _⟩ := hplan x hx
          have h1 := gapless_lt info.vocab hg e.1 e.2 he
          have h2 := (C53_padding info.vocab.length pad).2.1
          simp only [decide_eq_true_eq]
          omega
      obtain ⟨emb, hemb⟩ := hass
      refine ⟨(m, emb), ?_⟩
      rw [bind_ok]
      refine ⟨p, (getKey_ok _ _ _).2 hpm, ?_⟩
      rw [bind_ok]
      refine ⟨rows, hrows, ?_⟩
      rw [map_ok]
      exact ⟨emb, hemb, rfl⟩
    obtain ⟨res, hres⟩ := hfin
    refine ⟨res, ?_⟩
    rw [bind_ok]
    refine ⟨e0, (getKey_ok _ _ _).2 he0, ?_⟩
    rw [if_pos hallw, bind_ok]
    refine ⟨choices, hch, ?_⟩
    rw [bind_ok]
    exact ⟨plan, hpl, hres⟩

end

/-! ## Examples -/

/-- Two models with the vocabularies {a, b} and {b, c}, token 3 configured as a copy of `c` of the second model. -/
def exInfo : Info Nat Nat :=
  ⟨[(10, 0), (11, 1), (12, 2), (13, 3)],
   [(0, [(0, some 0), (1, some 1), (2, none), (3, none)]), (1, [(0, none), (1, some 0), (2, some 1), (3, none)])],
   [(0, [(10, 0), (11, 1)]), (1, [(11, 0), (12, 1)])]⟩

def exTensors : List (Nat × Emb ℚ) := [(0, ⟨1, [fun _ => 1, fun _ => 2]⟩), (1, ⟨1, [fun _ => 3, fun _ => 4]⟩)]

def exTokens : List (Nat × TokCfg Nat Nat) := [(13, ⟨.row 1 (.inr 12), false⟩)]

def firstCol (r : Except Err (List (Nat × Emb ℚ))) : Option (List (Nat × List ℚ)) :=
  match r with
  | .ok l => some (l.map (fun e => (e.1, e.2.rows.map (fun r => r 0))))
  | .error _ => none

example : firstCol (permutedEmbeddings exInfo exTensors exTokens (some 5) none [1, 0]) =
    some [(1, [1, 3, 4, 4, 3]), (0, [1, 2, 4, 4, 11 / 4])] := by decide +kernel

example : Gapless exInfo.vocab := List.Perm.refl _

end Verif.Tok
