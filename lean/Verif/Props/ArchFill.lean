import Verif.Props.Arch
import Mathlib.Data.List.Forall2
import Mathlib.Tactic.Ring

/-! # C63: what the templates expand to -/

set_option linter.unusedSectionVars false

namespace Verif.Arch

open Verif.ModelRef (Str)

/-! ## Specification: a template as its author thinks of it -/

/-- The arithmetic allowed in a placeholder. -/
inductive Shift where
  | same | up | down
deriving DecidableEq

/-- What is written after the name. -/
def Shift.text : Shift → Str
  | .same => []
  | .up => "+1".toList
  | .down => "-1".toList

/-- What is added. -/
def Shift.val : Shift → Int
  | .same => 0
  | .up => 1
  | .down => -1

/-- Text, the index of the layer, or the number of layers. -/
inductive Item where
  | text (s : Str)
  | index (d : Shift)
  | total (d : Shift)
deriving DecidableEq

/-- As written in a definition. -/
def Item.written : Item → Str
  | .text s => s
  | .index d => "${layer_index".toList ++ d.text ++ ['}']
  | .total d => "${num_layers".toList ++ d.text ++ ['}']

/-- As it appears in the name for layer `i` of `n`. -/
def Item.filled (n i : Nat) : Item → Str
  | .text s => s
  | .index d => (toString ((i : Int) + d.val)).toList
  | .total d => (toString ((n : Int) + d.val)).toList

/-! ## Proofs -/

theorem dec_toString (k : Int) : dec k = (toString k).toList := by
  cases k with
  | ofNat n => exact (Nat.toList_repr (n := n)).symm
  | negSucc n =>
    have : toString (Int.negSucc n) = "-" ++ Nat.repr (n + 1) := rfl
    rw [this, String.toList_append, Nat.toList_repr]
    rfl

theorem splitStep_text (d : Shift) (s : Str) : splitStep (d.text ++ '}' :: s) = (d.text, '}' :: s) := by
  cases d <;> rfl

theorem splitId_var {c : Char} {a : Str} (hc : isIdStart c = true) (ha : ∀ x ∈ a, isIdChar x = true) (d : Shift) (s : Str) :
    splitId (c :: (a ++ (d.text ++ '}' :: s))) = some (c :: a ++ d.text, '}' :: s) := by
  have hd : ∀ x r, d.text ++ '}' :: s = x :: r → isIdChar x = false := by
    intro x r h
    cases d <;> (simp only [Shift.text] at h; cases h; decide)
  obtain ⟨x, r, hx⟩ : ∃ x r, d.text ++ '}' :: s = x :: r := by cases d <;> exact ⟨_, _, rfl⟩
  have h1 : List.takeWhile isIdChar (a ++ (d.text ++ '}' :: s)) = a := by
    rw [List.takeWhile_append_of_pos ha, hx, List.takeWhile_cons, hd x r hx]
    simp
  have h2 : List.dropWhile isIdChar (a ++ (d.text ++ '}' :: s)) = d.text ++ '}' :: s := by
    rw [List.dropWhile_append_of_pos ha, hx, List.dropWhile_cons, hd x r hx]
    simp
  simp only [splitId, hc, if_true, h1, h2, splitStep_text]

theorem written_index (d : Shift) : '{' ∈ Item.written (.index d) ∧ 1 ≤ (Item.written (.index d)).length := by cases d <;> decide

theorem written_total (d : Shift) : '{' ∈ Item.written (.total d) ∧ 1 ≤ (Item.written (.total d)).length := by cases d <;> decide

/-- The pieces of an item. -/
def Item.pieces : Item → List Piece
  | .text s => s.map Piece.lit
  | .index d => [.var ("layer_index".toList ++ d.text)]
  | .total d => [.var ("num_layers".toList ++ d.text)]

theorem pieces_var {c : Char} {a : Str} (hc : isIdStart c = true) (ha : ∀ x ∈ a, isIdChar x = true) (d : Shift) (k : Nat) (rest : Str) :
    Verif.Arch.pieces (k + 1) ('$' :: '{' :: (c :: a ++ d.text ++ ['}']) ++ rest) = .var (c :: a ++ d.text) :: Verif.Arch.pieces k rest := by
  have e : '$' :: '{' :: (c :: a ++ d.text ++ ['}']) ++ rest = '$' :: '{' :: (c :: (a ++ (d.text ++ '}' :: rest))) := by simp
  rw [e]
  have : afterDollar ('{' :: (c :: (a ++ (d.text ++ '}' :: rest)))) = (.var (c :: a ++ d.text), rest) := by
    simp only [afterDollar, splitId_var hc ha]
  simp only [Verif.Arch.pieces, this]

theorem pieces_items {items : List Item} (h : ∀ s, Item.text s ∈ items → '$' ∉ s) {k : Nat} (hk : (items.flatMap Item.written).length ≤ k) :
    pieces k (items.flatMap Item.written) = items.flatMap Item.pieces := by
  induction items generalizing k with
  | nil => cases k <;> rfl
  | cons x xs ih =>
    have ih' := fun {k : Nat} (hk : (xs.flatMap Item.written).length ≤ k) => ih (fun s hs => h s (by simp [hs])) hk
    rw [List.flatMap_cons] at hk ⊢
    rw [List.flatMap_cons]
    rw [List.length_append] at hk
    cases x with
    | text s =>
      have e : Item.written (.text s) = s := rfl
      rw [e] at hk
      obtain ⟨k', rfl⟩ : ∃ k', k = s.length + k' := ⟨k - s.length, by omega⟩
      have hk' : (xs.flatMap Item.written).length ≤ k' := by omega
      have := pieces_plain (h s (by simp)) k' (xs.flatMap Item.written)
      rw [e, this, ih' hk']
      rfl
    | index d =>
      obtain ⟨k', rfl⟩ : ∃ k', k = k' + 1 := ⟨k - 1, by have := (written_index d).2; omega⟩
      have := pieces_var (c := 'l') (a := "ayer_index".toList) (by decide) (by decide) d k' (xs.flatMap Item.written)
      have e : Item.written (.index d) = '$' :: '{' :: ('l' :: "ayer_index".toList ++ d.text ++ ['}']) := rfl
      have hk' : (xs.flatMap Item.written).length ≤ k' := by have := (written_index d).2; omega
      rw [e, this, ih' hk']
      rfl
    | total d =>
      obtain ⟨k', rfl⟩ : ∃ k', k = k' + 1 := ⟨k - 1, by have := (written_total d).2; omega⟩
      have := pieces_var (c := 'n') (a := "um_layers".toList) (by decide) (by decide) d k' (xs.flatMap Item.written)
      have e : Item.written (.total d) = '$' :: '{' :: ('n' :: "um_layers".toList ++ d.text ++ ['}']) := rfl
      have hk' : (xs.flatMap Item.written).length ≤ k' := by have := (written_total d).2; omega
      rw [e, this, ih' hk']
      rfl

theorem render_append_ok (n : Int) (layer : Option Int) (ps qs : List Piece) {s : Str} (h : render n layer ps = .ok s) :
    render n layer (ps ++ qs) = (render n layer qs).map (fun t => s ++ t) := by
  induction ps generalizing s with
  | nil =>
    simp only [render, Except.ok.injEq] at h
    subst h
    rw [List.nil_append]
    cases render n layer qs <;> rfl
  | cons p ps ih =>
    simp only [render, List.cons_append] at h ⊢
    cases hp : renderPiece n layer p with
    | error e => rw [hp] at h; cases h
    | ok a =>
      rw [hp] at h
      cases hr : render n layer ps with
      | error e => rw [hr] at h; cases h
      | ok b =>
        rw [hr] at h
        simp only [Except.ok.injEq] at h
        subst h
        rw [ih hr]
        cases render n layer qs <;> simp [Except.map]

theorem render_item (n i : Nat) (x : Item) : render n (some (i : Int)) x.pieces = .ok (x.filled n i) := by
  cases x with
  | text s =>
    have := render_lits n (some (i : Int)) s []
    rw [List.append_nil] at this
    rw [Item.pieces, this]
    simp [render, Except.map, Item.filled]
  | index d => cases d <;> simp [Item.pieces, render, renderPiece, lookup, Shift.text, Item.filled, dec_toString, Shift.val] <;> rfl
  | total d => cases d <;> simp [Item.pieces, render, renderPiece, lookup, Shift.text, Item.filled, dec_toString, Shift.val] <;> rfl

theorem render_items (n i : Nat) (items : List Item) :
    render n (some (i : Int)) (items.flatMap Item.pieces) = .ok (items.flatMap (Item.filled n i)) := by
  induction items with
  | nil => rfl
  | cons x xs ih =>
    rw [List.flatMap_cons, List.flatMap_cons, render_append_ok _ _ _ _ (render_item n i x), ih]
    rfl

theorem no_brace {items : List Item} (h : '{' ∉ items.flatMap Item.written) (n i : Nat) :
    items.flatMap Item.written = items.flatMap (Item.filled n i) := by
  have : ∀ x ∈ items, Item.written x = Item.filled n i x := by
    intro x hx
    cases x with
    | text s => rfl
    | index d => exact absurd (List.mem_flatMap.2 ⟨_, hx, (written_index d).1⟩) h
    | total d => exact absurd (List.mem_flatMap.2 ⟨_, hx, (written_total d).1⟩) h
  rw [List.flatMap_def, List.flatMap_def, List.map_congr_left this]

/-- C63: for every template, layer and number of layers, each placeholder is replaced by its number and the other text stays. -/
theorem C63_fills (items : List Item) (h : ∀ s, Item.text s ∈ items → '$' ∉ s) (n i : Nat) :
    expand (items.flatMap Item.written) n (some (i : Int)) = .ok (items.flatMap (Item.filled n i)) := by
  unfold expand
  split
  · rw [pieces_items h (Nat.le_refl _), render_items]
  · rename_i hb
    rw [no_brace hb n i]

/-- C63: outside of the layers a placeholder for the index of the layer is refused and not left in the name. -/
theorem C63_no_layer (items : List Item) (h : ∀ s, Item.text s ∈ items → '$' ∉ s) (d : Shift) (hd : Item.index d ∈ items) (n : Nat) :
    ∃ v, expand (items.flatMap Item.written) n none = .error (.key v) := by
  have hb : '{' ∈ items.flatMap Item.written := List.mem_flatMap.2 ⟨_, hd, (written_index d).1⟩
  unfold expand
  rw [if_pos hb, pieces_items h (Nat.le_refl _)]
  clear h hb
  induction items with
  | nil => simp at hd
  | cons x xs ih =>
    rw [List.flatMap_cons]
    by_cases hx : ∃ d, x = .index d
    · obtain ⟨d', rfl⟩ := hx
      exact ⟨"layer_index".toList ++ d'.text, by cases d' <;> rfl⟩
    · have hxs : Item.index d ∈ xs := by
        rcases List.mem_cons.1 hd with h | h
        · exact absurd ⟨d, h.symm⟩ hx
        · exact h
      obtain ⟨v, hv⟩ := ih hxs
      refine ⟨v, ?_⟩
      have hr : ∃ s, render n none x.pieces = .ok s := by
        cases x with
        | text s =>
          have := render_lits n none s []
          rw [List.append_nil] at this
          exact ⟨s ++ [], by rw [Item.pieces, this]; rfl⟩
        | index d => exact absurd ⟨d, rfl⟩ hx
        | total d => cases d <;> exact ⟨_, rfl⟩
      obtain ⟨s, hs⟩ := hr
      rw [render_append_ok _ _ _ _ hs, hv]
      rfl

example : ([.text "h.".toList, .index .down, .text ".x".toList, .total .up] : List Item).flatMap Item.written = "h.${layer_index-1}.x${num_layers+1}".toList ∧
    ([.text "h.".toList, .index .down, .text ".x".toList, .total .up] : List Item).flatMap (Item.filled 11 0) = "h.-1.x12".toList := by decide

/-! ## Alternative names -/

theorem expandList_forall {n : Int} {layer : Option Int} {ts us : List Str} :
    expandList n layer ts = .ok us ↔ List.Forall₂ (fun t u => expand t n layer = .ok u) ts us := by
  induction ts generalizing us with
  | nil =>
    constructor
    · intro h
      simp only [expandList, Except.ok.injEq] at h
      rw [← h]
      exact .nil
    · intro h
      cases h
      rfl
  | cons t ts ih =>
    constructor
    · intro h
      simp only [expandList] at h
      cases ht : expand t n layer with
      | error e => rw [ht] at h; cases h
      | ok a =>
        rw [ht] at h
        cases hr : expandList n layer ts with
        | error e => rw [hr] at h; cases h
        | ok b =>
          rw [hr] at h
          simp only [Except.ok.injEq] at h
          rw [← h]
          exact .cons ht (ih.1 hr)
    · intro h
      cases h with
      | cons ht h => simp only [expandList, ht, ih.2 h]

/-- C63: a weight's name, its aliases and its tied names are all expanded for the same layer, nothing else of it changes. -/
theorem C63_weight (w v : WeightInfo) (n : Int) (layer : Option Int) :
    substitute w n layer = .ok v ↔
      expand w.name n layer = .ok v.name ∧
      (∀ l, w.aliases = some l → ∃ l', v.aliases = some l' ∧ List.Forall₂ (fun t u => expand t n layer = .ok u) l l') ∧
      (w.aliases = none → v.aliases = none) ∧
      (∀ l, w.tiedNames = some l → ∃ l', v.tiedNames = some l' ∧ List.Forall₂ (fun t u => expand t n layer = .ok u) l l') ∧
      (w.tiedNames = none → v.tiedNames = none) ∧
      v.isEmbed = w.isEmbed ∧ v.optional = w.optional ∧ v.forceDtype = w.forceDtype := by
  have key : ∀ a b : Option (List Str), expandOpt n layer a = .ok b ↔
      (∀ l, a = some l → ∃ l', b = some l' ∧ List.Forall₂ (fun t u => expand t n layer = .ok u) l l') ∧ (a = none → b = none) := by
    intro a b
    cases a with
    | none => simp [expandOpt, eq_comm]
    | some l =>
      cases hl : expandList n layer l with
      | error e =>
        simp only [expandOpt, hl, Except.map, reduceCtorEq, false_iff, Option.some.injEq, forall_eq', false_implies, and_true, not_exists, not_and]
        intro l' _ h
        rw [expandList_forall.2 h] at hl
        cases hl
      | ok c =>
        simp only [expandOpt, hl, Except.map, Except.ok.injEq, reduceCtorEq, Option.some.injEq, forall_eq', false_implies, and_true]
        constructor
        · intro h
          exact ⟨c, h.symm, expandList_forall.1 hl⟩
        · rintro ⟨l', rfl, h⟩
          rw [expandList_forall.2 h] at hl
          cases hl
          rfl
  have h1 := key w.aliases v.aliases
  have h2 := key w.tiedNames v.tiedNames
  constructor
  · intro h
    simp only [substitute] at h
    cases hn : expand w.name n layer with
    | error e => rw [hn] at h; cases h
    | ok name =>
      cases ha : expandOpt n layer w.aliases with
      | error e => rw [hn, ha] at h; cases h
      | ok a =>
        cases ht : expandOpt n layer w.tiedNames with
        | error e => rw [hn, ha, ht] at h; cases h
        | ok t =>
          rw [hn, ha, ht] at h
          simp only [Except.ok.injEq] at h
          subst h
          rw [ha] at h1
          rw [ht] at h2
          have h1' := h1.1 rfl
          have h2' := h2.1 rfl
          exact ⟨rfl, h1'.1, h1'.2, h2'.1, h2'.2, rfl, rfl, rfl⟩
  · rintro ⟨hn, a1, a2, t1, t2, e1, e2, e3⟩
    simp only [substitute, hn, h1.2 ⟨a1, a2⟩, h2.2 ⟨t1, t2⟩]
    cases v
    simp_all

/-! ## All weights of a module -/

theorem substituteAll_forall {n : Int} {layer : Option Int} {ws vs : List WeightInfo} :
    substituteAll n layer ws = .ok vs ↔ List.Forall₂ (fun w v => substitute w n layer = .ok v) ws vs := by
  induction ws generalizing vs with
  | nil =>
    constructor
    · intro h
      simp only [substituteAll, Except.ok.injEq] at h
      rw [← h]
      exact .nil
    · intro h
      cases h
      rfl
  | cons t ts ih =>
    constructor
    · intro h
      simp only [substituteAll] at h
      cases ht : substitute t n layer with
      | error e => rw [ht] at h; cases h
      | ok a =>
        rw [ht] at h
        cases hr : substituteAll n layer ts with
        | error e => rw [hr] at h; cases h
        | ok b =>
          rw [hr] at h
          simp only [Except.ok.injEq] at h
          rw [← h]
          exact .cons ht (ih.1 hr)
    · intro h
      cases h with
      | cons ht h => simp only [substituteAll, ht, ih.2 h]

theorem mem_forall₂ {α β : Type*} {R : α → β → Prop} {l : List α} {m : List β} (h : List.Forall₂ R l m) (b : β) (hb : b ∈ m) :
    ∃ a ∈ l, R a b := by
  induction h with
  | nil => simp at hb
  | cons h1 h2 ih =>
    rcases List.mem_cons.1 hb with rfl | hb
    · exact ⟨_, by simp, h1⟩
    · obtain ⟨a, ha, hr⟩ := ih hb
      exact ⟨a, by simp [ha], hr⟩

theorem mem_substituteAll {n : Int} {layer : Option Int} {ws vs : List WeightInfo} (h : substituteAll n layer ws = .ok vs) (v : WeightInfo) :
    v ∈ vs ↔ ∃ w ∈ ws, substitute w n layer = .ok v := by
  rw [substituteAll_forall] at h
  constructor
  · exact mem_forall₂ h v
  · rintro ⟨w, hw, hv⟩
    obtain ⟨v', hv', hr⟩ := mem_forall₂ h.flip w hw
    have hr' : substitute w n layer = .ok v' := hr
    rw [hv] at hr'
    cases hr'
    exact hv'

theorem mem_layersFrom {m : Module} {n : Nat} {is : List Nat} {vs : List WeightInfo} (h : layersFrom m n is = .ok vs) (v : WeightInfo) :
    v ∈ vs ↔ ∃ i ∈ is, ∃ w ∈ m.layers, substitute w n (some (i : Int)) = .ok v := by
  induction is generalizing vs with
  | nil =>
    simp only [layersFrom, Except.ok.injEq] at h
    simp [← h]
  | cons i is ih =>
    simp only [layersFrom] at h
    cases ha : substituteAll n (some (i : Int)) m.layers with
    | error e => rw [ha] at h; cases h
    | ok a =>
      rw [ha] at h
      cases hb : layersFrom m n is with
      | error e => rw [hb] at h; cases h
      | ok b =>
        rw [hb] at h
        simp only [Except.ok.injEq] at h
        rw [← h, List.mem_append, mem_substituteAll ha, ih hb]
        simp

theorem length_layersFrom {m : Module} {n : Nat} {is : List Nat} {vs : List WeightInfo} (h : layersFrom m n is = .ok vs) :
    vs.length = is.length * m.layers.length := by
  induction is generalizing vs with
  | nil =>
    simp only [layersFrom, Except.ok.injEq] at h
    simp [← h]
  | cons i is ih =>
    simp only [layersFrom] at h
    cases ha : substituteAll n (some (i : Int)) m.layers with
    | error e => rw [ha] at h; cases h
    | ok a =>
      rw [ha] at h
      cases hb : layersFrom m n is with
      | error e => rw [hb] at h; cases h
      | ok b =>
        rw [hb] at h
        simp only [Except.ok.injEq] at h
        rw [← h, List.length_append, ih hb, ← (substituteAll_forall.1 ha).length_eq, List.length_cons]
        ring

/-- C63: a module's weights are exactly the expansions of its templates: those outside of the layers once, the layers' for every layer below
the number the definition or the configuration gives. -/
theorem C63_module (m : Module) (configured : Nat) (ws : List WeightInfo) (h : m.allWeights configured = .ok ws) :
    let n : Nat := match m.overrideNumLayers with | some k => k | none => configured
    (∀ v, v ∈ ws ↔ (∃ w ∈ m.pre ++ m.post, substitute w n none = .ok v) ∨ ∃ i : Nat, i < n ∧ ∃ w ∈ m.layers, substitute w n (some (i : Int)) = .ok v) ∧
    ws.length = m.pre.length + n * m.layers.length + m.post.length := by
  have hn : m.numLayers configured = (match m.overrideNumLayers with | some k => k | none => configured : Nat) := by
    unfold Module.numLayers
    cases m.overrideNumLayers <;> rfl
  simp only
  rw [← hn]
  simp only [Module.allWeights] at h
  generalize m.numLayers configured = n at h
  cases ha : substituteAll n none m.pre with
  | error e => rw [ha] at h; cases h
  | ok a =>
    cases hb : layersFrom m n (List.range n) with
    | error e => rw [ha, hb] at h; cases h
    | ok b =>
      cases hc : substituteAll n none m.post with
      | error e => rw [ha, hb, hc] at h; cases h
      | ok c =>
        rw [ha, hb, hc] at h
        simp only [Except.ok.injEq] at h
        subst h
        refine ⟨?_, ?_⟩
        · intro v
          rw [List.mem_append, List.mem_append, mem_substituteAll ha, mem_substituteAll hc, mem_layersFrom hb]
          simp only [List.mem_append, List.mem_range]
          constructor
          · rintro ((⟨w, hw, hv⟩ | h) | ⟨w, hw, hv⟩)
            · exact Or.inl ⟨w, Or.inl hw, hv⟩
            · exact Or.inr h
            · exact Or.inl ⟨w, Or.inr hw, hv⟩
          · rintro (⟨w, hw | hw, hv⟩ | h)
            · exact Or.inl (Or.inl ⟨w, hw, hv⟩)
            · exact Or.inr ⟨w, hw, hv⟩
            · exact Or.inl (Or.inr h)
        · rw [List.length_append, List.length_append, length_layersFrom hb, ← (substituteAll_forall.1 ha).length_eq,
            ← (substituteAll_forall.1 hc).length_eq, List.length_range]

/-- C63: the weights of a model are those of its modules, each name, alias and tied name with the prefix of the module. -/
theorem C63_model (ms : List (Module × Nat)) (ws : List WeightInfo) (h : allWeights ms = .ok ws) (v : WeightInfo) :
    v ∈ ws ↔ ∃ p ∈ ms, ∃ us, p.1.allWeights p.2 = .ok us ∧ ∃ u ∈ us, v = prefixWeight u p.1.weightPrefix := by
  induction ms generalizing ws with
  | nil =>
    simp only [allWeights, Except.ok.injEq] at h
    simp [← h]
  | cons p ms ih =>
    obtain ⟨m, n⟩ := p
    simp only [allWeights] at h
    cases ha : m.allWeights n with
    | error e => rw [ha] at h; cases h
    | ok a =>
      rw [ha] at h
      cases hb : allWeights ms with
      | error e => rw [hb] at h; cases h
      | ok b =>
        rw [hb] at h
        simp only [Except.ok.injEq] at h
        rw [← h, List.mem_append, ih b hb]
        simp only [List.mem_map, List.mem_cons, exists_eq_or_imp, ha, Except.ok.injEq, exists_eq_left']
        constructor
        · rintro (⟨u, hu, rfl⟩ | h)
          · exact Or.inl ⟨u, hu, rfl⟩
          · exact Or.inr h
        · rintro (⟨u, hu, rfl⟩ | h)
          · exact Or.inl ⟨u, hu, rfl⟩
          · exact Or.inr h

/-- C63: with a prefix, every name a tensor may be found under has it. -/
theorem C63_prefixed (w : WeightInfo) (p : Str) :
    (prefixWeight w (some p)).name = p ++ w.name ∧
    (∀ x, (∃ l, (prefixWeight w (some p)).aliases = some l ∧ x ∈ l) ↔ ∃ l y, w.aliases = some l ∧ y ∈ l ∧ x = p ++ y) ∧
    (∀ x, (∃ l, (prefixWeight w (some p)).tiedNames = some l ∧ x ∈ l) ↔ ∃ l y, w.tiedNames = some l ∧ y ∈ l ∧ x = p ++ y) ∧
    (prefixWeight w (some p)).optional = w.optional ∧ (prefixWeight w (some p)).isEmbed = w.isEmbed ∧
    (prefixWeight w (some p)).forceDtype = w.forceDtype ∧ prefixWeight w none = w := by
  have key : ∀ (o : Option (List Str)) x, (∃ l, prefixOpt p o = some l ∧ x ∈ l) ↔ ∃ l y, o = some l ∧ y ∈ l ∧ x = p ++ y := by
    intro o x
    cases o with
    | none => simp [prefixOpt]
    | some l =>
      cases l with
      | nil => simp [prefixOpt]
      | cons a l =>
        simp only [prefixOpt, Option.getD_some, List.map_cons, Option.some.injEq, exists_eq_left', List.mem_cons, List.mem_map]
        constructor
        · rintro (rfl | ⟨y, hy, rfl⟩)
          · exact ⟨a :: l, a, rfl, by simp, rfl⟩
          · exact ⟨a :: l, y, rfl, by simp [hy], rfl⟩
        · rintro ⟨_, y, rfl, hy, rfl⟩
          rcases List.mem_cons.1 hy with rfl | hy
          · exact Or.inl rfl
          · exact Or.inr ⟨y, hy, rfl⟩
  exact ⟨rfl, key _, key _, rfl, rfl, rfl, rfl⟩

/-! ## GLM4-MoE layers -/

/-- C63: GLM4-MoE layers below `first_k_dense_replace` have the weights of the file; the others have none of its dense feed-forward weights,
all its other weights, and the seven of the experts. -/
theorem C63_glm4_layer (m : Module) (n firstDense i : Nat) (file ws : List WeightInfo) (hf : substituteAll n (some (i : Int)) m.layers = .ok file)
    (h : glm4Layer m n firstDense i = .ok ws) :
    (i < firstDense → ws = file) ∧
    (firstDense ≤ i → (∀ v ∈ file, hasMlp v.name = false → v ∈ ws) ∧
      (∀ v ∈ ws, v ∈ file → hasMlp v.name = false ∨ ∃ s : Str, v.name = "model.layers.".toList ++ Nat.toDigits 10 i ++ ".mlp.experts.".toList ++ s ∨
        v.name = "model.layers.".toList ++ Nat.toDigits 10 i ++ ".mlp.gate.".toList ++ s ∨
        v.name = "model.layers.".toList ++ Nat.toDigits 10 i ++ ".mlp.shared_experts.".toList ++ s) ∧
      ws.length = 7 + (file.filter (fun v => !hasMlp v.name)).length) := by
  simp only [glm4Layer, hf] at h
  constructor
  · intro hi
    rw [if_pos hi] at h
    cases h
    rfl
  · intro hi
    rw [if_neg (by omega)] at h
    simp only [Except.ok.injEq] at h
    subst h
    refine ⟨?_, ?_, ?_⟩
    · intro v hv hm
      exact List.mem_append_right _ (List.mem_filter.2 ⟨hv, by simp [hm]⟩)
    · intro v hv _
      rcases List.mem_append.1 hv with hv | hv
      · right
        obtain ⟨s, hs, rfl⟩ := List.mem_map.1 hv
        simp only [List.mem_cons, List.not_mem_nil, or_false] at hs
        rcases hs with rfl | rfl | rfl | rfl | rfl | rfl | rfl
        · exact ⟨"gate_up_proj".toList, Or.inl (by simp)⟩
        · exact ⟨"down_proj".toList, Or.inl (by simp)⟩
        · exact ⟨"weight".toList, Or.inr (Or.inl (by simp))⟩
        · exact ⟨"e_score_correction_bias".toList, Or.inr (Or.inl (by simp))⟩
        · exact ⟨"gate_proj.weight".toList, Or.inr (Or.inr (by simp))⟩
        · exact ⟨"up_proj.weight".toList, Or.inr (Or.inr (by simp))⟩
        · exact ⟨"down_proj.weight".toList, Or.inr (Or.inr (by simp))⟩
      · left
        have := (List.mem_filter.1 hv).2
        simpa using this
    · simp; omega

/-- A small module. -/
def smallModule : Module :=
  ⟨[{ name := "a".toList }], [{ name := "h.${layer_index}".toList, aliases := some ["g.${layer_index}".toList] }], [{ name := "z${num_layers}".toList }],
    none, some "m.".toList⟩

/-- The hypotheses are met. -/
example : smallModule.allWeights 2 =
    .ok [{ name := "a".toList }, { name := "h.0".toList, aliases := some ["g.0".toList] }, { name := "h.1".toList, aliases := some ["g.1".toList] },
      { name := "z2".toList }] := by decide

example : (allWeights [(smallModule, 1), (smallModule, 0)]).toOption.isSome = true := by decide

end Verif.Arch
