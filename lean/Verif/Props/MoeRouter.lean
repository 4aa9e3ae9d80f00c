import Verif.Props.MoeNames
import Verif.Props.Embed

/-! # C57 (router rows), C58, C76: mixture-of-experts configurations -/

set_option linter.unusedSectionVars false

namespace Verif.Moe

open Verif.ModelRef (Str)
open Verif.Arch (WeightInfo hasMlp)

variable {M K V W : Type} [DecidableEq M]

/-! ## Specification -/

/-- The modes that draw random rows. -/
def IsRandom (mode : Str) : Prop := mode = cs!"random" ∨ mode = cs!"uniform_random"

/-- The modes that look at prompts. -/
def IsProbe (mode : Str) : Prop := mode = cs!"cheap_embed" ∨ mode = cs!"hidden" ∨ mode = cs!"hidden_avg" ∨ mode = cs!"hidden_last"

/-- `w` is the row of layer `layer` for the expert in position `i`: a random one, or the normalised vector of the positive prompts less that of
the negative ones. -/
def RowOf (g : Gates W) (mode : Str) (layer i : Nat) (e : Expert M K) (w : W) : Prop :=
  (IsRandom mode → w = g.random layer i) ∧
  (¬ IsRandom mode → ∃ p h, e.positive = some p ∧ (g.probe mode p)[layer]? = some h ∧
    (e.negative.getD [] = [] → w = g.unit h) ∧
    (∀ q, e.negative = some q → q ≠ [] → ∃ h', (g.probe mode q)[layer]? = some h' ∧ w = g.unit (g.sub h h')))

/-- Shared experts have a row: they have prompts, or rows are random. -/
def Gated (c : Config M K) : Prop := (∃ s ∈ c.sharedList, s.positive.getD [] ≠ []) ∨ IsRandom c.gateMode

/-- An expert without positive prompts. -/
def NoPrompts (e : Expert M K) : Prop := e.positive.getD [] = []

/-- Experts with the same prompts. -/
def SamePrompts (e e' : Expert M K) : Prop := e.positive.getD [] = e'.positive.getD [] ∧ e.negative.getD [] = e'.negative.getD []

/-- All models have the same type, one of those given. -/
def SameType (typeOf : M → Str) (ms : List M) (allowed : List Str) : Prop := ∃ t ∈ allowed, ∀ m ∈ ms, typeOf m = t

/-- What each layout can hold. -/
def Fits (typeOf : M → Str) (c : Config M K) : OutArch → Prop
  | .mixtral => c.sharedList = [] ∧ SameType typeOf (c.base :: c.experts.map (·.source)) [cs!"llama", cs!"mistral"]
  | .deepseek => c.sharedList.length ≤ 1 ∧ (∀ s ∈ c.sharedList, s.positive.getD [] = [] ∧ s.negative.getD [] = []) ∧
      SameType typeOf (c.base :: (c.experts ++ c.sharedList).map (·.source)) [cs!"llama", cs!"mistral"]
  | .qwen => c.sharedList.length = 1 ∧ (c.gateMode = cs!"random" ∨ ∀ s ∈ c.sharedList, s.positive.getD [] ≠ []) ∧
      SameType typeOf (c.base :: (c.experts ++ c.sharedList).map (·.source)) [cs!"llama", cs!"mistral", cs!"qwen2"]
  | .qwen3 => c.sharedList = [] ∧ SameType typeOf (c.base :: (c.experts ++ c.sharedList).map (·.source)) [cs!"qwen3"]

/-- The configuration names no architecture, or one whose name starts so, whatever the case of the letters. -/
def Requested (c : Config M K) (a : OutArch) : Prop :=
  ∀ r, c.architecture = some r → r.map Char.toLower <+: a.name.map Char.toLower

/-! ## Routers -/

theorem given_iff (p : Option (List Str)) : given p = true ↔ p.getD [] ≠ [] := by
  unfold given
  cases p.getD [] <;> simp

theorem given_false (p : Option (List Str)) : given p = false ↔ p.getD [] = [] := by
  unfold given
  cases p.getD [] <;> simp

theorem each_single {α β : Type} {f : α → Except Err β} {l : List α} {vs : List β} (h : each (fun a => (f a).map ([·])) l = .ok vs) :
    List.Forall₂ (fun a v => f a = .ok v) l vs := by
  induction l generalizing vs with
  | nil =>
    simp only [each, Except.ok.injEq] at h
    subst h
    exact .nil
  | cons a l ih =>
    simp only [each] at h
    cases ha : f a with
    | error e => rw [ha] at h; cases h
    | ok v =>
      rw [ha] at h
      cases hr : each (fun a => (f a).map ([·])) l with
      | error e => rw [hr] at h; cases h
      | ok ws =>
        rw [hr] at h
        cases h
        exact .cons ha (ih hr)

theorem gateOf_ok {g : Gates W} {mode : Str} {numLayers : Nat} (hp : ∀ p, (g.probe mode p).length = numLayers) {e : Expert M K} {vs : List W}
    (h : gateOf g mode e = .ok vs) (hr : ¬ IsRandom mode) :
    vs.length = numLayers ∧ ∀ (layer : Nat) (w : W) (i : Nat), vs[layer]? = some w → RowOf g mode layer i e w := by
  unfold gateOf at h
  split at h
  · cases he : e.positive with
    | none => rw [he] at h; cases h
    | some p =>
      rw [he] at h
      simp only [Except.ok.injEq] at h
      subst h
      cases hg : given e.negative with
      | false =>
        simp only [Bool.false_eq_true, if_false]
        refine ⟨by rw [List.length_map, hp], ?_⟩
        intro layer w i hw
        rw [List.getElem?_map, Option.map_eq_some_iff] at hw
        obtain ⟨h, hh, rfl⟩ := hw
        refine ⟨fun hh => absurd hh hr, fun _ => ⟨p, h, he, hh, fun _ => rfl, ?_⟩⟩
        intro q hq hne
        rw [given_false, hq] at hg
        exact absurd hg hne
      | true =>
        simp only [if_true]
        refine ⟨by rw [List.length_map, List.length_zipWith, hp, hp, Nat.min_self], ?_⟩
        intro layer w i hw
        rw [List.getElem?_map, Option.map_eq_some_iff] at hw
        obtain ⟨h, hh, rfl⟩ := hw
        rw [List.getElem?_zipWith_eq_some] at hh
        obtain ⟨x, y, hx, hy, rfl⟩ := hh
        refine ⟨fun hh => absurd hh hr, fun _ => ⟨p, x, he, hx, ?_, ?_⟩⟩
        · intro hn
          rw [given_iff] at hg
          exact absurd hn hg
        · intro q hq _
          rw [hq] at hy
          exact ⟨y, hy, rfl⟩
  · cases h

theorem filterMap_column {α β : Type} {R : α → List β → Prop} {l : List α} {vs : List (List β)} {n layer : Nat} (hl : layer < n)
    (h : List.Forall₂ R l vs) (hlen : ∀ v ∈ vs, v.length = n) :
    (vs.filterMap (fun v => v[layer]?)).length = l.length ∧
    ∀ (i : Nat) a, l[i]? = some a → ∃ (v : List β) (w : β), R a v ∧ v[layer]? = some w ∧ (vs.filterMap (fun v => v[layer]?))[i]? = some w := by
  induction h with
  | nil => exact ⟨rfl, by simp⟩
  | @cons a v l vs hr _ ih =>
    obtain ⟨h1, h2⟩ := ih (fun v hv => hlen v (by simp [hv]))
    have hlt : layer < v.length := by rw [hlen v (by simp)]; exact hl
    have hv : v[layer]? = some v[layer] := List.getElem?_eq_getElem hlt
    rw [List.filterMap_cons, hv]
    refine ⟨by simp [h1], ?_⟩
    intro i b hb
    cases i with
    | zero =>
      simp only [List.getElem?_cons_zero, Option.some.injEq] at hb
      subst hb
      exact ⟨v, _, hr, hv, by simp⟩
    | succ i =>
      rw [List.getElem?_cons_succ] at hb
      obtain ⟨v', w, h3, h4, h5⟩ := h2 i b hb
      exact ⟨v', w, h3, h4, by rw [List.getElem?_cons_succ]; exact h5⟩

theorem gateParams_ok {g : Gates W} {mode : Str} {numLayers : Nat} (hp : ∀ p, (g.probe mode p).length = numLayers) {es : List (Expert M K)}
    {rows : List (List W)} (h : gateParams g mode numLayers es = .ok rows) :
    rows.length = numLayers ∧ ∀ (layer : Nat) (r : List W), rows[layer]? = some r →
      r.length = es.length ∧ ∀ i e, es[i]? = some e → ∃ w, r[i]? = some w ∧ RowOf g mode layer i e w := by
  unfold gateParams at h
  split at h
  · rename_i hr
    cases h
    refine ⟨by simp, ?_⟩
    intro layer r hl
    rw [List.getElem?_map, Option.map_eq_some_iff] at hl
    obtain ⟨l', hl', rfl⟩ := hl
    have : l' = layer := by
      rw [List.getElem?_range] at hl'
      · cases hl'; rfl
      · have := (List.getElem?_eq_some_iff.1 hl').1
        simpa using this
    subst this
    refine ⟨by simp, ?_⟩
    intro i e he
    refine ⟨g.random l' i, ?_, fun _ => rfl, fun hn => absurd hr hn⟩
    rw [List.getElem?_map, List.getElem?_range (List.getElem?_eq_some_iff.1 he).1]
    rfl
  · rename_i hr
    split at h
    · cases h
    · cases hv : each (fun e => (gateOf g mode e).map ([·])) es with
      | error e => rw [hv] at h; cases h
      | ok vs =>
        rw [hv] at h
        cases h
        have hf := each_single hv
        have hlen : ∀ v ∈ vs, v.length = numLayers := by
          intro v hv
          obtain ⟨a, _, hav⟩ := Verif.Tok.forall₂_right hf v hv
          exact (gateOf_ok hp hav hr).1
        refine ⟨by simp, ?_⟩
        intro layer r hl
        rw [List.getElem?_map, Option.map_eq_some_iff] at hl
        obtain ⟨l', hl', rfl⟩ := hl
        have hlt : layer < numLayers := by
          have := (List.getElem?_eq_some_iff.1 hl').1
          simpa using this
        rw [List.getElem?_range hlt] at hl'
        cases hl'
        obtain ⟨h1, h2⟩ := filterMap_column hlt hf hlen
        refine ⟨h1, ?_⟩
        intro i e he
        obtain ⟨v, w, h3, h4, h5⟩ := h2 i e he
        exact ⟨w, h5, (gateOf_ok hp h3 hr).2 layer w i h4⟩

theorem needGates_ok {c : Config M K} {need : List (Expert M K)} (h : needGates c = .ok need) :
    (Gated c ∧ need = c.experts ++ c.sharedList) ∨ ((¬ Gated c ∨ c.sharedList = []) ∧ need = c.experts) := by
  unfold needGates at h
  cases hs : c.sharedList with
  | nil =>
    rw [hs] at h
    cases h
    exact Or.inr ⟨Or.inr rfl, rfl⟩
  | cons s ss =>
    rw [hs] at h
    simp only at h
    split at h
    · cases h
    · split at h
      · rename_i hg
        cases h
        refine Or.inl ⟨?_, rfl⟩
        rw [Bool.or_eq_true, decide_eq_true_eq, List.any_eq_true] at hg
        rcases hg with ⟨x, hx, hg⟩ | hg
        · exact Or.inl ⟨x, by rw [hs]; exact hx, (given_iff _).1 hg⟩
        · exact Or.inr hg
      · rename_i hg
        cases h
        refine Or.inr ⟨Or.inl ?_, rfl⟩
        rw [Bool.or_eq_true, decide_eq_true_eq, List.any_eq_true] at hg
        rintro (⟨x, hx, hp⟩ | hr)
        · rw [hs] at hx
          exact hg (Or.inl ⟨x, hx, (given_iff _).2 hp⟩)
        · exact hg (Or.inr hr)

/-- C57: every layer has a router row for each expert, row `i` made from the prompts of expert `i`; behind them, if they have prompts or rows are
random, one for each shared expert. -/
theorem C57_router_rows {g : Gates W} {c : Config M K} {numLayers : Nat} (hp : ∀ p, (g.probe c.gateMode p).length = numLayers)
    {rs : List (List W × List W)} (h : routersOf g c numLayers = .ok rs) :
    rs.length = numLayers ∧ ∀ layer rows shared, rs[layer]? = some (rows, shared) →
      rows.length = c.experts.length ∧
      (∀ i e, c.experts[i]? = some e → ∃ w, rows[i]? = some w ∧ RowOf g c.gateMode layer i e w) ∧
      (Gated c → shared.length = c.sharedList.length ∧
        ∀ j s, c.sharedList[j]? = some s → ∃ w, shared[j]? = some w ∧ RowOf g c.gateMode layer (c.experts.length + j) s w) ∧
      (¬ Gated c → shared = []) := by
  unfold routersOf at h
  cases hn : needGates c with
  | error e => rw [hn] at h; cases h
  | ok need =>
    rw [hn] at h
    simp only at h
    cases hg : gateParams g c.gateMode numLayers need with
    | error e => rw [hg] at h; cases h
    | ok rows =>
      rw [hg] at h
      cases h
      obtain ⟨hl, hrows⟩ := gateParams_ok hp hg
      refine ⟨by rw [List.length_map, hl], ?_⟩
      intro layer rw' sh hlay
      rw [List.getElem?_map, Option.map_eq_some_iff] at hlay
      obtain ⟨r, hr, he⟩ := hlay
      cases he
      obtain ⟨h1, h2⟩ := hrows layer r hr
      rcases needGates_ok hn with ⟨hgt, rfl⟩ | ⟨hng, rfl⟩
      · rw [List.length_append] at h1
        refine ⟨by rw [List.length_take, h1]; omega, ?_, ?_, fun hng => absurd hgt hng⟩
        · intro i e hi
          have hlt := (List.getElem?_eq_some_iff.1 hi).1
          obtain ⟨w, hw, hrow⟩ := h2 i e (by rw [List.getElem?_append_left hlt]; exact hi)
          exact ⟨w, by rw [List.getElem?_take_of_lt hlt]; exact hw, hrow⟩
        · intro _
          refine ⟨by rw [List.length_drop, h1]; omega, ?_⟩
          intro j s hj
          obtain ⟨w, hw, hrow⟩ := h2 (c.experts.length + j) s (by
            rw [List.getElem?_append_right (by omega)]
            simpa using hj)
          exact ⟨w, by rw [List.getElem?_drop]; exact hw, hrow⟩
      · refine ⟨by rw [List.length_take, h1]; omega, ?_, ?_, ?_⟩
        · intro i e hi
          have hlt := (List.getElem?_eq_some_iff.1 hi).1
          obtain ⟨w, hw, hrow⟩ := h2 i e hi
          exact ⟨w, by rw [List.getElem?_take_of_lt hlt]; exact hw, hrow⟩
        · intro hgt
          rcases hng with hng | hs
          · exact absurd hgt hng
          · refine ⟨by rw [List.length_drop, h1, hs]; simp, ?_⟩
            intro j s hj
            rw [hs] at hj
            cases hj
        · intro _
          rw [List.drop_eq_nil_iff, h1]

/-! ## Refused configurations -/

theorem isBad_cases (c : Config M K) (allow : Bool) :
    isBad c allow = true ↔ c.expertsPerToken < 1 ∨ (c.experts.length : Int) < c.expertsPerToken ∨
      (c.gateMode ≠ cs!"random" ∧ ((∃ e ∈ c.experts, NoPrompts e) ∨ (∀ e ∈ c.experts, ∀ e' ∈ c.experts, SamePrompts e e') ∨
        (allow = false ∧ ∀ e ∈ c.experts, ∀ e' ∈ c.experts, e.source = e'.source))) := by
  unfold isBad
  split
  · rename_i h
    simp [h]
  rename_i h1
  split
  · rename_i h
    simp [h]
  rename_i h2
  split
  · rename_i h
    simp [h1, h2, h]
  rename_i h3
  split
  · rename_i h
    rw [List.any_eq_true] at h
    obtain ⟨e, he, hg⟩ := h
    simp only [Bool.not_eq_true', given_false] at hg
    simp only [true_iff]
    exact Or.inr (Or.inr ⟨h3, Or.inl ⟨e, he, hg⟩⟩)
  rename_i h4
  have hno : ¬ ∃ e ∈ c.experts, NoPrompts e := by
    rintro ⟨e, he, hn⟩
    exact h4 (List.any_eq_true.2 ⟨e, he, by rw [Bool.not_eq_true']; exact (given_false _).2 hn⟩)
  have h12 : ∀ P, (c.expertsPerToken < 1 ∨ (c.experts.length : Int) < c.expertsPerToken ∨ (c.gateMode ≠ cs!"random" ∧ P)) ↔ P := by
    intro P
    constructor
    · rintro (h | h | h)
      · exact absurd h h1
      · exact absurd h h2
      · exact h.2
    · exact fun h => Or.inr (Or.inr ⟨h3, h⟩)
  rw [h12]
  cases hc : c.experts with
  | nil =>
    rw [hc] at h2
    simp only [List.length_nil] at h2
    omega
  | cons first rest =>
    rw [hc] at hno
    have hall : ∀ R : Expert M K → Expert M K → Prop, (∀ a, R a a) → (∀ a b, R a b → R b a) → (∀ a b d, R a b → R b d → R a d) →
        ((∀ e ∈ first :: rest, ∀ e' ∈ first :: rest, R e e') ↔ ∀ e ∈ rest, R e first) := by
      intro R hrefl hsymm htrans
      constructor
      · intro h e he
        exact h e (by simp [he]) first (by simp)
      · intro h
        have hf : ∀ e ∈ first :: rest, R e first := by
          intro e he
          rcases List.mem_cons.1 he with rfl | he
          · exact hrefl _
          · exact h e he
        exact fun e he e' he' => htrans _ _ _ (hf e he) (hsymm _ _ (hf e' he'))
    rw [hall (fun e e' => SamePrompts e e') (fun _ => ⟨rfl, rfl⟩) (fun _ _ h => ⟨h.1.symm, h.2.symm⟩)
        (fun _ _ _ h h' => ⟨h.1.trans h'.1, h.2.trans h'.2⟩),
      hall (fun e e' => e.source = e'.source) (fun _ => rfl) (fun _ _ h => h.symm) (fun _ _ _ h h' => h.trans h')]
    have hp : rest.all (fun e => decide (promptTup e = promptTup first)) = true ↔ ∀ e ∈ rest, SamePrompts e first := by
      rw [List.all_eq_true]
      refine forall_congr' (fun e => forall_congr' (fun _ => ?_))
      rw [decide_eq_true_eq]
      unfold promptTup SamePrompts
      rw [Prod.mk.injEq]
    have hs : rest.all (fun e => decide (e.source = first.source)) = true ↔ ∀ e ∈ rest, e.source = first.source := by
      rw [List.all_eq_true]
      refine forall_congr' (fun e => forall_congr' (fun _ => ?_))
      rw [decide_eq_true_eq]
    simp only
    split
    · rename_i h
      simp only [true_iff]
      exact Or.inr (Or.inl (hp.1 h))
    · rename_i h
      have h' := fun x => h (hp.2 x)
      cases allow with
      | true =>
        simp only [Bool.not_true, Bool.false_and, Bool.false_eq_true, if_false, false_iff]
        rintro (x | x | x)
        · exact hno x
        · exact h' x
        · cases x.1
      | false =>
        simp only [Bool.not_false, Bool.true_and]
        split
        · rename_i hh
          simp only [true_iff]
          exact Or.inr (Or.inr ⟨trivial, hs.1 hh⟩)
        · rename_i hh
          simp only [Bool.false_eq_true, false_iff]
          rintro (x | x | x)
          · exact hno x
          · exact h' x
          · exact hh (hs.2 x.2)

/-- C58: a configuration is refused exactly when the number of experts per token is not between 1 and the number of experts, or the mode is not
"random" and an expert has no prompts, all have the same, or all are the same model without the override. What is missing: the mode
"uniform_random" is not treated as random, see `C58_uniform_random`. -/
theorem C58_refused_partial (c : Config M K) (allow : Bool) :
    isBad c allow = true ↔ ¬ (1 ≤ c.expertsPerToken ∧ c.expertsPerToken ≤ c.experts.length) ∨
      (c.gateMode ≠ cs!"random" ∧ ((∃ e ∈ c.experts, NoPrompts e) ∨ (∀ e ∈ c.experts, ∀ e' ∈ c.experts, SamePrompts e e') ∨
        (allow = false ∧ ∀ e ∈ c.experts, ∀ e' ∈ c.experts, e.source = e'.source))) := by
  rw [isBad_cases, ← or_assoc]
  refine or_congr ?_ Iff.rfl
  omega

/-- C58 fails for "uniform_random": without prompts, which its rows do not need, every configuration is refused, although the routers could be
made. -/
theorem C58_uniform_random (g : Gates W) (c : Config M K) (allow : Bool) (numLayers : Nat) (hmode : c.gateMode = cs!"uniform_random")
    (hshared : c.shared = none) (hno : ∀ e ∈ c.experts, NoPrompts e) :
    isBad c allow = true ∧ ∃ rs, routersOf g c numLayers = .ok rs := by
  constructor
  · rw [C58_refused_partial]
    by_cases h : 1 ≤ c.expertsPerToken ∧ c.expertsPerToken ≤ c.experts.length
    · right
      refine ⟨by rw [hmode]; decide, Or.inl ?_⟩
      cases hc : c.experts with
      | nil =>
        rw [hc] at h
        simp only [List.length_nil] at h
        omega
      | cons e es => exact ⟨e, by simp, hno e (by rw [hc]; simp)⟩
    · exact Or.inl h
  · unfold routersOf needGates Config.sharedList
    simp only [hshared, Option.getD_none, gateParams, hmode, or_true, if_true]
    exact ⟨_, rfl⟩

/-- C58: with any other mode there are no routers. -/
theorem C58_unknown_mode (g : Gates W) (c : Config M K) (numLayers : Nat) (h1 : ¬ IsRandom c.gateMode) (h2 : ¬ IsProbe c.gateMode) :
    ∃ e, routersOf g c numLayers = .error e := by
  have hm : c.gateMode ∉ probeModes := by
    unfold IsProbe at h2
    simpa [probeModes] using h2
  unfold routersOf
  cases needGates c with
  | error e => exact ⟨_, rfl⟩
  | ok need =>
    unfold gateParams
    simp only
    unfold IsRandom at h1; rw [if_neg h1]
    cases need with
    | nil => exact ⟨_, rfl⟩
    | cons e es =>
      rw [if_neg (by simp)]
      simp only [each, gateOf, if_neg hm]
      exact ⟨_, rfl⟩

/-- C58: an accepted configuration with one of the known modes, whose shared experts all have prompts or all have none, gets its routers. -/
theorem C58_accepted_routers (g : Gates W) {c : Config M K} {allow : Bool} (numLayers : Nat) (h : isBad c allow = false)
    (hmode : IsRandom c.gateMode ∨ IsProbe c.gateMode)
    (hshared : ∀ s ∈ c.sharedList, ∀ s' ∈ c.sharedList, (s.positive.getD [] = [] ↔ s'.positive.getD [] = [])) :
    ∃ rs, routersOf g c numLayers = .ok rs := by
  have hb := (C58_refused_partial c allow).not.1 (by rw [h]; simp)
  push Not at hb
  obtain ⟨⟨h1, h2⟩, hb⟩ := hb
  obtain ⟨need, hneed⟩ : ∃ need, needGates c = .ok need := by
    unfold needGates
    cases hs : c.sharedList with
    | nil => exact ⟨_, rfl⟩
    | cons s ss =>
      simp only
      rw [if_neg]
      · split
        · exact ⟨_, rfl⟩
        · exact ⟨_, rfl⟩
      · rw [List.any_eq_true]
        rintro ⟨x, hx, hne⟩
        rw [hs] at hshared
        have : given x.positive = (s :: ss).any (fun e => given e.positive) := by
          rw [Bool.eq_iff_iff, List.any_eq_true, given_iff]
          constructor
          · intro hp
            exact ⟨x, hx, (given_iff _).2 hp⟩
          · rintro ⟨y, hy, hp⟩ he
            exact (given_iff _).1 hp ((hshared x hx y hy).1 he)
        rw [this] at hne
        simp at hne
  unfold routersOf
  rw [hneed]
  simp only
  have hcne : c.experts ≠ [] := by
    intro hc
    rw [hc] at h2
    simp only [List.length_nil] at h2
    omega
  have hne : need ≠ [] := by
    rcases needGates_ok hneed with ⟨_, rfl⟩ | ⟨_, rfl⟩
    · simp [hcne]
    · exact hcne
  unfold gateParams
  by_cases hr : c.gateMode = cs!"random" ∨ c.gateMode = cs!"uniform_random"
  · rw [if_pos hr]
    exact ⟨_, rfl⟩
  · rw [if_neg hr, if_neg hne]
    have hm : c.gateMode ∈ probeModes := by
      have := hmode.resolve_left hr
      unfold IsProbe at this
      simpa [probeModes] using this
    have hpos : ∀ e ∈ need, e.positive.getD [] ≠ [] := by
      have hex : ∀ e ∈ c.experts, e.positive.getD [] ≠ [] := by
        have := hb (fun hh => hr (Or.inl hh))
        intro e he hn
        exact this.1 e he hn
      rcases needGates_ok hneed with ⟨hg, rfl⟩ | ⟨_, rfl⟩
      · intro e he
        rcases List.mem_append.1 he with he | he
        · exact hex e he
        · rcases hg with ⟨s, hs, hp⟩ | hg
          · intro hh
            exact hp ((hshared e he s hs).1 hh)
          · exact absurd hg hr
      · exact hex
    obtain ⟨vs, hvs⟩ : ∃ vs, each (fun e => (gateOf g c.gateMode e).map ([·])) need = .ok vs := by
      refine each_total ?_
      intro e he
      unfold gateOf
      rw [if_pos hm]
      cases hp : e.positive with
      | none => exact absurd (by rw [hp]; rfl) (hpos e he)
      | some p => exact ⟨_, rfl⟩
    rw [hvs]
    exact ⟨_, rfl⟩

/-! ## Choice of the architecture -/

theorem oneOf_iff (allowed : List Str) (typeOf : M → Str) (m : M) (ms : List M) :
    oneOf allowed ((m :: ms).map typeOf) = true ↔ SameType typeOf (m :: ms) allowed := by
  simp only [List.map_cons, oneOf, Bool.and_eq_true, List.all_eq_true, decide_eq_true_eq, List.mem_map]
  constructor
  · rintro ⟨h1, h2⟩
    refine ⟨_, h2, ?_⟩
    intro x hx
    rcases List.mem_cons.1 hx with rfl | hx
    · rfl
    · exact h1 _ ⟨x, hx, rfl⟩
  · rintro ⟨t, ht, h⟩
    have h0 := h m (by simp)
    refine ⟨?_, by rw [h0]; exact ht⟩
    rintro u ⟨x, hx, rfl⟩
    rw [h x (by simp [hx]), h0]

theorem typesAll_eq (c : Config M K) (typeOf : M → Str) :
    c.typesAll typeOf = (c.base :: (c.experts ++ c.sharedList).map (·.source)).map typeOf := by
  unfold Config.typesAll
  simp

theorem supports_iff (a : OutArch) (c : Config M K) (typeOf : M → Str) : a.supports c typeOf = true ↔ Fits typeOf c a := by
  cases a with
  | mixtral =>
    simp only [OutArch.supports, Fits, Config.typesPlain]
    cases hs : c.sharedList with
    | nil =>
      simp only [List.isEmpty_nil, Bool.not_true, Bool.false_eq_true, if_false, true_and]
      exact oneOf_iff _ _ _ _
    | cons s ss => simp
  | deepseek =>
    simp only [OutArch.supports, Fits, typesAll_eq]
    cases hs : c.sharedList with
    | nil =>
      simp only [List.length_nil, Nat.zero_le, List.not_mem_nil, false_imp_iff, implies_true, true_and]
      exact oneOf_iff _ _ _ _
    | cons s ss =>
      cases ss with
      | cons s' ss => simp
      | nil =>
        simp only [List.length_singleton, le_refl, true_and, List.mem_singleton, forall_eq]
        cases h1 : given s.positive with
        | true =>
          rw [given_iff] at h1
          simp [h1]
        | false =>
          rw [given_false] at h1
          cases h2 : given s.negative with
          | true =>
            rw [given_iff] at h2
            simp [h2]
          | false =>
            rw [given_false] at h2
            simp only [Bool.or_self, Bool.false_eq_true, if_false, h1, h2, true_and]
            exact oneOf_iff _ _ _ _
  | qwen =>
    simp only [OutArch.supports, Fits, typesAll_eq]
    cases hs : c.sharedList with
    | nil => simp
    | cons s ss =>
      cases ss with
      | cons s' ss => simp
      | nil =>
        simp only [List.length_singleton, true_and, List.mem_singleton, forall_eq]
        by_cases h1 : c.gateMode = cs!"random"
        · simp only [h1, ne_eq, not_true_eq_false, decide_false, Bool.false_and, Bool.false_eq_true, if_false, true_or, true_and]
          exact oneOf_iff _ _ _ _
        · cases h2 : given s.positive with
          | true =>
            rw [given_iff] at h2
            simp only [Bool.not_true, Bool.and_false, Bool.false_eq_true, if_false, h2, ne_eq, not_false_eq_true, or_true, true_and]
            exact oneOf_iff _ _ _ _
          | false =>
            rw [given_false] at h2
            simp [h1, h2]
  | qwen3 =>
    simp only [OutArch.supports, Fits, typesAll_eq]
    cases hs : c.sharedList with
    | cons s ss => simp
    | nil =>
      simp only [List.isEmpty_nil, Bool.not_true, Bool.false_eq_true, if_false, true_and, List.all_eq_true, decide_eq_true_eq]
      constructor
      · intro h
        exact ⟨cs!"qwen3", by simp, fun m hm => h _ (List.mem_map_of_mem hm)⟩
      · rintro ⟨t, ht, h⟩ u hu
        obtain ⟨m, hm, rfl⟩ := List.mem_map.1 hu
        rw [h m hm]
        simpa using ht

/-- The candidates. -/
theorem candidates_eq (c : Config M K) (typeOf : M → Str) [DecidablePred (fun a : OutArch => Requested c a ∧ Fits typeOf c a)] :
    selectArch c typeOf = preferred (allArchs.filter (fun a => decide (Requested c a ∧ Fits typeOf c a))) := by
  unfold selectArch
  congr 1
  unfold candidatesIn
  cases ha : c.architecture with
  | none =>
    simp only
    refine List.filter_congr ?_
    intro o _
    rw [Bool.eq_iff_iff, decide_eq_true_eq, supports_iff]
    exact ⟨fun h => ⟨fun r hr => (by rw [ha] at hr; cases hr), h⟩, fun h => h.2⟩
  | some a =>
    simp only
    have hreq : ∀ o, Requested c o ↔ a.map Char.toLower <+: o.name.map Char.toLower := by
      intro o
      unfold Requested
      rw [ha]
      exact ⟨fun h => h a rfl, fun h r hr => by cases hr; exact h⟩
    split
    · rename_i hempty
      rw [List.isEmpty_iff] at hempty
      subst hempty
      refine List.filter_congr ?_
      intro o _
      rw [Bool.eq_iff_iff, decide_eq_true_eq, supports_iff, hreq]
      exact ⟨fun h => ⟨List.nil_prefix, h⟩, fun h => h.2⟩
    · rw [List.filter_filter]
      refine List.filter_congr ?_
      intro o _
      rw [Bool.eq_iff_iff, Bool.and_eq_true, decide_eq_true_eq, supports_iff, hreq, List.isPrefixOf_iff_prefix, and_comm]
      rfl

theorem preferred_cases (P : OutArch → Prop) [DecidablePred P] (a : OutArch) :
    preferred (allArchs.filter (fun a => decide (P a))) = some a ↔
    P a ∧ ∀ b, P b → b = a ∨ [a, b].Sublist [OutArch.mixtral, .deepseek, .qwen, .qwen3] := by
  have key : ∀ (x : OutArch → Bool), preferred (allArchs.filter x) = some a ↔
    x a = true ∧ ∀ b ∈ [OutArch.mixtral, .deepseek, .qwen, .qwen3], x b = true → b = a ∨ [a, b].Sublist [OutArch.mixtral, .deepseek, .qwen, .qwen3] := by
    intro x
    have e : x = fun o => match o with
        | .mixtral => x .mixtral
        | .deepseek => x .deepseek
        | .qwen => x .qwen
        | .qwen3 => x .qwen3 := by
      funext o
      cases o <;> rfl
    rw [e]
    generalize x .mixtral = x1
    generalize x .deepseek = x2
    generalize x .qwen = x3
    generalize x .qwen3 = x4
    clear e x
    cases a <;> revert x1 x2 x3 x4 <;> decide
  rw [key]
  simp only [decide_eq_true_eq]
  refine and_congr Iff.rfl ⟨fun h b hb => h b ?_ hb, fun h b _ hb => h b hb⟩
  cases b <;> simp

/-- C76: the architecture chosen is the first in the list Mixtral, DeepSeek, Qwen, Qwen3 whose layout can hold the configuration and whose name
starts with the one asked for; in particular it can. -/
theorem C76_chosen (c : Config M K) (typeOf : M → Str) (a : OutArch) :
    selectArch c typeOf = some a ↔
      (Requested c a ∧ Fits typeOf c a) ∧
      ∀ b, Requested c b ∧ Fits typeOf c b → b = a ∨ [a, b].Sublist [OutArch.mixtral, .deepseek, .qwen, .qwen3] := by
  classical
  rw [candidates_eq]
  exact preferred_cases (fun a => Requested c a ∧ Fits typeOf c a) a

/-- C76: the run ends without output exactly when no layout can hold the configuration under the name asked for. -/
theorem C76_none (c : Config M K) (typeOf : M → Str) :
    selectArch c typeOf = none ↔ ∀ a, ¬ (Requested c a ∧ Fits typeOf c a) := by
  classical
  constructor
  · intro h a ha
    have : ∃ b, selectArch c typeOf = some b := by
      rw [candidates_eq]
      unfold preferred
      cases (allArchs.filter (fun a => decide (Requested c a ∧ Fits typeOf c a))).find? (fun o => decide (o = .mixtral)) with
      | some o => exact ⟨o, rfl⟩
      | none =>
        cases hl : allArchs.filter (fun a => decide (Requested c a ∧ Fits typeOf c a)) with
        | cons b _ => exact ⟨b, rfl⟩
        | nil =>
          have hmem : a ∈ allArchs.filter (fun a => decide (Requested c a ∧ Fits typeOf c a)) :=
            List.mem_filter.2 ⟨by cases a <;> simp [allArchs], by simpa using ha⟩
          rw [hl] at hmem
          cases hmem
    obtain ⟨b, hb⟩ := this
    rw [hb] at h
    cases h
  · intro h
    cases hs : selectArch c typeOf with
    | none => rfl
    | some a => exact absurd ((C76_chosen c typeOf a).1 hs).1 (h a)

end Verif.Moe
