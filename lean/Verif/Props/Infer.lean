import Verif.Model.Infer
import Verif.Props.Arch
import Verif.Props.Writer
import Mathlib.Data.List.TakeWhile

/-! # C89, C90: inferred and chosen architectures -/

namespace Verif.Infer

open Verif.ModelRef (Str)
open Verif.Arch (WeightInfo Module expand substitute substituteAll layersFrom allWeights prefixWeight)

/-! ## Specification -/

/-- A name without the characters that mean something in templates. -/
def Plain (n : Str) : Prop := '$' ∉ n ∧ '{' ∉ n

/-- The numbers between dots are written without leading zeros. -/
def Canonical (n : Str) : Prop :=
  ∀ p d s : Str, n = p ++ '.' :: d ++ '.' :: s → d ≠ [] → (∀ c ∈ d, c.isDigit = true) → ∃ i : Nat, d = Nat.toDigits 10 i

/-- The set of module prefixes is gone through in this order. -/
def IsOrder (f : Facts) (order : List Str) : Prop :=
  order.Nodup ∧ ∀ p, p ∈ order ↔ p = [] ∨ p ∈ f.prefixes

/-! ## The search for layer numbers -/

theorem digitsDot_some {s d r : Str} (h : digitsDot s = some (d, r)) :
    s = d ++ '.' :: r ∧ d ≠ [] ∧ ∀ c ∈ d, c.isDigit = true := by
  unfold digitsDot at h
  split at h
  case h_1 x y d' ds rest h1 h2 =>
    injection h with h
    injection h with ha hb
    subst ha hb
    refine ⟨?_, by simp, ?_⟩
    · rw [← h1, ← h2, List.takeWhile_append_dropWhile]
    · intro c hc
      rw [← h1] at hc
      exact List.mem_takeWhile_imp hc
  case h_2 => cases h

theorem search_some {n : Str} {x : Str × Str × Str} (h : search n = some x) :
    n = x.1 ++ '.' :: x.2.1 ++ '.' :: x.2.2 ∧ x.2.1 ≠ [] ∧ ∀ c ∈ x.2.1, c.isDigit = true := by
  induction n generalizing x with
  | nil => simp [search] at h
  | cons c s ih =>
    have step : (search s).map (fun x => (c :: x.1, x.2)) = some x →
        c :: s = x.1 ++ '.' :: x.2.1 ++ '.' :: x.2.2 ∧ x.2.1 ≠ [] ∧ ∀ c ∈ x.2.1, c.isDigit = true := by
      intro hx
      cases hs : search s with
      | none => simp [hs] at hx
      | some y =>
        rw [hs] at hx
        simp only [Option.map_some, Option.some.injEq] at hx
        obtain ⟨h1, h2, h3⟩ := ih hs
        subst hx
        exact ⟨by simp only [List.cons_append]; rw [← h1], h2, h3⟩
    unfold search at h
    split at h
    case isTrue hc =>
      subst hc
      split at h
      case h_1 d r hd =>
        obtain ⟨h1, h2, h3⟩ := digitsDot_some hd
        injection h with h
        subst h
        exact ⟨by simp only [List.nil_append]; rw [h1]; simp, h2, h3⟩
      case h_2 => exact step h
    case isFalse => exact step h

theorem number_canonical {n : Str} (hn : Canonical n) {x : Str × Str × Str} (h : search n = some x) :
    x.2.1 = Nat.toDigits 10 (number x.2.1) := by
  obtain ⟨h1, h2, h3⟩ := search_some h
  obtain ⟨i, hi⟩ := hn x.1 x.2.1 x.2.2 h1 h2 h3
  rw [hi]
  congr 1
  unfold number
  rw [Nat.ofDigitChars_ten_toDigits]

/-! ## Templates -/

/-- The name a template stands for in a layer. -/
def instanceOf (x : Str × Str × Str) (i : Nat) : Str := x.1 ++ '.' :: Nat.toDigits 10 i ++ '.' :: x.2.2

theorem cut_plain (a b : Str) (ha : '$' ∉ a) : cut (a ++ "${layer_index}".toList ++ b) = some (a, b) := by
  induction a with
  | nil =>
    simp only [List.nil_append]
    have h0 : "${layer_index}".toList = ['$', '{', 'l', 'a', 'y', 'e', 'r', '_', 'i', 'n', 'd', 'e', 'x', '}'] := rfl
    rw [h0]
    simp only [List.cons_append, List.nil_append]
    unfold cut
    rw [h0]
    simp
  | cons c a ih =>
    simp only [List.mem_cons, not_or] at ha
    simp only [List.cons_append]
    unfold cut
    have : "${layer_index}".toList.isPrefixOf (c :: (a ++ "${layer_index}".toList ++ b)) = false := by
      have h0 : "${layer_index}".toList = '$' :: "{layer_index}".toList := rfl
      rw [h0]
      simp only [List.isPrefixOf, Bool.and_eq_false_iff]
      left
      simpa using ha.1
    simp only [List.append_assoc] at this ih ⊢
    rw [if_neg (by rw [this]; simp), ih ha.2]
    rfl

theorem template_eq (x : Str × Str × Str) : template x = (x.1 ++ ['.']) ++ "${layer_index}".toList ++ '.' :: x.2.2 := by
  simp [template]

theorem cut_none {t : Str} (ht : '$' ∉ t) : cut t = none := by
  induction t with
  | nil => rfl
  | cons c s ih =>
    simp only [List.mem_cons, not_or] at ht
    unfold cut
    rw [if_neg]
    · rw [ih ht.2]; rfl
    · have h0 : "${layer_index}".toList = '$' :: "{layer_index}".toList := rfl
      rw [h0]
      simp only [List.isPrefixOf, Bool.and_eq_true, not_and]
      intro h
      simp only [beq_iff_eq] at h
      exact absurd h ht.1

theorem present_template (f : Facts) (x : Str × Str × Str) (hx : '$' ∉ x.1) (n : Nat) :
    f.presentEverywhere (template x) (some n) = (List.range n).all (fun i => f.everywhere (instanceOf x i)) := by
  unfold Facts.presentEverywhere
  rw [template_eq, cut_plain _ _ (by simp [hx])]
  simp [instanceOf]

theorem expand_template (x : Str × Str × Str) (hx : '$' ∉ x.1) (hx' : '$' ∉ x.2.2) (n i : Nat) :
    expand (template x) n (some i) = .ok (instanceOf x i) := by
  rw [template_eq, Verif.Arch.C63_replaces _ _ (by simp [hx]) (by simp [hx'])]
  simp [instanceOf]

/-! ## The weights listed by an inferred architecture -/

/-- The weight for a name. -/
def weightFor (f : Facts) (nl : Option Nat) (t : Str) : WeightInfo :=
  { name := t, optional := !f.presentEverywhere t nl || f.isTied t,
    isEmbed := match f.isEmbed t with | .ok b => b | .error _ => false }

theorem weight_ok {f : Facts} {nl : Option Nat} {t : Str} {w : WeightInfo} (h : f.weight nl t = .ok w) : w = weightFor f nl t := by
  unfold Facts.weight at h
  unfold weightFor
  cases he : f.isEmbed t with
  | error e => simp [he] at h
  | ok b =>
    simp only [he] at h
    injection h with h
    exact h.symm

theorem weights_ok {f : Facts} {nl : Option Nat} {ts : List Str} {ws : List WeightInfo} (h : f.weights nl ts = .ok ws) :
    ws = ts.map (weightFor f nl) := by
  induction ts generalizing ws with
  | nil => simp only [Facts.weights, Except.ok.injEq] at h; simp [← h]
  | cons t ts ih =>
    unfold Facts.weights at h
    cases hw : f.weight nl t with
    | error e => simp [hw] at h
    | ok w =>
      simp only [hw] at h
      cases hs : f.weights nl ts with
      | error e => simp [hs] at h
      | ok ws' =>
        simp only [hs, Except.ok.injEq] at h
        rw [← h, ih hs, weight_ok hw]
        rfl

theorem substitute_named (w : WeightInfo) (ha : w.aliases = none) (ht : w.tiedNames = none) (n : Int) (layer : Option Int) (s : Str)
    (h : expand w.name n layer = .ok s) : substitute w n layer = .ok { w with name := s } := by
  unfold substitute
  rw [h]
  simp only [ha, ht, Verif.Arch.expandOpt]

theorem substituteAll_named (n : Int) (layer : Option Int) (ws : List WeightInfo) (g : WeightInfo → Str)
    (h : ∀ w ∈ ws, w.aliases = none ∧ w.tiedNames = none ∧ expand w.name n layer = .ok (g w)) :
    substituteAll n layer ws = .ok (ws.map (fun w => { w with name := g w })) := by
  induction ws with
  | nil => rfl
  | cons w ws ih =>
    obtain ⟨h1, h2, h3⟩ := h w (by simp)
    unfold substituteAll
    rw [substitute_named w h1 h2 n layer _ h3]
    simp only
    rw [ih (fun v hv => h v (by simp [hv]))]
    rfl

/-- The instance of a template given as text. -/
def filled (t : Str) (i : Nat) : Str :=
  match cut t with
  | none => t
  | some (a, b) => a ++ Nat.toDigits 10 i ++ b

/-- A template as they are made from plain names. -/
def IsTemplate (t : Str) : Prop := ∃ x : Str × Str × Str, t = template x ∧ '$' ∉ x.1 ∧ '$' ∉ x.2.2

theorem filled_template (x : Str × Str × Str) (hx : '$' ∉ x.1) (i : Nat) : filled (template x) i = instanceOf x i := by
  unfold filled
  rw [template_eq, cut_plain _ _ (by simp [hx])]
  simp [instanceOf]

theorem expand_filled {t : Str} (ht : IsTemplate t) (n i : Nat) : expand t n (some i) = .ok (filled t i) := by
  obtain ⟨x, rfl, h1, h2⟩ := ht
  rw [expand_template x h1 h2, filled_template x h1]

/-- The weights of a module found. -/
def listed (f : Facts) (m : Found) : List WeightInfo :=
  m.loose.map (weightFor f none) ++
  (List.range m.layers).flatMap (fun i => m.templates.map (fun t => { weightFor f (some m.layers) t with name := filled t i }))

theorem layersFrom_named (m : Module) (n : Nat) (g : WeightInfo → Nat → Str) (is : List Nat)
    (h : ∀ w ∈ m.layers, w.aliases = none ∧ w.tiedNames = none ∧ ∀ i : Nat, expand w.name n (some i) = .ok (g w i)) :
    layersFrom m n is = .ok (is.flatMap (fun i => m.layers.map (fun w => { w with name := g w i }))) := by
  induction is with
  | nil => rfl
  | cons i is ih =>
    unfold layersFrom
    rw [substituteAll_named n (some i) m.layers (fun w => g w i) (fun w hw => ⟨(h w hw).1, (h w hw).2.1, (h w hw).2.2 i⟩)]
    simp only
    rw [ih]
    rfl

theorem moduleOf_weights {f : Facts} {m : Found} {k : Str} {mod : Module} (h : f.moduleOf m = .ok (k, mod))
    (hloose : ∀ n ∈ m.loose, '{' ∉ n) (htemp : ∀ t ∈ m.templates, IsTemplate t) (c : Nat) :
    mod.allWeights c = .ok (listed f m) ∧ mod.weightPrefix = none := by
  unfold Facts.moduleOf at h
  cases hp : f.weights none m.loose with
  | error e => simp [hp] at h
  | ok pre =>
    simp only [hp] at h
    cases hl : f.weights (some m.layers) m.templates with
    | error e => simp [hl] at h
    | ok ls =>
      simp only [hl, Except.ok.injEq, Prod.mk.injEq] at h
      obtain ⟨_, rfl⟩ := h
      refine ⟨?_, rfl⟩
      have e1 := weights_ok hp
      have e2 := weights_ok hl
      subst e1 e2
      unfold Module.allWeights
      simp only [Module.numLayers, Option.getD_some]
      rw [substituteAll_named _ _ _ (fun w => w.name)]
      · simp only
        rw [layersFrom_named _ _ (fun w i => filled w.name i)]
        · simp only [substituteAll, List.append_nil]
          congr 1
          unfold listed
          congr 1
          · simp
          · simp [List.map_map, Function.comp_def, weightFor]
        · intro w hw
          simp only [List.mem_map] at hw
          obtain ⟨t, ht, rfl⟩ := hw
          exact ⟨rfl, rfl, fun i => expand_filled (htemp t ht) _ i⟩
      · intro w hw
        simp only [List.mem_map] at hw
        obtain ⟨t, ht, rfl⟩ := hw
        exact ⟨rfl, rfl, Verif.Arch.C63_plain _ (hloose t ht) _ _⟩

theorem build_weights {f : Facts} {ms : List Found} {out : List (Str × Module)} (h : f.build ms = .ok out)
    (hloose : ∀ m ∈ ms, ∀ n ∈ m.loose, '{' ∉ n) (htemp : ∀ m ∈ ms, ∀ t ∈ m.templates, IsTemplate t) (c : Nat) :
    allWeights (out.map (fun e => (e.2, c))) = .ok (ms.flatMap (listed f)) := by
  induction ms generalizing out with
  | nil => simp only [Facts.build, Except.ok.injEq] at h; subst h; rfl
  | cons m ms ih =>
    unfold Facts.build at h
    cases hm : f.moduleOf m with
    | error e => simp [hm] at h
    | ok a =>
      simp only [hm] at h
      cases hb : f.build ms with
      | error e => simp [hb] at h
      | ok as =>
        simp only [hb, Except.ok.injEq] at h
        subst h
        obtain ⟨h1, h2⟩ := moduleOf_weights (k := a.1) (mod := a.2) hm (hloose m (by simp)) (htemp m (by simp)) c
        simp only [List.map_cons, List.flatMap_cons]
        unfold allWeights
        simp only [h1, h2]
        rw [ih hb (fun m hm => hloose m (by simp [hm])) (fun m hm => htemp m (by simp [hm]))]
        simp [prefixWeight]

theorem mem_layered {f : Facts} {x : Str × Str × Str} :
    x ∈ f.layered ↔ ∃ n ∈ f.names, n ∉ f.ignored ∧ search n = some x := by
  unfold Facts.layered
  simp only [List.mem_filterMap, List.mem_filter, decide_eq_true_eq]
  constructor
  · rintro ⟨n, ⟨h1, h2⟩, h3⟩; exact ⟨n, h1, h2, h3⟩
  · rintro ⟨n, h1, h2, h3⟩; exact ⟨n, ⟨h1, h2⟩, h3⟩

theorem layered_plain {f : Facts} (hf : ∀ n ∈ f.names, Plain n) {x : Str × Str × Str} (hx : x ∈ f.layered) :
    '$' ∉ x.1 ∧ '$' ∉ x.2.2 := by
  obtain ⟨n, hn, _, hs⟩ := mem_layered.1 hx
  obtain ⟨h1, _, _⟩ := search_some hs
  have := (hf n hn).1
  rw [h1] at this
  simp only [List.mem_append, List.mem_cons, not_or] at this
  exact ⟨this.1.1, this.2.2⟩

theorem mem_templates {f : Facts} {p t : Str} : t ∈ f.templates p ↔ ∃ x ∈ f.layered, x.1 = p ∧ t = template x := by
  unfold Facts.templates
  simp only [List.mem_eraseDups, List.mem_map, List.mem_filter, decide_eq_true_eq]
  constructor
  · rintro ⟨x, ⟨h1, h2⟩, h3⟩; exact ⟨x, h1, h2, h3.symm⟩
  · rintro ⟨x, h1, h2, h3⟩; exact ⟨x, ⟨h1, h2⟩, h3.symm⟩

theorem templates_ok {f : Facts} (hf : ∀ n ∈ f.names, Plain n) (p : Str) : ∀ t ∈ f.templates p, IsTemplate t := by
  intro t ht
  obtain ⟨x, hx, _, rfl⟩ := mem_templates.1 ht
  exact ⟨x, rfl, (layered_plain hf hx).1, (layered_plain hf hx).2⟩

theorem mem_loose {f : Facts} {order : List Str} {p r : Str} :
    r ∈ f.loose order p ↔ ∃ n ∈ f.names, search n = none ∧ order.find? (fun q => q.isPrefixOf n) = some p ∧ r = n.drop p.length := by
  unfold Facts.loose Facts.others
  simp only [List.mem_eraseDups, List.mem_map, List.mem_filter, decide_eq_true_eq]
  constructor
  · rintro ⟨n, ⟨⟨h1, h2⟩, h3⟩, h4⟩; exact ⟨n, h1, h2, h3, h4.symm⟩
  · rintro ⟨n, h1, h2, h3, h4⟩; exact ⟨n, ⟨⟨h1, h2⟩, h3⟩, h4.symm⟩

theorem found_ok {f : Facts} (hf : ∀ n ∈ f.names, Plain n) (order : List Str) :
    ∀ m ∈ f.found order, (∀ n ∈ m.loose, '{' ∉ n) ∧ ∀ t ∈ m.templates, IsTemplate t := by
  have hl : ∀ (o : List Str) (p : Str), ∀ r ∈ f.loose o p, '{' ∉ r := by
    intro o p r hr hb
    obtain ⟨n, hn, _, _, rfl⟩ := mem_loose.1 hr
    exact (hf n hn).2 (List.mem_of_mem_drop hb)
  intro m hm
  unfold Facts.found at hm
  split at hm
  · simp only [List.mem_singleton] at hm
    subst hm
    exact ⟨hl _ _, templates_ok hf _⟩
  · simp only [List.mem_map] at hm
    obtain ⟨p, _, rfl⟩ := hm
    exact ⟨hl _ _, templates_ok hf _⟩

theorem modules_ok {f : Facts} {order : List Str} {ms : List Found} (h : f.modules order = .ok ms) :
    ms = (f.found order).filter (fun m => !(m.pfx.isEmpty && m.loose.isEmpty && m.templates.isEmpty)) := by
  unfold Facts.modules at h
  split at h
  · cases h
  · injection h with h; exact h.symm

theorem infer_weights {f : Facts} (hf : ∀ n ∈ f.names, Plain n) {order : List Str} {out : List (Str × Module)}
    (h : f.infer order = .ok out) (c : Nat) :
    ∃ ms, f.modules order = .ok ms ∧ allWeights (out.map (fun e => (e.2, c))) = .ok (ms.flatMap (listed f)) := by
  unfold Facts.infer at h
  cases hm : f.modules order with
  | error e => simp [hm] at h
  | ok ms =>
    simp only [hm] at h
    refine ⟨ms, rfl, ?_⟩
    have hsub : ∀ m ∈ ms, m ∈ f.found order := by
      intro m hmm
      rw [modules_ok hm] at hmm
      exact (List.mem_filter.1 hmm).1
    exact build_weights h (fun m hmm => (found_ok hf order m (hsub m hmm)).1) (fun m hmm => (found_ok hf order m (hsub m hmm)).2) c

theorem layers_gt {f : Facts} {x : Str × Str × Str} (hx : x ∈ f.layered) : number x.2.1 < f.layers x.1 := by
  unfold Facts.layers
  have key : ∀ (l : List Nat) (a b : Nat), (b ∈ l ∨ b ≤ a) → b ≤ l.foldl max a := by
    intro l
    induction l with
    | nil => intro a b h; simpa using h
    | cons y l ih =>
      intro a b h
      refine ih _ _ ?_
      rcases h with h | h
      · rcases List.mem_cons.1 h with rfl | h
        · exact .inr (Nat.le_max_right _ _)
        · exact .inl h
      · exact .inr (Nat.le_trans h (Nat.le_max_left _ _))
  refine key _ 0 (number x.2.1 + 1) (.inl ?_)
  simp only [List.mem_map, List.mem_filter, decide_eq_true_eq]
  exact ⟨x, ⟨hx, rfl⟩, rfl⟩

theorem listed_template {f : Facts} (hf : ∀ n ∈ f.names, Plain n) {n : Str} (hn : n ∈ f.names) (hi : n ∉ f.ignored) (hc : Canonical n)
    {x : Str × Str × Str} (hs : search n = some x) (m : Found) (hm : m.templates = f.templates x.1) (hl : m.layers = f.layers x.1) :
    n ∈ (listed f m).map (·.name) := by
  have hx : x ∈ f.layered := mem_layered.2 ⟨n, hn, hi, hs⟩
  have hp := layered_plain hf hx
  unfold listed
  simp only [List.map_append, List.mem_append]
  right
  simp only [List.map_flatMap, List.mem_flatMap, List.mem_range]
  refine ⟨number x.2.1, ?_, ?_⟩
  · rw [hl]; exact layers_gt hx
  · rw [hm]
    simp only [List.map_map, List.mem_map, Function.comp_apply]
    refine ⟨template x, mem_templates.2 ⟨x, hx, rfl, rfl⟩, ?_⟩
    rw [filled_template x hp.1]
    unfold instanceOf
    rw [← number_canonical hc hs]
    exact (search_some hs).1.symm

/-- An inferred architecture lists every tensor (other than those never saved), whenever tensors outside the layers are looked up under
the empty prefix first — in particular if all layers share one prefix.  Tensor names are free of template characters and layer numbers of
leading zeros. -/
theorem C89_complete_partial (f : Facts) (order : List Str) (ho : IsOrder f order) (hplain : ∀ n ∈ f.names, Plain n)
    (hcanon : ∀ n ∈ f.names, Canonical n) (hfirst : f.prefixes.length = 1 ∨ order.head? = some [])
    (out : List (Str × Module)) (h : f.infer order = .ok out) (c : Nat) :
    ∃ ws, allWeights (out.map (fun e => (e.2, c))) = .ok ws ∧ ∀ n ∈ f.names, n ∉ f.ignored → n ∈ ws.map (·.name) := by
  obtain ⟨ms, hms, hw⟩ := infer_weights hplain h c
  refine ⟨_, hw, ?_⟩
  intro n hn hi
  have hmem : ∀ m ∈ f.found order, n ∈ (listed f m).map (·.name) → n ∈ (ms.flatMap (listed f)).map (·.name) := by
    intro m hm hlm
    rw [List.map_flatMap, List.mem_flatMap]
    refine ⟨m, ?_, hlm⟩
    rw [modules_ok hms, List.mem_filter]
    refine ⟨hm, ?_⟩
    by_contra hcon
    simp only [Bool.not_eq_true', Bool.not_eq_false, Bool.and_eq_true, List.isEmpty_iff] at hcon
    obtain ⟨⟨_, h2⟩, h3⟩ := hcon
    simp [listed, h2, h3] at hlm
  cases hs : search n with
  | some x =>
    have hx : x ∈ f.layered := mem_layered.2 ⟨n, hn, hi, hs⟩
    have hpre : x.1 ∈ f.prefixes := by
      unfold Facts.prefixes
      rw [List.mem_eraseDups]
      exact List.mem_map_of_mem hx
    by_cases h1 : ∃ p, f.prefixes = [p]
    · obtain ⟨p, hp⟩ := h1
      have hxp : x.1 = p := by rw [hp] at hpre; simpa using hpre
      refine hmem ⟨[], f.layers p, f.templates p, f.loose [[]] []⟩ ?_ ?_
      · unfold Facts.found; rw [hp]; simp
      · exact listed_template hplain hn hi (hcanon n hn) hs _ (by rw [hxp]) (by rw [hxp])
    · refine hmem ⟨x.1, f.layers x.1, f.templates x.1, f.loose order x.1⟩ ?_ ?_
      · unfold Facts.found
        split
        · rename_i p hp; exact absurd ⟨p, hp⟩ h1
        · exact List.mem_map.2 ⟨x.1, (ho.2 x.1).2 (.inr hpre), rfl⟩
      · exact listed_template hplain hn hi (hcanon n hn) hs _ rfl rfl
  | none =>
    have hloose : ∀ (o : List Str) (m : Found), o.head? = some [] → m.loose = f.loose o [] → n ∈ (listed f m).map (·.name) := by
      intro o m ho' hm
      unfold listed
      simp only [List.map_append, List.mem_append]
      left
      rw [hm, List.map_map, List.mem_map]
      refine ⟨n, mem_loose.2 ⟨n, hn, hs, ?_, rfl⟩, rfl⟩
      cases o with
      | nil => simp at ho'
      | cons q o =>
        simp only [List.head?_cons, Option.some.injEq] at ho'
        subst ho'
        simp
    by_cases h1 : ∃ p, f.prefixes = [p]
    · obtain ⟨p, hp⟩ := h1
      refine hmem ⟨[], f.layers p, f.templates p, f.loose [[]] []⟩ ?_ (hloose [[]] _ rfl rfl)
      unfold Facts.found; rw [hp]; simp
    · have hhead : order.head? = some [] := by
        rcases hfirst with hf1 | hf1
        · exact absurd (List.length_eq_one_iff.1 hf1) h1
        · exact hf1
      refine hmem ⟨[], f.layers [], f.templates [], f.loose order []⟩ ?_ (hloose order _ hhead rfl)
      unfold Facts.found
      split
      · rename_i p hp; exact absurd ⟨p, hp⟩ h1
      · exact List.mem_map.2 ⟨[], (ho.2 []).2 (.inl rfl), rfl⟩

/-- A weight that an inferred architecture requires is in every model; so a merge never fails over a tensor some model lacks. -/
theorem C89_required (f : Facts) (order : List Str) (hplain : ∀ n ∈ f.names, Plain n)
    (out : List (Str × Module)) (h : f.infer order = .ok out) (c : Nat) :
    ∃ ws, allWeights (out.map (fun e => (e.2, c))) = .ok ws ∧
      ∀ w ∈ ws, w.optional = false → ∀ m ∈ f.models, m w.name = true := by
  obtain ⟨ms, hms, hw⟩ := infer_weights hplain h c
  refine ⟨_, hw, ?_⟩
  intro w hw' hopt
  obtain ⟨m, hm, hwm⟩ := List.mem_flatMap.1 hw'
  have hmf : m ∈ f.found order := by
    rw [modules_ok hms] at hm
    exact (List.mem_filter.1 hm).1
  obtain ⟨hloose, htemp⟩ := found_ok hplain order m hmf
  unfold listed at hwm
  rcases List.mem_append.1 hwm with hwm | hwm
  · obtain ⟨t, ht, rfl⟩ := List.mem_map.1 hwm
    simp only [weightFor, Bool.or_eq_false_iff, Bool.not_eq_false'] at hopt
    have hp : '$' ∉ t := by
      have hsub : ∃ n ∈ f.names, ∃ k, t = n.drop k := by
        unfold Facts.found at hmf
        split at hmf
        · simp only [List.mem_singleton] at hmf
          subst hmf
          obtain ⟨n, hn, _, _, h4⟩ := mem_loose.1 ht
          exact ⟨n, hn, _, h4⟩
        · obtain ⟨p, _, rfl⟩ := List.mem_map.1 hmf
          obtain ⟨n, hn, _, _, h4⟩ := mem_loose.1 ht
          exact ⟨n, hn, _, h4⟩
      obtain ⟨n, hn, k, rfl⟩ := hsub
      exact fun hb => (hplain n hn).1 (List.mem_of_mem_drop hb)
    have := hopt.1
    unfold Facts.presentEverywhere at this
    rw [cut_none hp] at this
    exact fun m hm => List.all_eq_true.1 this m hm
  · obtain ⟨i, hi, hwi⟩ := List.mem_flatMap.1 hwm
    obtain ⟨t, ht, rfl⟩ := List.mem_map.1 hwi
    simp only [weightFor, Bool.or_eq_false_iff, Bool.not_eq_false'] at hopt
    obtain ⟨x, rfl, hx1, hx2⟩ := htemp t ht
    have := hopt.1
    rw [present_template f x hx1] at this
    have := List.all_eq_true.1 this i hi
    simp only
    rw [filled_template x hx1]
    exact fun m hm => List.all_eq_true.1 this m hm

/-- A weight listed for a layer is optional exactly if it is tied or one of the layers misses it in one of the models. -/
theorem C89_optional (f : Facts) (x : Str × Str × Str) (hx : '$' ∉ x.1) (n : Nat) (w : WeightInfo)
    (h : f.weight (some n) (template x) = .ok w) :
    w.optional = true ↔ f.isTied (template x) = true ∨ ∃ i < n, ∃ m ∈ f.models, m (instanceOf x i) = false := by
  rw [weight_ok h]
  simp only [weightFor, Bool.or_eq_true, Bool.not_eq_true', present_template f x hx]
  rw [or_comm]
  refine or_congr Iff.rfl ?_
  rw [← Bool.not_eq_true, List.all_eq_true]
  push Not
  simp only [List.mem_range, Facts.everywhere]
  constructor
  · rintro ⟨i, hi, h⟩
    rw [ne_eq, List.all_eq_true] at h
    push Not at h
    obtain ⟨m, hm, h⟩ := h
    exact ⟨i, hi, m, hm, by simpa using h⟩
  · rintro ⟨i, hi, m, hm, h⟩
    refine ⟨i, hi, ?_⟩
    rw [ne_eq, List.all_eq_true]
    push Not
    exact ⟨m, hm, by simp [h]⟩

theorem kept_nonempty {f : Facts} {order : List Str} (ho : IsOrder f order) {ms : List Found} (h : f.modules order = .ok ms) :
    ∀ m ∈ ms, m.loose ≠ [] ∨ m.templates ≠ [] := by
  intro m hm
  rw [modules_ok h, List.mem_filter] at hm
  obtain ⟨hm, hk⟩ := hm
  by_cases hp : m.pfx = []
  · by_contra hcon
    push Not at hcon
    simp [hp, hcon.1, hcon.2] at hk
  · right
    unfold Facts.found at hm
    split at hm
    · simp only [List.mem_singleton] at hm
      subst hm
      exact absurd rfl hp
    · obtain ⟨p, hpo, rfl⟩ := List.mem_map.1 hm
      rcases (ho.2 p).1 hpo with h0 | h0
      · exact absurd h0 hp
      · unfold Facts.prefixes at h0
        rw [List.mem_eraseDups] at h0
        obtain ⟨x, hx, rfl⟩ := List.mem_map.1 h0
        intro h1
        have := mem_templates.2 ⟨x, hx, rfl, rfl⟩
        simp only at h1
        rw [h1] at this
        simp at this

/-- If the transformers library cannot load the base model, inference always fails, whatever the checkpoints contain. -/
theorem C89_needs_transformers (f : Facts) (hf : f.embed = none) (order : List Str) (ho : IsOrder f order) :
    f.infer order = .error .noModules ∨ f.infer order = .error .typeError := by
  unfold Facts.infer
  cases hm : f.modules order with
  | error e =>
    left
    unfold Facts.modules at hm
    split at hm
    · injection hm with hm; rw [hm]
    · cases hm
  | ok ms =>
    right
    have hw : ∀ nl ts, ts ≠ [] → f.weights nl ts = .error .typeError := by
      intro nl ts hts
      cases ts with
      | nil => exact absurd rfl hts
      | cons t ts => simp [Facts.weights, Facts.weight, Facts.isEmbed, hf]
    have hne := kept_nonempty ho hm
    cases ms with
    | nil =>
      unfold Facts.modules at hm
      split at hm
      · cases hm
      · rename_i h1 h2
        injection hm with hm
        exact absurd hm h2
    | cons m ms =>
      simp only [Facts.build, Facts.moduleOf]
      cases hl : m.loose with
      | cons a as => rw [hw none (a :: as) (by simp)]
      | nil =>
        simp only [Facts.weights]
        rw [hw _ m.templates ((hne m (by simp)).resolve_left (by simp [hl]))]

/-- Whether inference fails, and the error, depends on the models only through these: with embeddings and tied weights known it
succeeds on every checkpoint with a tensor that is to be saved. -/
theorem C89_succeeds (f : Facts) (e t : Str → Bool) (he : f.embed = some e) (ht : f.tied = some t) (order : List Str) (ho : IsOrder f order)
    (n : Str) (hn : n ∈ f.names) (hi : n ∉ f.ignored) : ∃ out, f.infer order = .ok out := by
  have hw : ∀ nl ts, ∃ ws, f.weights nl ts = .ok ws := by
    intro nl ts
    induction ts with
    | nil => exact ⟨[], rfl⟩
    | cons a ts ih =>
      obtain ⟨ws, hws⟩ := ih
      have : ∃ b, f.isEmbed a = .ok b := by
        unfold Facts.isEmbed
        simp only [he, ht]
        split
        · exact ⟨_, rfl⟩
        · exact ⟨_, rfl⟩
      obtain ⟨b, hb⟩ := this
      simp only [Facts.weights, Facts.weight, hb, hws]
      exact ⟨_, rfl⟩
  have hb : ∀ ms, ∃ out, f.build ms = .ok out := by
    intro ms
    induction ms with
    | nil => exact ⟨[], rfl⟩
    | cons m ms ih =>
      obtain ⟨o, hoo⟩ := ih
      obtain ⟨a, ha⟩ := hw none m.loose
      obtain ⟨b, hb⟩ := hw (some m.layers) m.templates
      simp only [Facts.build, Facts.moduleOf, ha, hb, hoo]
      exact ⟨_, rfl⟩
  have hmod : ∃ m ∈ f.found order, m.loose ≠ [] ∨ m.templates ≠ [] := by
    cases hs : search n with
    | some x =>
      have hx : x ∈ f.layered := mem_layered.2 ⟨n, hn, hi, hs⟩
      have hpre : x.1 ∈ f.prefixes := by
        unfold Facts.prefixes
        rw [List.mem_eraseDups]
        exact List.mem_map_of_mem hx
      have hne : f.templates x.1 ≠ [] := List.ne_nil_of_mem (mem_templates.2 ⟨x, hx, rfl, rfl⟩)
      unfold Facts.found
      split
      · rename_i p hp
        have hxp : x.1 = p := by rw [hp] at hpre; simpa using hpre
        exact ⟨_, List.mem_singleton.2 rfl, .inr (hxp ▸ hne)⟩
      · exact ⟨_, List.mem_map.2 ⟨x.1, (ho.2 x.1).2 (.inr hpre), rfl⟩, .inr hne⟩
    | none =>
      unfold Facts.found
      split
      · refine ⟨_, List.mem_singleton.2 rfl, .inl ?_⟩
        exact List.ne_nil_of_mem (mem_loose.2 ⟨n, hn, hs, by simp, rfl⟩)
      · have : (order.find? (fun q => q.isPrefixOf n)).isSome := by
          rw [List.find?_isSome]
          exact ⟨[], (ho.2 []).2 (.inl rfl), by simp⟩
        obtain ⟨p, hp⟩ := Option.isSome_iff_exists.1 this
        exact ⟨_, List.mem_map.2 ⟨p, List.mem_of_find?_eq_some hp, rfl⟩, .inl (List.ne_nil_of_mem (mem_loose.2 ⟨n, hn, hs, hp, rfl⟩))⟩
  unfold Facts.infer Facts.modules
  obtain ⟨m, hm, hne⟩ := hmod
  have hk : m ∈ (f.found order).filter (fun m => !(m.pfx.isEmpty && m.loose.isEmpty && m.templates.isEmpty)) := by
    rw [List.mem_filter]
    refine ⟨hm, ?_⟩
    rcases hne with h | h
    · simp [h]
    · simp [h]
  generalize hg : (f.found order).filter (fun m => !(m.pfx.isEmpty && m.loose.isEmpty && m.templates.isEmpty)) = l at hk ⊢
  cases l with
  | nil => simp at hk
  | cons a as => exact hb _

/-- A checkpoint with two stacks of layers. -/
def twoStacks : Facts :=
  { names := ["h.0.w".toList, "v.0.w".toList, "v.1.w".toList, "head".toList, "rope".toList], ignored := ["v.7.w".toList],
    tied := some (fun _ => false), embed := some (fun n => n == "head".toList),
    models := [fun n => n ∈ ["h.0.w".toList, "v.0.w".toList, "v.1.w".toList, "head".toList, "rope".toList],
               fun n => n ∈ ["h.0.w".toList, "v.0.w".toList, "v.1.w".toList, "head".toList]] }

/-- The names and optionality of the weights listed. -/
def listing (f : Facts) (order : List Str) : Option (List (Str × Bool)) :=
  match f.infer order with
  | .error _ => none
  | .ok out =>
    match allWeights (out.map (fun e => (e.2, 0))) with
    | .error _ => none
    | .ok ws => some (ws.map (fun w => (w.name, w.optional)))

/-- With several stacks of layers, what is listed depends on the order of a python set: a weight whose name begins with the name of a stack
may lose that beginning, and is then not among the tensors of the merged model. -/
theorem C89_loses_prefix : ∃ (f : Facts) (order order' : List Str), IsOrder f order ∧ IsOrder f order' ∧
    (∃ l, listing f order = some l ∧ "head".toList ∈ l.map Prod.fst) ∧
    ∃ l, listing f order' = some l ∧ "head".toList ∈ f.names ∧ "head".toList ∉ l.map Prod.fst := by
  refine ⟨twoStacks, [[], "h".toList, "v".toList], ["h".toList, "v".toList, []], ?_, ?_,
    ⟨[("head".toList, false), ("rope".toList, true), ("h.0.w".toList, false), ("v.0.w".toList, false), ("v.1.w".toList, false)],
      by decide +kernel, by decide +kernel⟩,
    ⟨[("ead".toList, true), ("h.0.w".toList, false), ("v.0.w".toList, false), ("v.1.w".toList, false), ("rope".toList, true)],
      by decide +kernel, by decide +kernel, by decide +kernel⟩⟩
  · have h : twoStacks.prefixes = ["h".toList, "v".toList] := by decide +kernel
    refine ⟨by decide +kernel, fun p => ?_⟩
    rw [h]; simp
  · have h : twoStacks.prefixes = ["h".toList, "v".toList] := by decide +kernel
    refine ⟨by decide +kernel, fun p => ?_⟩
    rw [h]; simp; tauto

-- the hypotheses of the theorems hold for it
example : (∀ n ∈ twoStacks.names, Plain n) ∧ ([[], "h".toList, "v".toList] : List Str).head? = some [] := by
  refine ⟨by unfold Plain; decide +kernel, rfl⟩

/-- A test for canonical numbers. -/
def canonicalTest (n : Str) : Bool :=
  (List.range n.length).all (fun i => (List.range n.length).all (fun j =>
    !(((n.drop i).head? == some '.') && ((n.drop (i + 1 + j)).head? == some '.') && ((n.drop (i + 1)).take j).all Char.isDigit && (j != 0)) ||
    (n.drop (i + 1)).take j == Nat.toDigits 10 (number ((n.drop (i + 1)).take j))))

theorem canonical_of (n : Str) (h : canonicalTest n = true) : Canonical n := by
  intro p d s hn hd hdig
  refine ⟨number d, ?_⟩
  have h1 : (n.drop (p.length + 1)).take d.length = d := by rw [hn]; simp [List.drop_append, List.take_append]
  have h2 : (n.drop p.length).head? = some '.' := by rw [hn]; simp
  have h3 : (n.drop (p.length + 1 + d.length)).head? = some '.' := by
    rw [hn]
    have : p.length + 1 + d.length = (p ++ '.' :: d).length := by simp; omega
    rw [this, List.drop_left]
    rfl
  have h4 : d.all Char.isDigit = true := by simpa using hdig
  have h5 : (d.length != 0) = true := by simpa using hd
  unfold canonicalTest at h
  have := List.all_eq_true.1 (List.all_eq_true.1 h p.length (by rw [hn]; simp)) d.length (by rw [hn]; simp; omega)
  rw [h1, h2, h3, h4, h5] at this
  simpa using this

example : (∀ n ∈ twoStacks.names, Canonical n) ∧ Canonical "model.layers.10.w.3.x".toList ∧ ¬ Canonical "h.01.w".toList := by
  refine ⟨?_, canonical_of _ (by decide +kernel), ?_⟩
  · intro n hn
    simp only [twoStacks, List.mem_cons, List.not_mem_nil, or_false] at hn
    rcases hn with rfl | rfl | rfl | rfl | rfl <;> exact canonical_of _ (by decide +kernel)
  · intro h
    obtain ⟨i, hi⟩ := h "h".toList "01".toList "w".toList rfl (by simp) (by decide)
    have h1 : number "01".toList = 1 := by decide +kernel
    have h2 : i = 1 := by
      rw [hi] at h1
      unfold number at h1
      rw [Nat.ofDigitChars_ten_toDigits] at h1
      exact h1
    subst h2
    revert hi
    decide +kernel

/-! ## Choice -/

theorem archsFor_ok {A : Type} {k : Known A} {ms : List ModelInfo} {as : List (Option A)} (h : archsFor k ms = .ok as) :
    List.Forall₂ (fun m a => archFor k m = .ok a) ms as := by
  induction ms generalizing as with
  | nil => simp only [archsFor, Except.ok.injEq] at h; subst h; exact .nil
  | cons m ms ih =>
    unfold archsFor at h
    cases ha : archFor k m with
    | error e => simp [ha] at h
    | ok a =>
      simp only [ha] at h
      cases hs : archsFor k ms with
      | error e => simp [hs] at h
      | ok as' =>
        simp only [hs, Except.ok.injEq] at h
        subst h
        exact .cons ha (ih hs)

theorem archsFor_total {A : Type} {k : Known A} {ms : List ModelInfo} (g : ModelInfo → Option A)
    (h : ∀ m ∈ ms, archFor k m = .ok (g m)) : archsFor k ms = .ok (ms.map g) := by
  induction ms with
  | nil => rfl
  | cons m ms ih =>
    unfold archsFor
    rw [h m (by simp)]
    simp only
    rw [ih (fun m hm => h m (by simp [hm]))]
    rfl

variable {A : Type} [DecidableEq A]

theorem choose_known (k : Known A) (crimes : Bool) (inferred : Except Err A) (m : ModelInfo) (ms : List ModelInfo) (g : ModelInfo → A)
    (h : ∀ x ∈ m :: ms, archFor k x = .ok (some (g x))) :
    choose k crimes inferred (m :: ms) = if !crimes && ms.any (fun x => g x != g m) then .error .mixed else .ok (g m) := by
  unfold choose
  simp only [archsFor_total (fun m => some (g m)) h]
  have hall : ((m :: ms).map (fun m => some (g m))).all Option.isSome = true := by simp
  rw [if_pos hall]
  simp only [List.map_cons, List.any_cons, bne_self_eq_false, Bool.false_or, List.any_map]
  have : ((fun x => x != some (g m)) ∘ fun m => some (g m)) = fun x => g x != g m := by
    funext x
    simp [bne]
  rw [this]

/-- If every model's architecture is known, and mixing them is not allowed, the merge goes ahead exactly if all are the same. -/
theorem C90_same (k : Known A) (inferred : Except Err A) (ms : List ModelInfo) (hne : ms ≠ []) (g : ModelInfo → A)
    (h : ∀ m ∈ ms, archFor k m = .ok (some (g m))) (a : A) :
    choose k false inferred ms = .ok a ↔ ∀ m ∈ ms, g m = a := by
  cases ms with
  | nil => exact absurd rfl hne
  | cons m ms =>
    rw [choose_known k false inferred m ms g h]
    split
    · rename_i hc
      simp only [Bool.not_false, Bool.true_and, List.any_eq_true, bne_iff_ne, ne_eq] at hc
      obtain ⟨m', hm', hx⟩ := hc
      constructor
      · intro hh; cases hh
      · intro hh
        exact absurd (by rw [hh m' (by simp [hm']), hh m (by simp)]) hx
    · rename_i hc
      simp only [Bool.not_false, Bool.true_and, List.any_eq_true, bne_iff_ne, ne_eq, not_exists, not_and, not_not] at hc
      constructor
      · intro hh m' hm'
        injection hh with hh
        rcases List.mem_cons.1 hm' with rfl | hm'
        · exact hh
        · rw [hc m' hm', hh]
      · intro hh
        rw [hh m (by simp)]

/-- Otherwise it is refused. -/
theorem C90_refused (k : Known A) (inferred : Except Err A) (ms : List ModelInfo) (g : ModelInfo → A)
    (h : ∀ m ∈ ms, archFor k m = .ok (some (g m))) (m m' : ModelInfo) (hm : m ∈ ms) (hm' : m' ∈ ms) (hd : g m ≠ g m') :
    choose k false inferred ms = .error .mixed := by
  have hne : ms ≠ [] := List.ne_nil_of_mem hm
  cases hc : choose k false inferred ms with
  | ok a =>
    have := (C90_same k inferred ms hne g h a).1 hc
    exact absurd (by rw [this m hm, this m' hm']) hd
  | error e =>
    cases ms with
    | nil => exact absurd rfl hne
    | cons m0 ms =>
      rw [choose_known k false inferred m0 ms g h] at hc
      split at hc
      · exact hc.symm
      · cases hc

/-- So the choice then does not depend on the order in which the models are gone through. -/
theorem C90_order (k : Known A) (inferred : Except Err A) (ms ms' : List ModelInfo) (hp : ms.Perm ms') (g : ModelInfo → A)
    (h : ∀ m ∈ ms, archFor k m = .ok (some (g m))) : choose k false inferred ms = choose k false inferred ms' := by
  have h' : ∀ m ∈ ms', archFor k m = .ok (some (g m)) := fun m hm => h m (hp.mem_iff.2 hm)
  by_cases hne : ms = []
  · subst hne
    rw [List.Perm.nil_eq hp]
  · have hne' : ms' ≠ [] := fun hc => hne (by subst hc; exact hp.eq_nil)
    by_cases hs : ∃ a, ∀ m ∈ ms, g m = a
    · obtain ⟨a, ha⟩ := hs
      rw [(C90_same k inferred ms hne g h a).2 ha, (C90_same k inferred ms' hne' g h' a).2 (fun m hm => ha m (hp.mem_iff.2 hm))]
    · have : ∃ m ∈ ms, ∃ m' ∈ ms, g m ≠ g m' := by
        obtain ⟨m0, hm0⟩ := List.exists_mem_of_ne_nil ms hne
        by_contra hcon
        push Not at hcon
        exact hs ⟨g m0, fun m hm => hcon m hm m0 hm0⟩
      obtain ⟨m, hm, m', hm', hd⟩ := this
      rw [C90_refused k inferred ms g h m m' hm hm' hd,
        C90_refused k inferred ms' g h' m m' (hp.mem_iff.1 hm) (hp.mem_iff.1 hm') hd]

/-- When mixing is allowed, the architecture is that of whichever model comes first. -/
theorem C90_crimes (k : Known A) (inferred : Except Err A) (m : ModelInfo) (ms : List ModelInfo) (g : ModelInfo → A)
    (h : ∀ x ∈ m :: ms, archFor k x = .ok (some (g x))) : choose k true inferred (m :: ms) = .ok (g m) := by
  rw [choose_known k true inferred m ms g h]
  simp

/-- As soon as one model's architecture is not known, nothing is refused: the architecture is inferred, even from models whose known
architectures differ, and without the option that allows it. -/
theorem C90_unknown (k : Known A) (crimes : Bool) (inferred : Except Err A) (ms : List ModelInfo) (g : ModelInfo → Option A)
    (h : ∀ m ∈ ms, archFor k m = .ok (g m)) (m : ModelInfo) (hm : m ∈ ms) (hu : g m = none) :
    choose k crimes inferred ms = inferred := by
  cases ms with
  | nil => simp at hm
  | cons m0 ms =>
    unfold choose
    simp only [archsFor_total g h]
    have : ((m0 :: ms).map g).all Option.isSome = false := by
      rw [← Bool.not_eq_true, List.all_eq_true]
      intro hc
      have := hc (g m) (List.mem_map_of_mem hm)
      simp [hu] at this
    simp only [this]
    simp

/-- A definition from the data files is used only for the names it lists; and if there are several for a name, only for its own model type. -/
theorem C90_listed (k : Known A) (m : ModelInfo) (name : Str) (hn : m.architectures = [name]) (hpy : k.python name = none) (a : A)
    (h : archFor k m = .ok (some a)) :
    ∃ d ∈ k.json, name ∈ d.1 ∧ d.2.2 = a ∧ (d.2.1 = m.modelType ∨ ∀ d' ∈ k.json, name ∈ d'.1 → d'.2 = d.2) := by
  unfold archFor at h
  simp only [hn, hpy] at h
  have hc : ∀ c ∈ k.candidates name, ∃ d ∈ k.json, name ∈ d.1 ∧ d.2 = c := by
    intro c hc
    unfold Known.candidates at hc
    simp only [List.mem_map, List.mem_filter, decide_eq_true_eq] at hc
    obtain ⟨d, ⟨h1, h2⟩, h3⟩ := hc
    exact ⟨d, h1, h2, h3⟩
  split at h
  · rename_i c hcs
    simp only [Except.ok.injEq, Option.some.injEq] at h
    obtain ⟨d, h1, h2, h3⟩ := hc c (by simp [hcs])
    refine ⟨d, h1, h2, by rw [h3]; exact h, .inr ?_⟩
    intro d' hd' hn'
    have : d'.2 ∈ k.candidates name := by
      unfold Known.candidates
      simp only [List.mem_map, List.mem_filter, decide_eq_true_eq]
      exact ⟨d', ⟨hd', hn'⟩, rfl⟩
    rw [hcs] at this
    rw [h3]
    simpa using this
  · simp only [Except.ok.injEq, Option.map_eq_some_iff] at h
    obtain ⟨c, hf, rfl⟩ := h
    obtain ⟨d, h1, h2, h3⟩ := hc c (List.mem_of_find?_eq_some hf)
    refine ⟨d, h1, h2, by rw [h3], .inl ?_⟩
    have := List.find?_some hf
    rw [h3]
    simpa using this

/-- And a model is recognised whenever a definition lists its only architecture for its model type. -/
theorem C90_recognised (k : Known A) (m : ModelInfo) (name : Str) (hn : m.architectures = [name])
    (d : List Str × Str × A) (hd : d ∈ k.json) (hl : name ∈ d.1) (ht : d.2.1 = m.modelType) :
    ∃ a, archFor k m = .ok (some a) := by
  unfold archFor
  simp only [hn]
  have : d.2 ∈ k.candidates name := by
    unfold Known.candidates
    simp only [List.mem_map, List.mem_filter, decide_eq_true_eq]
    exact ⟨d, ⟨hd, hl⟩, rfl⟩
  split
  · exact ⟨_, rfl⟩
  · split
    · exact ⟨_, rfl⟩
    · have hf : ((k.candidates name).find? (fun c => c.1 == m.modelType)).isSome := by
        rw [List.find?_isSome]
        exact ⟨d.2, this, by simpa using ht⟩
      obtain ⟨c, hc⟩ := Option.isSome_iff_exists.1 hf
      exact ⟨c.2, by rw [hc]; rfl⟩

-- two llama models and a mixtral model
section Example

def someKnown : Known Nat :=
  { python := fun _ => none,
    json := [(["Llama".toList], "llama".toList, 1), (["Mixtral".toList, "Moe".toList], "mixtral".toList, 2), (["Moe".toList], "moe".toList, 3)] }

example : (archFor someKnown ⟨["Llama".toList], "llama".toList⟩ = .ok (some 1)) ∧
    (archFor someKnown ⟨["Moe".toList], "moe".toList⟩ = .ok (some 3)) ∧
    (archFor someKnown ⟨["Moe".toList], "other".toList⟩ = .ok none) ∧
    (archFor someKnown ⟨["Mixtral".toList], "other".toList⟩ = .ok (some 2)) := by decide +kernel

example : choose someKnown false (.ok 9) [⟨["Llama".toList], "llama".toList⟩, ⟨["Moe".toList], "moe".toList⟩] = .error .mixed ∧
    choose someKnown true (.ok 9) [⟨["Llama".toList], "llama".toList⟩, ⟨["Moe".toList], "moe".toList⟩] = .ok 1 ∧
    choose someKnown true (.ok 9) [⟨["Moe".toList], "moe".toList⟩, ⟨["Llama".toList], "llama".toList⟩] = .ok 3 ∧
    choose someKnown false (.ok 9) [⟨["Llama".toList], "llama".toList⟩, ⟨["Mixtral".toList], "x".toList⟩, ⟨["New".toList], "x".toList⟩] = .ok 9 := by
  decide +kernel

end Example

end Verif.Infer
