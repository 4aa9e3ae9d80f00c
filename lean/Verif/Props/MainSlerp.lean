import Verif.Props.MainStack
import Verif.Props.ShippedSlices
import Verif.Props.WholeSlerp

/-! # C135: spherical interpolation with `mergekit-yaml`, from the command line to the files -/

namespace Verif.Shipped

open Verif.ModelRef (Str Ref)
open Verif.LoadTask (WeightInfo typeNames wanted)
open Verif.Plan
open Verif.Config
open Verif.Tensor (Tensor)
open Verif.WholeMerge

/-- Every part is of two models, one of them the base model. -/
def Pairs (b : Ref) (ps : List Part) : Prop := ∀ p ∈ ps, ∃ o i j, o ≠ b ∧ (p.sources = [(b, i), (o, j)] ∨ p.sources = [(o, j), (b, i)])

theorem merged_models {K : Type} [Field K] {m : Arch.Module} {total : Nat} {layers : Ref → Nat} {ps : List Part} {v : Arch.WeightInfo} {p : Part} {t : K} {ins : List (Ref × Arch.WeightInfo)}
    (h : MergedFrom m total layers ps v p t ins) : p ∈ ps ∧ ins.map Prod.fst = p.sources.map Prod.fst := by
  cases h with
  | first hp _ _ => exact ⟨List.mem_of_mem_head? (Option.mem_def.2 hp), by simp [Function.comp_def]⟩
  | layer hj _ _ hins =>
    refine ⟨(mem_places (List.mem_of_getElem? hj)).1, ?_⟩
    clear hj
    generalize p.sources = l at hins
    induction hins with
    | nil => rfl
    | cons h _ ih => rw [List.map_cons, List.map_cons, ih, h.1]
  | last hp _ _ => exact ⟨List.mem_of_getLast? hp, by simp [Function.comp_def]⟩

/-- **C119** Spherical interpolation between models of an architecture shipped (of a single module), from the configuration to the files, for slices of the base model and another one each. -/
theorem C119_slerp (f : Family ℝ) (hs : IsShipped f) {n : String} {m : Arch.Module} (hm : f.modules = [(n, m)]) (hparams : f.params = [⟨"t".toList, true, none⟩])
    (htparams : f.tensorParams = []) (c : MergeConfig ℝ) (ps : List Part) (hc : PartConf c ps) (b : Ref) (hb : c.baseModel = some b) (hpairs : Pairs b ps)
    (st : Setting ℝ) (hst : c.parameters.get "t".toList = some st) (hdepth : (ps.map Part.len).sum ≤ m.numLayers (f.outLayers n))
    (s : Setup ℝ (Tensor ℝ) MethodErr) (hmeth : s.method = slerpMethod) (own : Ref → Str → Tensor ℝ)
    (hown : ∀ v p t ins, MergedFrom m (m.numLayers (f.outLayers n)) (fun r => m.numLayers (f.layers r n)) ps v p t ins → Stored' f v ins →
      (∀ i ∈ ins, (wanted s.dtype (listed i.2)).execute s.casts (s.loaders i.1) = .ok (some (own i.1 i.2.name))) ∧
      (∀ i ∈ ins, ∀ j ∈ ins, (own i.1 i.2.name).shape = (own j.1 j.2.name).shape) ∧
      (storedType s.outDtype (listed v) = none ∨ ∃ x d, storedType s.outDtype (listed v) = some x ∧ (x, d) ∈ typeNames) ∧
      ∃ x, Means v.name t st (some (.num x))) :
    Assembles f c (MergedFrom m (m.numLayers (f.outLayers n)) (fun r => m.numLayers (f.layers r n)) ps) s (fun v _ t ins z => ∃ y, Stored s (listed v) y z ∧
      ∃ o vb vo, o ≠ b ∧ (ins = [(b, vb), (o, vo)] ∨ ins = [(o, vo), (b, vb)]) ∧ y.shape = (own b vb.name).shape ∧
        ∀ x, Means v.name t st (some (.num x)) → OnArc (own b vb.name).shape.prod x (own b vb.name).get (own o vo.name).get y.get) := by
  have h1 := one_module hs hm
  have hfr : ∀ (p : Part) (name : Str) (t x : ℝ), FractionIs c ⟨some (ps.map (Part.slice ℝ)), none, []⟩ (p.slice ℝ) name t x ↔ Means name t st (some (.num x)) := by
    intro p name t x
    unfold FractionIs
    simp only [Part.slice, hst]
    constructor
    · intro h
      have h := reads_cons_none (reads_cons_none h)
      cases h with
      | unmatched _ h => cases h
      | found h => exact h
    · intro h
      exact .unset (.unset (.found h))
  refine C119_slices f hs hm hc s _ (delivers_mono (C109_slerp f.env ⟨hparams, htparams⟩ c _ (parts_sections hm hc) (C119_slices_usable f hs hm hc hdepth) ?_ s hmeth
    (fun r wi => own r wi.name) ?_) ?_)
  · simp only [partSections, List.mem_singleton, forall_eq, Option.getD_some]
    intro sl hsl
    obtain ⟨p, hp, rfl⟩ := List.mem_map.1 hsl
    refine ⟨b, Or.inr ⟨rfl, hb⟩, Or.inr ?_⟩
    obtain ⟨o, i, j, -, h | h⟩ := hpairs p hp
    · simp only [Part.slice, h]
      exact ⟨_, _, rfl, Or.inl rfl⟩
    · simp only [Part.slice, h]
      exact ⟨_, _, rfl, Or.inr rfl⟩
  · simp only [partSections, List.mem_singleton, forall_eq, Option.getD_some]
    intro w sl t ins hpl hno
    obtain ⟨v, p, ins', hmf, rfl, rfl, rfl⟩ := place_merged h1 hc.some_source hpl
    obtain ⟨g1, g2, g3, x, g4⟩ := hown v p t ins' hmf (leftOut_stored.1 hno)
    refine ⟨?_, ?_, g3, x, (hfr p _ t x).2 g4⟩
    · intro i hi
      obtain ⟨i', hi', rfl⟩ := List.mem_map.1 hi
      exact g1 i' hi'
    · intro i hi j hj
      obtain ⟨i', hi', rfl⟩ := List.mem_map.1 hi
      obtain ⟨j', hj', rfl⟩ := List.mem_map.1 hj
      exact g2 i' hi' j' hj'
  · rintro e he w sl t ins z hpl hno ⟨y, y1, y2⟩ v p ins' rfl rfl rfl hmf
    simp only [partSections, List.mem_singleton] at he
    subst he
    refine ⟨y, y1, ?_⟩
    obtain ⟨hp, hmod⟩ := merged_models hmf
    obtain ⟨o, i, j, hob, hsrc⟩ := hpairs p hp
    obtain ⟨vb, vo, hins⟩ : ∃ vb vo, ins' = [(b, vb), (o, vo)] ∨ ins' = [(o, vo), (b, vb)] := by
      have htwo : ∀ (x y : Ref), ins'.map Prod.fst = [x, y] → ∃ u w, ins' = [(x, u), (y, w)] := by
        intro x y h
        match ins', h with
        | [(a, u), (a', w)], h =>
          simp only [List.map_cons, List.map_nil, List.cons.injEq, and_true] at h
          obtain ⟨rfl, rfl⟩ := h
          exact ⟨u, w, rfl⟩
      rcases hsrc with h | h
      · rw [h] at hmod
        obtain ⟨u, w, h⟩ := htwo _ _ hmod
        exact ⟨u, w, Or.inl h⟩
      · rw [h] at hmod
        obtain ⟨u, w, h⟩ := htwo _ _ hmod
        exact ⟨w, u, Or.inr h⟩
    refine ⟨o, vb, vo, hob, hins, ?_⟩
    rcases y2 with ⟨r, wi, hr, -⟩ | ⟨b', o', wb, wo, hne, hb', hins', hsh, harc⟩
    · rcases hins with h | h <;> rw [h] at hr <;> simp at hr
    · have hbb : b' = b := by
        rcases hb' with h | ⟨_, h⟩
        · cases h
        · rw [hb] at h; exact (Option.some.inj h).symm
      subst hbb
      obtain ⟨rfl, rfl, rfl⟩ : o' = o ∧ wb = listed vb ∧ wo = listed vo := by
        rcases hins with h | h <;> rcases hins' with h' | h' <;> rw [h] at h' <;>
          simp only [List.map_cons, List.map_nil, List.cons.injEq, Prod.mk.injEq, and_true] at h'
        · exact ⟨h'.2.1.symm, h'.1.2.symm, h'.2.2.symm⟩
        · exact absurd h'.2.1 hob
        · exact absurd h'.1.1 hob
        · exact ⟨h'.1.1.symm, h'.2.2.symm, h'.1.2.symm⟩
      refine ⟨hsh, ?_⟩
      intro x hx
      exact harc x ((hfr p _ t x).2 hx)

end Verif.Shipped

namespace Verif.Main

open Verif.ModelRef (Str Ref)
open Verif.Document
open Verif.WholeMerge (getMethod MethodErr slerpMethod OnArc Along)
open Verif.CommandLine (Line Enough Called)
open Verif.Shipped (Family IsShipped Part Pairs MergedFrom Stored' Assembles places)

/-! ## What is claimed -/

/-- A conditional value is for a tensor: it has no filter, or "*", or one that is part of the name. -/
def Fits (name : Str) (c : Cond ℝ) : Prop := c.filter = none ∨ c.filter = some ['*'] ∨ ∃ f a b, c.filter = some f ∧ name ≠ [] ∧ name = a ++ f ++ b

/-- The value of a setting for a tensor at a depth: the number; where the line through the numbers is at that depth; or the first of the conditional values that is for
the tensor, which is one of the two. -/
inductive Valued (name : Str) (t : ℝ) : Setting ℝ → ℝ → Prop
  | number (x) : Valued name t (.num (.one x)) x
  | gradient {l x} : Along t l x → Valued name t (.num (.many l)) x
  | condition {pre post f x} : (∀ c ∈ pre, ¬ Fits name c) → Fits name ⟨.one x, f⟩ → Valued name t (.conds (pre ++ ⟨.one x, f⟩ :: post)) x
  | conditionGradient {pre post f l x} : (∀ c ∈ pre, ¬ Fits name c) → Fits name ⟨.many l, f⟩ → Along t l x → Valued name t (.conds (pre ++ ⟨.many l, f⟩ :: post)) x

/-- A document for spherical interpolation: a base model, slices that are ranges of layers of models, each range as long as the others of its slice, and a setting `t` for all. -/
structure SlerpDoc (L : Lib ℝ) (d : List (Str × Doc ℝ)) (b : Ref) (ps : List Part) (st : Setting ℝ) (dtype outDtype : Option Str) : Prop where
  method : Has Text d cs!"merge_method" cs!"slerp"
  base : Has RefSays d cs!"base_model" b
  slices : ∃ l, d.lookup cs!"slices" = some (.list l) ∧ List.Forall₂ (fun s p => ∃ xs, s = .dict [(cs!"sources", .list xs)] ∧ List.Forall₂ (fun x y => ∃ q lo hi, x = .dict q ∧
    Has RefSays q cs!"model" y.1 ∧ q.lookup cs!"layer_range" = some (.list [lo, hi]) ∧ Integer L lo (y.2 : Nat) ∧ Integer L hi (y.2 + p.len : Nat) ∧
    q.lookup cs!"parameters" = none) xs p.sources) l ps
  parameters : ∃ x, d.lookup cs!"parameters" = some (.dict [(cs!"t", x)]) ∧ Says L x st
  dtype : Maybe Text (d.lookup cs!"dtype") dtype
  outDtype : Maybe Text (d.lookup cs!"out_dtype") outDtype
  template : ∃ t, Maybe Text (d.lookup cs!"chat_template") t
  others : ∀ k ∈ [cs!"models", cs!"modules", cs!"tokenizer_source", cs!"tokenizer"], d.lookup k = none

/-! ## The configuration -/

theorem fits_applies {name : Str} {c : Cond ℝ} : Config.Applies (some name) c.toConfig ↔ Fits name c := by
  unfold Config.Applies Fits
  simp only [Cond.toConfig, Option.some.injEq]
  constructor
  · rintro (h | h | ⟨f, n, h1, rfl, h2, a, b, h3⟩)
    · exact Or.inl h
    · exact Or.inr (Or.inl h)
    · exact Or.inr (Or.inr ⟨f, a, b, h1, h2, h3⟩)
  · rintro (h | h | ⟨f, a, b, h1, h2, h3⟩)
    · exact Or.inl h
    · exact Or.inr (Or.inl h)
    · exact Or.inr (Or.inr ⟨f, name, h1, rfl, h2, a, b, h3⟩)

theorem valued_means {name : Str} {t : ℝ} {st : Setting ℝ} {x : ℝ} (h : Valued name t st x) : WholeMerge.Means name t st.toConfig (some (.num x)) := by
  have hno : ∀ {pre : List (Cond ℝ)}, (∀ c ∈ pre, ¬ Fits name c) → ∀ c ∈ pre.map Cond.toConfig, ¬ Config.Applies (some name) c := by
    intro pre h c hc
    obtain ⟨c', hc', rfl⟩ := List.mem_map.1 hc
    rw [fits_applies]
    exact h c' hc'
  cases h with
  | number x => exact .scalar _
  | gradient h => exact .gradient _ _ h
  | @condition pre post f x h1 h2 =>
    have := WholeMerge.Means.filter (t := t) (pre.map Cond.toConfig) (post.map Cond.toConfig) (.num x) f (hno h1) (fits_applies.2 h2)
    simpa [Setting.toConfig, Cond.toConfig, Num.elems, Function.comp_def] using this
  | @conditionGradient pre post f l x h1 h2 h3 =>
    have := WholeMerge.Means.filterGradient (t := t) (pre.map Cond.toConfig) (post.map Cond.toConfig) l x f (hno h1) (fits_applies.2 h2) h3
    simpa [Setting.toConfig, Cond.toConfig, Num.elems, Function.comp_def] using this

theorem says_sources {L : Lib ℝ} {len : Nat} : ∀ {xs : List (Doc ℝ)} {ys : List (Ref × Nat)}, List.Forall₂ (fun x y => ∃ q lo hi, x = .dict q ∧
      Has RefSays q cs!"model" y.1 ∧ q.lookup cs!"layer_range" = some (.list [lo, hi]) ∧ Integer L lo (y.2 : Nat) ∧ Integer L hi (y.2 + len : Nat) ∧
      q.lookup cs!"parameters" = none) xs ys →
    ∃ ss, List.Forall₂ (SourceSays L) xs ss ∧ ss.map InSlice.toConfig = ys.map (fun x => ⟨x.1, x.2, x.2 + len, []⟩)
  | _, _, .nil => ⟨[], .nil, rfl⟩
  | _, _, .cons ⟨q, lo, hi, h1, h2, h3, h4, h5, h6⟩ hl => by
    obtain ⟨ss, hs, he⟩ := says_sources hl
    subst h1
    refine ⟨⟨_, _, _, none⟩ :: ss, .cons (.mk h2 h3 h4 h5 (by rw [h6]; exact .missing)) hs, ?_⟩
    rw [List.map_cons, List.map_cons, he]
    simp [InSlice.toConfig, paramsToConfig]

theorem says_parts {L : Lib ℝ} : ∀ {l : List (Doc ℝ)} {ps : List Part}, List.Forall₂ (fun s p => ∃ xs, s = .dict [(cs!"sources", .list xs)] ∧
      List.Forall₂ (fun x y => ∃ q lo hi, x = .dict q ∧ Has RefSays q cs!"model" y.1 ∧ q.lookup cs!"layer_range" = some (.list [lo, hi]) ∧ Integer L lo (y.2 : Nat) ∧
      Integer L hi (y.2 + p.len : Nat) ∧ q.lookup cs!"parameters" = none) xs p.sources) l ps →
    ∃ ss, List.Forall₂ (SliceSays L) l ss ∧ ss.map OutSlice.toConfig = ps.map (fun p => ⟨p.sources.map (fun x => ⟨x.1, x.2, x.2 + p.len, []⟩), none, []⟩)
  | _, _, .nil => ⟨[], .nil, rfl⟩
  | _, _, .cons ⟨xs, h1, h2⟩ hl => by
    obtain ⟨ss, hs, he⟩ := says_parts hl
    obtain ⟨zs, hz, hze⟩ := says_sources h2
    subst h1
    refine ⟨⟨zs, none, none, none⟩ :: ss, .cons (.mk ⟨_, rfl, .mk hz⟩ .missing .missing .missing) hs, ?_⟩
    rw [List.map_cons, List.map_cons, he, ← hze]
    rfl

/-- The configuration of such a document. -/
theorem slerp_says {L : Lib ℝ} {d : List (Str × Doc ℝ)} {b : Ref} {ps : List Part} {st : Setting ℝ} {dtype outDtype : Option Str} (h : SlerpDoc L d b ps st dtype outDtype)
    (hne : ps ≠ []) : ∃ c, ConfSays L d c ∧ c.mergeMethod = cs!"slerp" ∧ c.dtype = dtype ∧ c.outDtype = outDtype ∧
      c.toConfig.slices = some (ps.map (fun p => ⟨p.sources.map (fun x => ⟨x.1, x.2, x.2 + p.len, []⟩), none, []⟩)) ∧ c.toConfig.models = none ∧ c.toConfig.baseModel = some b ∧
      c.toConfig.parameters.get "t".toList = some st.toConfig ∧ c.tokenizer = none ∧ c.tokenizerSource = none := by
  obtain ⟨l, hl, hml⟩ := h.slices
  obtain ⟨t, ht⟩ := h.template
  obtain ⟨x, hx, hst⟩ := h.parameters
  obtain ⟨bd, hbd, hb⟩ := h.base
  have ho := h.others
  simp only [List.forall_mem_cons] at ho
  obtain ⟨ho1, ho2, ho3, ho4, -⟩ := ho
  obtain ⟨ss, hss, hsc⟩ := says_parts hml
  have hfill : Filled (some ss) := by
    cases ss with
    | nil => exact absurd (List.map_eq_nil_iff.1 hsc.symm) hne
    | cons e es => exact ⟨_, _, rfl⟩
  have hbn : bd ≠ .null := by rintro rfl; cases hb
  refine ⟨{ slices := some ss, mergeMethod := cs!"slerp", baseModel := some b, dtype, chatTemplate := t, outDtype, parameters := some [(cs!"t", st)] },
    ⟨by rw [ho2]; exact .missing, by rw [hl]; exact .given (by simp) (.mk hss), by rw [ho1]; exact .missing, h.method, by rw [hbd]; exact .given hbn hb, h.dtype, by rw [ho3]; exact .missing,
      by rw [ho4]; exact .missing, ht, h.outDtype, by rw [hx]; exact .given (by simp) (.mk (.cons ⟨rfl, hst⟩ .nil)),
      Or.inr (Or.inl ⟨(by rintro ⟨_, _, h⟩; cases h), hfill, (by rintro ⟨_, _, h⟩; cases h)⟩), Or.inl rfl⟩,
    rfl, rfl, rfl, congrArg some hsc, rfl, rfl, rfl, rfl, rfl⟩

/-- **C135** Spherical interpolation with `mergekit-yaml`, from the command line to the files.  The command line is right; the file it names is YAML for the method "slerp" that names a base model
and lists slices, each equally long ranges of layers of the base model and another one, and gives a `t`: a number, numbers along the layers, or either by parts of the
tensors' names; the models are of one shipped architecture (of a single module), the output's configuration has as many layers as the slices together; every weight
kept is there in both models, in one shape, and has a `t`; the data types exist.  Then the command starts a merge into the directory named, which succeeds and leaves exactly
the weights of the architecture with that many layers, each the point at fraction `t` of the arc from the base model's tensor to the other's. -/
theorem C135_slerp (W : World) {line : List Str} (l : Line CommandLine.yaml.opts line) {k : CommandLine.Call} (hk : Enough CommandLine.yaml l.events l.args)
    (hk' : Called CommandLine.yaml l.events l.args k) {F O text : Str} (hargs : l.args = [F, O]) {d : List (Str × Doc ℝ)} (hfile : W.file F = some text)
    (hyaml : W.yaml text = some (.dict d)) {b : Ref} {ps : List Part} {st : Setting ℝ} {dtype outDtype : Option Str} (hd : SlerpDoc W.lib d b ps st dtype outDtype)
    (hne : ps ≠ []) (hpairs : Pairs b ps) (hplain : ∀ p ∈ ps, ∀ x ∈ p.sources, x.1.Plain)
    {f : Family ℝ} (hf : ∀ c, ConfSays W.lib d c → W.family c = some f) (hs : IsShipped f) {n : String} {m : Arch.Module} (hm : f.modules = [(n, m)])
    (hdepth : (ps.map Part.len).sum = m.numLayers (f.outLayers n)) (own : Ref → Str → Tensor.Tensor ℝ)
    (hown : ∀ v p t ins, MergedFrom m (ps.map Part.len).sum (fun r => m.numLayers (f.layers r n)) ps v p t ins → Stored' f v ins →
      (∀ i ∈ ins, (LoadTask.wanted (dtype.map String.ofList) (Shipped.listed i.2)).execute W.casts (W.loaders i.1) = .ok (some (own i.1 i.2.name))) ∧
      (∀ i ∈ ins, ∀ j ∈ ins, (own i.1 i.2.name).shape = (own j.1 j.2.name).shape) ∧
      (WholeMerge.storedType (outDtype.map String.ofList) (Shipped.listed v) = none ∨
        ∃ x t, WholeMerge.storedType (outDtype.map String.ofList) (Shipped.listed v) = some x ∧ (x, t) ∈ LoadTask.typeNames) ∧
      ∃ x, Valued v.name t st x) :
    ∃ p, yamlMain W line = .ok p ∧ p.out = O ∧ p.text = text ∧ p.options = k.merge ∧ W.family p.conf = some f ∧
      Assembles (p.family f) p.conf.toConfig (MergedFrom m (ps.map Part.len).sum (fun r => m.numLayers (f.layers r n)) ps) (p.setup W)
        (fun v _ t ins z => ∃ y, WholeMerge.Stored (p.setup W) (Shipped.listed v) y z ∧
          ∃ o vb vo, o ≠ b ∧ (ins = [(b, vb), (o, vo)] ∨ ins = [(o, vo), (b, vb)]) ∧ y.shape = (own b vb.name).shape ∧
            ∀ x, Valued v.name t st x → OnArc (own b vb.name).shape.prod x (own b vb.name).get (own o vo.name).get y.get) := by
  obtain ⟨c, hc, hmm, hdt, hot, hsl, hmo, hbm, hpar, htk, hts⟩ := slerp_says hd hne
  have hread : read W.lib (.dict d) = .ok c := C130_accepts (.none (hd.others _ (by simp))) hc
  have hget : getMethod W.chance c.mergeMethod = some ⟨"slerp".toList, [⟨"t".toList, true, none⟩], [], slerpMethod⟩ := by
    rw [hmm]
    exact WholeMerge.getMethod_mem W.chance ⟨"slerp".toList, _, _, _⟩ (WholeMerge.mem_static _ _ (by simp [WholeMerge.staticMethods]))
  have hmain := (C131_main W l ⟨k.merge, O, text, c, _⟩).2 ⟨F, k, _, hk, hk', hargs, rfl, hfile, hyaml, hread, hget⟩
  refine ⟨_, hmain, rfl, rfl, rfl, hf c hc, ?_⟩
  rw [hdepth] at hown ⊢
  have htwo : ∀ p ∈ ps, p.sources.length = 2 ∧ (p.sources.map Prod.fst).Nodup := by
    intro p hp
    obtain ⟨o, i, j, hob, h | h⟩ := hpairs p hp
    · rw [h]; simp [Ne.symm hob]
    · rw [h]; simp [hob]
  have hconf : Shipped.PartConf c.toConfig ps := by
    refine ⟨hsl, hmo, hne, ?_, fun p hp => (htwo p hp).2, hplain, ?_⟩
    · intro p hp h
      have := (htwo p hp).1
      rw [h] at this
      cases this
    · intro p q hp hq
      rw [(htwo p (List.mem_of_mem_head? (Option.mem_def.2 hp))).1, (htwo q (List.mem_of_getLast? hq)).1]
  have key := Shipped.C119_slerp (Prepared.family ⟨k.merge, O, text, c, ⟨"slerp".toList, [⟨"t".toList, true, none⟩], [], slerpMethod⟩⟩ f)
    ⟨hs.definition, hs.not_bert, hs.names⟩ hm rfl rfl c.toConfig ps hconf b hbm hpairs st.toConfig hpar (le_of_eq hdepth)
    (Prepared.setup ⟨k.merge, O, text, c, ⟨"slerp".toList, [⟨"t".toList, true, none⟩], [], slerpMethod⟩⟩ W) rfl own
    (by
      intro v p t ins hmf hst
      obtain ⟨g1, g2, g3, x, g4⟩ := hown v p t ins hmf hst
      rw [← hdt] at g1
      rw [← hot] at g3
      exact ⟨g1, g2, g3, x, valued_means g4⟩)
  intro group prio pop conf size hstd
  obtain ⟨mods, h1, trace, h2, fs, h3, h4, idx, h5, h6, h7⟩ := key group prio pop conf size hstd
  refine ⟨mods, h1, trace, h2, fs, h3, h4, idx, h5, h6, ?_⟩
  intro v p t ins hmf hst
  obtain ⟨z, ⟨y, y1, o, vb, vo, y2, y3, y4, y5⟩, h8⟩ := h7 v p t ins hmf hst
  exact ⟨z, ⟨y, y1, o, vb, vo, y2, y3, y4, fun x hx => y5 x (valued_means hx)⟩, h8⟩

/-! ## In names, for Llama -/

/-- What the weights of slices of Llama models are merged from, by their names. -/
inductive LlamaMerged (ps : List Part) : Arch.WeightInfo → Part → ℝ → List (Ref × Arch.WeightInfo) → Prop
  | embed {p} : ps.head? = some p → LlamaMerged ps { name := cs!"model.embed_tokens.weight", isEmbed := true } p 0
      (p.sources.map (fun x => (x.1, { name := cs!"model.embed_tokens.weight", isEmbed := true })))
  | layer {j o : Nat} {p s} : (places ps)[j]? = some (p, o) → s ∈ inLayer →
      LlamaMerged ps (layerWeight j s) p (if p.len ≤ 1 then 1 else (o : ℝ) / ((p.len : ℝ) - 1)) (p.sources.map (fun x => (x.1, layerWeight (x.2 + o) s)))
  | norm {p} : ps.getLast? = some p → LlamaMerged ps { name := cs!"model.norm.weight" } p 0 (p.sources.map (fun x => (x.1, { name := cs!"model.norm.weight" })))
  | head {p} : ps.getLast? = some p → LlamaMerged ps { name := cs!"lm_head.weight", isEmbed := true, optional := true, tiedNames := some [cs!"model.embed_tokens.weight"] } p 0
      (p.sources.map (fun x => (x.1, { name := cs!"lm_head.weight", isEmbed := true, optional := true, tiedNames := some [cs!"model.embed_tokens.weight"] })))

/-- **C135** For Llama the claim of `C135_slerp` in names: `model.layers.<j>.<s>` is merged from `model.layers.<i>.<s>` of the models of the slice it falls in, `i` being each
model's first layer there plus the number of the layer in the slice; the depth goes from 0 to 1 along the slice.  The embeddings are merged with the first slice,
`model.norm.weight` and `lm_head.weight` (if it is stored in one of the models) with the last, all at depth 0. -/
theorem C135_llama (ps : List Part) (total : Nat) (layers : Ref → Nat) (v : Arch.WeightInfo) (p : Part) (t : ℝ) (ins : List (Ref × Arch.WeightInfo)) :
    MergedFrom llamaModule total layers ps v p t ins ↔ LlamaMerged ps v p t ins := by
  have hpre : llamaModule.pre = [{ name := cs!"model.embed_tokens.weight", isEmbed := true }] := by decide +kernel
  have hpost : llamaModule.post = [{ name := cs!"model.norm.weight" }, { name := cs!"lm_head.weight", isEmbed := true, optional := true, tiedNames := some [cs!"model.embed_tokens.weight"] }] := by decide +kernel
  constructor
  · intro h
    cases h with
    | first hb ht hv =>
      obtain rfl := (llama_outside (Or.inl ht)).1 hv
      rw [hpre, List.mem_singleton] at ht
      subst ht
      exact .embed hb
    | @layer j o _ _ _ _ hj ht hv hv' =>
      rw [llama_layers] at ht
      obtain ⟨s, hs, rfl⟩ := List.mem_map.1 ht
      obtain rfl := (llama_stands _ _ hs _).1 hv
      have : ins = p.sources.map (fun x => (x.1, layerWeight (x.2 + o) s)) := by
        clear hj
        generalize p.sources = l at hv'
        induction hv' with
        | nil => rfl
        | cons h _ ih =>
          rw [List.map_cons, ← ih]
          exact congrArg (· :: _) (Prod.ext h.1 ((llama_stands _ _ hs _).1 h.2))
      subst this
      exact .layer hj hs
    | last hb ht hv =>
      obtain rfl := (llama_outside (Or.inr ht)).1 hv
      rw [hpost] at ht
      simp only [List.mem_cons, List.not_mem_nil, or_false] at ht
      rcases ht with rfl | rfl
      · exact .norm hb
      · exact .head hb
  · intro h
    cases h with
    | embed hb => exact .first hb (by rw [hpre]; simp) ((llama_outside (Or.inl (by rw [hpre]; simp))).2 rfl)
    | layer hj hs =>
      refine .layer hj (by rw [llama_layers]; exact List.mem_map.2 ⟨_, hs, rfl⟩) ((llama_stands _ _ hs _).2 rfl) ?_
      rw [List.forall₂_map_right_iff, List.forall₂_same]
      exact fun x _ => ⟨rfl, (llama_stands _ _ hs _).2 rfl⟩
    | norm hb => exact .last hb (by rw [hpost]; simp) ((llama_outside (Or.inr (by rw [hpost]; simp))).2 rfl)
    | head hb => exact .last hb (by rw [hpost]; simp) ((llama_outside (Or.inr (by rw [hpost]; simp))).2 rfl)

/-! ## A concrete case: two Llama models, the attention more of the other one further up -/

/-- Llama of two layers. -/
def round : Family ℝ := ⟨[("default", llamaModule)], fun _ => 2, fun _ _ => 2, fun _ => [cs!"lm_head.weight"], [], []⟩

/-- Both layers of "a" and "b". -/
def roundPart : Part := ⟨[(a, 0), (b, 0)], 2⟩

/-- From 0 to 1/2 for the attention, 1/4 for all else. -/
noncomputable def roundT : Setting ℝ := .conds [⟨.many [0, 1 / 2], some cs!"self_attn"⟩, ⟨.one (1 / 4), none⟩]

/-- `slices: [{sources: [{model: a, layer_range: [0, 2]}, {model: b, layer_range: [0, 2]}]}]`, `merge_method: slerp`, `base_model: a`,
`parameters: {t: [{filter: self_attn, value: [0.0, 0.5]}, {value: 0.25}]}`. -/
noncomputable def roundDoc : List (Str × Doc ℝ) :=
  [(cs!"slices", .list [.dict [(cs!"sources", .list [.dict [(cs!"model", .str cs!"a"), (cs!"layer_range", .list [.int 0, .int 2])],
      .dict [(cs!"model", .str cs!"b"), (cs!"layer_range", .list [.int 0, .int 2])]])]]),
   (cs!"merge_method", .str cs!"slerp"), (cs!"base_model", .str cs!"a"),
   (cs!"parameters", .dict [(cs!"t", .list [.dict [(cs!"filter", .str cs!"self_attn"), (cs!"value", .list [.float 0, .float (1 / 2)])], .dict [(cs!"value", .float (1 / 4))]])])]

/-- Tensors at a right angle. -/
noncomputable def roundOwn (m : Ref) (_ : Str) : Tensor.Tensor ℝ := ⟨[2], fun i => if (m = a ↔ i = 0) then 1 else 0⟩

/-- A world with that file and those models. -/
noncomputable def roundWorld (ch : WholeMerge.Chance) (lib : Lib ℝ) : World where
  file f := if f = cs!"c" then some cs!"slices: ..." else none
  yaml _ := some (.dict roundDoc)
  lib := lib
  chance := ch
  family _ := some round
  casts := ⟨fun _ => .float32, fun _ x => x⟩
  loaders m := ⟨Shipped.llamaWeights.map (fun v => String.ofList v.name), fun name => .ok (roundOwn m name.toList), fun _ => .ok none⟩

theorem roundDoc_says (lib : Lib ℝ) : SlerpDoc lib roundDoc a [roundPart] roundT none none where
  method := ⟨_, rfl, .mk _⟩
  base := ⟨_, rfl, .text rfl⟩
  slices := ⟨_, rfl, .cons ⟨_, rfl, .cons ⟨_, _, _, rfl, ⟨_, rfl, .text rfl⟩, rfl, .int 0, .int 2, rfl⟩ (.cons ⟨_, _, _, rfl, ⟨_, rfl, .text rfl⟩, rfl, .int 0, .int 2, rfl⟩ .nil)⟩ .nil⟩
  parameters := ⟨_, rfl, .conds (.cons (.mk ⟨_, rfl, .many (.cons (.float _) (.cons (.float _) .nil))⟩ (.given (by simp) (.mk _)))
    (.cons (.mk ⟨_, rfl, .one (.float _)⟩ .missing) .nil))⟩
  dtype := .missing
  outDtype := .missing
  template := ⟨none, .missing⟩
  others := by
    intro k hk
    simp only [List.mem_cons, List.not_mem_nil, or_false] at hk
    rcases hk with rfl | rfl | rfl | rfl <;> rfl

theorem round_attn {name : Str} (h : Fits name ⟨.many [(0 : ℝ), 1 / 2], some cs!"self_attn"⟩) {t : ℝ} (h0 : 0 ≤ t) (h1 : t ≤ 1) : Valued name t roundT (t / 2) := by
  refine .conditionGradient (pre := []) (by simp) h ?_
  have := Along.segment (t := t) [0, 1 / 2] 0 0 (1 / 2) rfl rfl (by norm_num; exact h0) (by norm_num; exact h1)
  convert this using 1
  norm_num
  ring

theorem round_valued (name : Str) {t : ℝ} (h0 : 0 ≤ t) (h1 : t ≤ 1) : ∃ x, Valued name t roundT x := by
  by_cases h : Fits name ⟨.many [(0 : ℝ), 1 / 2], some cs!"self_attn"⟩
  · exact ⟨_, round_attn h h0 h1⟩
  · refine ⟨1 / 4, .condition (pre := [_]) ?_ (Or.inl rfl)⟩
    simpa using h

theorem round_place {j o : Nat} {p : Part} (h : (places [roundPart])[j]? = some (p, o)) : p = roundPart ∧ o < 2 := by
  have := Shipped.mem_places (List.mem_of_getElem? h)
  simp only [List.mem_singleton] at this
  exact ⟨this.1, by have := this.2; rw [(List.mem_singleton.1 (Shipped.mem_places (List.mem_of_getElem? h)).1)] at this; exact this⟩

/-- At a right angle the middle of the arc is (√2/2, √2/2). -/
theorem round_arc {n : Nat} (hn : n = 2) {u v r : Nat → ℝ} (hu : u = (roundOwn a []).get) (hv : v = (roundOwn b []).get) (h : OnArc n (1 / 2) u v r) : r 0 = Real.sqrt 2 / 2 := by
  have hba : b ≠ a := by decide +kernel
  subst hn hu hv
  have hsum : ((List.range 2).map (fun j => (roundOwn a []).get j * (roundOwn b []).get j)).sum = 0 := by
    simp [List.range_succ, roundOwn, hba]
  obtain ⟨-, h2⟩ := h
  rw [hsum, mul_zero, abs_zero, Real.arccos_zero] at h2
  obtain ⟨-, h2⟩ := h2 (by norm_num)
  rw [h2 0]
  have e1 : (1 - 1 / 2 : ℝ) * (Real.pi / 2) = Real.pi / 4 := by ring
  rw [e1, Real.sin_pi_div_four, Real.sin_pi_div_two]
  simp [roundOwn, hba]

/-- All hypotheses are met; and the query projection of layer 1 is in the end half way between the models'. -/
theorem round_case (ch : WholeMerge.Chance) (lib : Lib ℝ) :
    ∃ p, yamlMain (roundWorld ch lib) [cs!"-vj4", cs!"c", cs!"--no-cuda", cs!"o", cs!"--device", cs!"cuda:1", cs!"--cuda"] = .ok p ∧ p.out = cs!"o" ∧
      Assembles (p.family round) p.conf.toConfig (LlamaMerged [roundPart]) (p.setup (roundWorld ch lib))
        (fun v _ t _ z => ∃ y, WholeMerge.Stored (p.setup (roundWorld ch lib)) (Shipped.listed v) y z ∧
          (v.name = cs!"model.layers.1.self_attn.q_proj.weight" → t = 1 → y.get 0 = Real.sqrt 2 / 2)) ∧
      LlamaMerged [roundPart] (layerWeight 1 cs!"self_attn.q_proj.weight") roundPart 1
        [(a, layerWeight 1 cs!"self_attn.q_proj.weight"), (b, layerWeight 1 cs!"self_attn.q_proj.weight")] := by
  have hcall : ∃ k, CommandLine.call CommandLine.yaml [cs!"-vj4", cs!"c", cs!"--no-cuda", cs!"o", cs!"--device", cs!"cuda:1", cs!"--cuda"] = .ok k := ⟨_, rfl⟩
  obtain ⟨k, hk⟩ := hcall
  obtain ⟨h1, h2⟩ := (CommandLine.C128_call (by simp [CommandLine.commands]) CommandLine.exampleLine k).1 hk
  have hba : b ≠ a := by decide +kernel
  have hknown : ∀ v p t ins, LlamaMerged [roundPart] v p t ins → p = roundPart ∧ (∀ i ∈ ins, (∃ u ∈ Shipped.llamaWeights, u.name = i.2.name) ∧ i.2.forceDtype = none ∧ i.2.name ≠ []) ∧
      v.forceDtype = none ∧ 0 ≤ t ∧ t ≤ 1 := by
    intro v p t ins h
    have hout : ∀ w : Arch.WeightInfo, (∃ u ∈ Shipped.llamaWeights, u.name = w.name) → w.forceDtype = none → w.name ≠ [] → ∀ i ∈ p.sources.map (fun x => (x.1, w)),
        (∃ u ∈ Shipped.llamaWeights, u.name = i.2.name) ∧ i.2.forceDtype = none ∧ i.2.name ≠ [] := by
      intro w g1 g2 g3 i hi
      obtain ⟨x, -, rfl⟩ := List.mem_map.1 hi
      exact ⟨g1, g2, g3⟩
    cases h with
    | embed hp => exact ⟨(by simpa using hp.symm), hout _ (by decide +kernel) rfl (by simp), rfl, le_refl _, zero_le_one⟩
    | layer hj hs =>
      obtain ⟨rfl, ho⟩ := round_place hj
      refine ⟨rfl, ?_, rfl, ?_⟩
      · intro i hi
        have hall : ∀ i < 2, ∀ s ∈ inLayer, ∃ u ∈ Shipped.llamaWeights, u.name = (layerWeight i s).name := by decide +kernel
        obtain ⟨x, hx, rfl⟩ := List.mem_map.1 hi
        have hx0 : x.2 = 0 := by
          simp only [roundPart, List.mem_cons, List.not_mem_nil, or_false] at hx
          rcases hx with rfl | rfl <;> rfl
        refine ⟨hall _ (by omega) _ hs, rfl, by simp [layerWeight]⟩
      · rename_i o _
        have ho' : (o : ℝ) ≤ 1 := by exact_mod_cast Nat.lt_succ_iff.1 ho
        have ho0 : (0 : ℝ) ≤ o := Nat.cast_nonneg _
        norm_num [roundPart]
        omega
    | norm hp => exact ⟨(by simpa using hp.symm), hout _ (by decide +kernel) rfl (by simp), rfl, le_refl _, zero_le_one⟩
    | head hp => exact ⟨(by simpa using hp.symm), hout _ (by decide +kernel) rfl (by simp), rfl, le_refl _, zero_le_one⟩
  obtain ⟨p, q1, q2, -, -, -, q3⟩ := C135_slerp (roundWorld ch lib) CommandLine.exampleLine h1 h2 (F := cs!"c") (O := cs!"o") (text := cs!"slices: ...") rfl rfl rfl
    (roundDoc_says lib) (by simp)
    (by
      intro p hp
      rw [List.mem_singleton] at hp
      subst hp
      exact ⟨b, 0, 0, hba, Or.inl rfl⟩)
    (by
      intro p hp x hx
      rw [List.mem_singleton] at hp
      subst hp
      simp only [roundPart, List.mem_cons, List.not_mem_nil, or_false] at hx
      rcases hx with rfl | rfl
      all_goals exact ⟨⟨by unfold ModelRef.NoSep; decide, (by rintro r hr; cases hr)⟩, (by rintro l hl; cases hl), rfl⟩)
    (f := round) (fun _ _ => rfl) ⟨Shipped.llama_shipped.definition, Shipped.llama_shipped.not_bert, Shipped.llama_shipped.names⟩ (n := "default") (m := llamaModule) rfl (by rfl) roundOwn
    (by
      intro v p t ins hmf _
      rw [C135_llama] at hmf
      obtain ⟨-, hin, hf, ht0, ht1⟩ := hknown v p t ins hmf
      refine ⟨?_, fun _ _ _ _ => rfl, Or.inl (by simp [WholeMerge.storedType, Shipped.listed, hf]), round_valued _ ht0 ht1⟩
      intro i hi
      obtain ⟨⟨u, hu, hun⟩, hf', hne⟩ := hin i hi
      have hres : (LoadTask.wanted none (Shipped.listed i.2)).resolve ((roundWorld ch lib).loaders i.1) = some (String.ofList i.2.name) := by
        unfold LoadTask.LoadTensor.resolve
        simp only [LoadTask.wanted, Shipped.listed, List.cons_append, List.find?_cons]
        have : String.ofList i.2.name ∈ ((roundWorld ch lib).loaders i.1).names := List.mem_map.2 ⟨u, hu, by rw [hun]⟩
        rw [decide_eq_true this]
      have hne' : String.ofList i.2.name ≠ "" := by
        intro h
        apply hne
        have := congrArg String.toList h
        simpa using this
      unfold LoadTask.LoadTensor.execute LoadTask.LoadTensor.raw
      rw [Option.map_none, hres]
      simp only [if_neg hne']
      simp only [LoadTask.wanted, Shipped.listed, hf', Option.map_none, true_or, if_true, LoadTask.toDtype, roundWorld, String.toList_ofList])
  have hcomes : MergedFrom llamaModule ([roundPart].map Part.len).sum (fun r => llamaModule.numLayers (round.layers r "default")) [roundPart] = LlamaMerged [roundPart] := by
    funext v p t ins
    exact propext (C135_llama _ _ _ _ _ _ _)
  rw [hcomes] at q3
  refine ⟨p, q1, q2, ?_, ?_⟩
  · intro group prio pop conf size hstd
    obtain ⟨mods, h1, trace, h2, fs, h3, h4, idx, h5, h6, h7⟩ := q3 group prio pop conf size hstd
    refine ⟨mods, h1, trace, h2, fs, h3, h4, idx, h5, h6, ?_⟩
    intro v p' t ins hcm hkp
    obtain ⟨z, ⟨y, y1, o, vb, vo, hob, hins, y3, y4⟩, h8⟩ := h7 v p' t ins hcm hkp
    refine ⟨z, ⟨y, y1, ?_⟩, h8⟩
    intro e1 e2
    subst e2
    have hv : Valued v.name 1 roundT (1 / 2) := by
      refine round_attn ?_ zero_le_one (le_refl _)
      rw [e1]
      exact Or.inr (Or.inr ⟨_, cs!"model.layers.1.", cs!".q_proj.weight", rfl, by simp, rfl⟩)
    refine round_arc rfl (hu := rfl) (v := (roundOwn o vo.name).get) ?_ (y4 _ hv)
    funext i
    simp [roundOwn, hob, hba]
  · have := LlamaMerged.layer (ps := [roundPart]) (j := 1) (o := 1) (p := roundPart) (s := cs!"self_attn.q_proj.weight") rfl (by simp [inLayer])
    norm_num [roundPart] at this ⊢
    exact this

end Verif.Main
