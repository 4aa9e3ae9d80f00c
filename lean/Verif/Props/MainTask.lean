import Verif.Props.Main
import Verif.Props.ShippedTask

/-! # C133: task arithmetic, TIES, DARE, breadcrumbs and DELLA with `mergekit-yaml`, from the command line to the files -/

namespace Verif.Main

open Verif.ModelRef (Str Ref)
open Verif.Document
open Verif.WholeMerge (getMethod MethodErr GtaVariant gtaVariants gtaMethod Trimmed Doable Combined)
open Verif.CommandLine (Line Enough Called)
open Verif.Shipped (Family IsShipped Merges Present TaskConf numbered said numbersOf Switch)
open Verif.Sparsify (SortsAsc SortsDesc)

/-! ## What is claimed -/

/-- A document that lists models (`es`: the references, each with its own parameters) for a method, with parameters for all (`ps`), perhaps a base model, data types and a
chat template.  All parameters are numbers (or texts that are, or yes and no), and where there are none the entry may be missing. -/
structure PlainDoc (L : Lib ℝ) (d : List (Str × Doc ℝ)) (method : Str) (base : Option Ref) (es : List (Ref × List (Str × ℝ))) (ps : List (Str × ℝ))
    (dtype outDtype : Option Str) : Prop where
  method : Has Text d cs!"merge_method" method
  base : Maybe RefSays (d.lookup cs!"base_model") base
  models : ∃ l, d.lookup cs!"models" = some (.list l) ∧ List.Forall₂ (fun m e => ∃ x q, m = .dict x ∧ Has RefSays x cs!"model" e.1 ∧
    Maybe (Mapped (Number L)) (x.lookup cs!"parameters") q ∧ e.2 = q.getD []) l es
  parameters : ∃ q, Maybe (Mapped (Number L)) (d.lookup cs!"parameters") q ∧ ps = q.getD []
  dtype : Maybe Text (d.lookup cs!"dtype") dtype
  outDtype : Maybe Text (d.lookup cs!"out_dtype") outDtype
  template : ∃ t, Maybe Text (d.lookup cs!"chat_template") t
  others : ∀ k ∈ [cs!"slices", cs!"modules", cs!"tokenizer_source", cs!"tokenizer"], d.lookup k = none

/-- The methods: task arithmetic as it is; with the largest changes only (TIES), with random ones (DARE), with middle ones (breadcrumbs), with ones drawn by rank (DELLA);
the last three with and without sign consensus.  TIES and DELLA divide by the sum of the weights unless told otherwise, DARE and DELLA rescale. -/
inductive Variant : GtaVariant → Prop
  | task_arithmetic : Variant ⟨cs!"task_arithmetic", none, none, false, false⟩
  | ties : Variant ⟨cs!"ties", some .sum, some .magnitude, true, false⟩
  | dare_ties : Variant ⟨cs!"dare_ties", some .sum, some .random, false, true⟩
  | dare_linear : Variant ⟨cs!"dare_linear", none, some .random, false, true⟩
  | breadcrumbs : Variant ⟨cs!"breadcrumbs", none, some .magnitudeOutliers, false, false⟩
  | breadcrumbs_ties : Variant ⟨cs!"breadcrumbs_ties", some .sum, some .magnitudeOutliers, false, false⟩
  | della : Variant ⟨cs!"della", some .sum, some .dellaMagprune, true, true⟩
  | della_linear : Variant ⟨cs!"della_linear", none, some .dellaMagprune, false, true⟩

/-! ## The configuration -/

theorem variant_mem {g : GtaVariant} (h : Variant g) : g ∈ gtaVariants := by
  cases h <;> simp [gtaVariants]

theorem says_numbers {L : Lib ℝ} {o : Option (Doc ℝ)} {q : Option (List (Str × ℝ))} (h : Maybe (Mapped (Number L)) o q) :
    ∃ p, Maybe (Mapped (Says L)) o p ∧ paramsToConfig p = numbered (q.getD []) := by
  cases h with
  | missing => exact ⟨none, .missing, rfl⟩
  | null => exact ⟨none, .null, rfl⟩
  | @given d a h1 h2 =>
    cases h2 with
    | @mk d as h3 =>
      refine ⟨some (a.map (fun e => (e.1, .num (.one e.2)))), .given h1 (.mk ?_), ?_⟩
      · rw [List.forall₂_map_right_iff]
        exact h3.imp (fun _ _ h => ⟨h.1, .one h.2⟩)
      · unfold paramsToConfig numbered
        simp only [Option.getD_some, List.map_map]
        rfl

theorem says_models {L : Lib ℝ} : ∀ {l : List (Doc ℝ)} {es : List (Ref × List (Str × ℝ))}, List.Forall₂ (fun m e => ∃ x q, m = .dict x ∧ Has RefSays x cs!"model" e.1 ∧
      Maybe (Mapped (Number L)) (x.lookup cs!"parameters") q ∧ e.2 = q.getD []) l es →
    ∃ ms, List.Forall₂ (ModelSays L) l ms ∧ ms.map InModel.toConfig = es.map (fun e => ⟨e.1, numbered e.2⟩)
  | _, _, .nil => ⟨[], .nil, rfl⟩
  | _, _, .cons ⟨x, q, h1, h2, h3, h4⟩ hl => by
    obtain ⟨ms, hm, he⟩ := says_models hl
    obtain ⟨p, hp, hq⟩ := says_numbers h3
    subst h1
    refine ⟨⟨_, p⟩ :: ms, .cons (.mk h2 hp) hm, ?_⟩
    rw [List.map_cons, List.map_cons, he, h4, ← hq]
    rfl

/-- The configuration of such a document. -/
theorem plain_says {L : Lib ℝ} {d : List (Str × Doc ℝ)} {method : Str} {base : Option Ref} {es : List (Ref × List (Str × ℝ))} {ps : List (Str × ℝ)}
    {dtype outDtype : Option Str} (h : PlainDoc L d method base es ps dtype outDtype) (hne : es ≠ []) :
    ∃ c, ConfSays L d c ∧ c.mergeMethod = method ∧ c.dtype = dtype ∧ c.outDtype = outDtype ∧ c.toConfig.models = some (es.map (fun e => ⟨e.1, numbered e.2⟩)) ∧
      c.toConfig.slices = none ∧ c.toConfig.modules = none ∧ c.toConfig.baseModel = base ∧ c.toConfig.parameters = numbered ps ∧ c.tokenizer = none ∧ c.tokenizerSource = none := by
  obtain ⟨l, hl, hml⟩ := h.models
  obtain ⟨t, ht⟩ := h.template
  obtain ⟨q, hq, rfl⟩ := h.parameters
  have ho := h.others
  simp only [List.forall_mem_cons] at ho
  obtain ⟨ho1, ho2, ho3, ho4, -⟩ := ho
  obtain ⟨ms, hms, hmc⟩ := says_models hml
  obtain ⟨p, hp, hpc⟩ := says_numbers hq
  have hfill : Filled (some ms) := by
    cases ms with
    | nil => exact absurd (List.map_eq_nil_iff.1 hmc.symm) hne
    | cons e es => exact ⟨_, _, rfl⟩
  refine ⟨{ models := some ms, mergeMethod := method, baseModel := base, dtype, chatTemplate := t, outDtype, parameters := p },
    ⟨by rw [ho2]; exact .missing, by rw [ho1]; exact .missing, by rw [hl]; exact .given (by simp) (.mk hms), h.method, h.base, h.dtype, by rw [ho3]; exact .missing,
      by rw [ho4]; exact .missing, ht, h.outDtype, hp, Or.inr (Or.inr ⟨(by rintro ⟨_, _, h⟩; cases h), (by rintro ⟨_, _, h⟩; cases h), hfill⟩), Or.inl rfl⟩,
    rfl, rfl, rfl, congrArg some hmc, rfl, rfl, rfl, hpc, rfl, rfl⟩

/-- **C133** A merge by task arithmetic, TIES, DARE (linear or TIES), breadcrumbs (with or without TIES) or DELLA (likewise) with `mergekit-yaml`, from the command line to the files.
The command line is right; the file it names is YAML that names a base model and lists models, with parameters that are numbers; every model but the base has a weight;
all are of one shipped architecture and size, and every weight of the architecture is there in all of them in one shape; the numbers allow the sparsification and the data types
exist.  Then the command starts a merge into the directory named, which succeeds and leaves exactly the weights of the architecture, each the base model's tensor of that name
plus the combined changes of the other models, each change sparsified with the numbers for its model. -/
theorem C133_task_arithmetic (W : World) (hdesc : ∀ w n, SortsDesc w n (W.chance.tools.sortDesc w n)) (hasc : ∀ w n, SortsAsc w n (W.chance.tools.sortAsc w n))
    {line : List Str} (l : Line CommandLine.yaml.opts line) {k : CommandLine.Call} (hk : Enough CommandLine.yaml l.events l.args)
    (hk' : Called CommandLine.yaml l.events l.args k) {F O text : Str} (hargs : l.args = [F, O]) {d : List (Str × Doc ℝ)} (hfile : W.file F = some text)
    (hyaml : W.yaml text = some (.dict d)) {g : GtaVariant} (hg : Variant g) {b : Ref} {es : List (Ref × List (Str × ℝ))} {ps : List (Str × ℝ)}
    {dtype outDtype : Option Str} (hd : PlainDoc W.lib d g.name (some b) es ps dtype outDtype)
    (hne : es ≠ []) (honce : (es.map Prod.fst).Nodup) (hplain : ∀ r ∈ b :: es.map Prod.fst, r.Plain)
    {w : Ref → ℝ} (hw : ∀ e ∈ es, e.1 ≠ b → said "weight" e.2 ps = some (w e.1))
    {mask nz rescale : Bool} (hmask : Switch "int8_mask" false ps mask) (hnz : Switch "normalize" g.normalize ps nz) (hres : Switch "rescale" g.rescale ps rescale)
    {f : Family ℝ} (hf : ∀ c, ConfSays W.lib d c → W.family c = some f) (hs : IsShipped f)
    (hlayers : ∀ r ∈ b :: es.map Prod.fst, ∀ n ∈ f.modules.map Prod.fst, f.layers r n = f.outLayers n)
    {ws : List Arch.WeightInfo} (hws : Arch.allWeights f.pairs = .ok ws) (own : Ref → Str → Tensor.Tensor ℝ)
    (hown : ∀ v ∈ ws, Present f (b :: es.map Prod.fst) v →
      (∀ r ∈ b :: es.map Prod.fst, (LoadTask.wanted (dtype.map String.ofList) (Shipped.listed v)).execute W.casts (W.loaders r) = .ok (some (own r v.name)) ∧
        (own r v.name).shape = (own b v.name).shape) ∧
      (WholeMerge.storedType (outDtype.map String.ofList) (Shipped.listed v) = none ∨
        ∃ n t, WholeMerge.storedType (outDtype.map String.ofList) (Shipped.listed v) = some n ∧ (n, t) ∈ LoadTask.typeNames) ∧
      ∀ e ∈ es, e.1 ≠ b → Doable (own b v.name).shape (numbersOf (w e.1) e.2 ps) g.sparsification) :
    ∃ p, yamlMain W line = .ok p ∧ p.out = O ∧ p.text = text ∧ p.options = k.merge ∧ W.family p.conf = some f ∧
      Merges (p.family f) p.conf.toConfig ws (b :: es.map Prod.fst) (p.setup W) (fun v z => ∃ y, WholeMerge.Stored (p.setup W) (Shipped.listed v) y z ∧
        y.shape = (own b v.name).shape ∧ ∃ parts : List (ℝ × Tensor.Tensor ℝ),
          List.Forall₂ (fun e x => x.1 = w e.1 ∧
            Trimmed (W.chance.tools.sample v.name e.1) (numbersOf (w e.1) e.2 ps) rescale (Merge.diff (own e.1 v.name) (own b v.name)) x.2 g.sparsification)
            (es.filter (fun e => decide (e.1 ≠ b))) parts ∧
          ∀ i, ∃ delta, Combined nz ((ps.lookup "lambda".toList).getD 1) (parts.map (fun x => (x.1, x.2.get i))) g.consensus delta ∧
            y.get i = (own b v.name).get i + delta) := by
  obtain ⟨c, hc, hmm, hdt, hot, hms, hsl, hmo, hbm, hpar, htk, hts⟩ := plain_says hd hne
  have hread : read W.lib (.dict d) = .ok c := C130_accepts (.none (hd.others _ (by simp))) hc
  have hget : getMethod W.chance c.mergeMethod = some ⟨g.name, g.params, g.tensorParams, gtaMethod g W.chance.tools⟩ := by
    rw [hmm]
    exact WholeMerge.getMethod_mem W.chance ⟨g.name, _, _, _⟩ (WholeMerge.mem_static _ _ (List.mem_append_right _ (List.mem_map.2 ⟨g, variant_mem hg, rfl⟩)))
  have hmain := (C131_main W l ⟨k.merge, O, text, c, _⟩).2 ⟨F, k, _, hk, hk', hargs, rfl, hfile, hyaml, hread, hget⟩
  refine ⟨_, hmain, rfl, rfl, rfl, hf c hc, ?_⟩
  refine Shipped.C119_task_arithmetic g W.chance.tools hdesc hasc (Prepared.family ⟨k.merge, O, text, c, ⟨g.name, g.params, g.tensorParams, gtaMethod g W.chance.tools⟩⟩ f)
    ⟨hs.definition, hs.not_bert, hs.names⟩ rfl rfl c.toConfig b es ps ⟨hms, hsl, hbm, hpar, hne, honce⟩ hplain hlayers ws hws
    (Prepared.setup ⟨k.merge, O, text, c, ⟨g.name, g.params, g.tensorParams, gtaMethod g W.chance.tools⟩⟩ W) rfl own w hw mask nz rescale hmask hnz hres ?_
  intro v hv hp
  obtain ⟨g1, g2, g3⟩ := hown v hv hp
  rw [← hdt] at g1
  rw [← hot] at g2
  exact ⟨g1, g2, g3⟩

theorem forall₂_map {A B : Type} {f : A → B} {l : List A} {l' : List B} (h : List.Forall₂ (fun a b => b = f a) l l') : l' = l.map f := by
  induction h with
  | nil => rfl
  | cons h _ ih => rw [h, ih, List.map_cons]

/-- **C133** Plain task arithmetic in full: the base model's entry plus lambda times the weighted sum of the differences to it. -/
theorem C133_plain (W : World) {line : List Str} (l : Line CommandLine.yaml.opts line) {k : CommandLine.Call} (hk : Enough CommandLine.yaml l.events l.args)
    (hk' : Called CommandLine.yaml l.events l.args k) {F O text : Str} (hargs : l.args = [F, O]) {d : List (Str × Doc ℝ)} (hfile : W.file F = some text)
    (hyaml : W.yaml text = some (.dict d)) {b : Ref} {es : List (Ref × ℝ)} {lam : ℝ}
    {dtype outDtype : Option Str} (hd : PlainDoc W.lib d cs!"task_arithmetic" (some b) (es.map (fun e => (e.1, [(cs!"weight", e.2)]))) [(cs!"lambda", lam)] dtype outDtype)
    (hdesc : ∀ w n, SortsDesc w n (W.chance.tools.sortDesc w n)) (hasc : ∀ w n, SortsAsc w n (W.chance.tools.sortAsc w n))
    (hne : es ≠ []) (honce : (es.map Prod.fst).Nodup) (hbase : b ∉ es.map Prod.fst) (hplain : ∀ r ∈ b :: es.map Prod.fst, r.Plain)
    {f : Family ℝ} (hf : ∀ c, ConfSays W.lib d c → W.family c = some f) (hs : IsShipped f)
    (hlayers : ∀ r ∈ b :: es.map Prod.fst, ∀ n ∈ f.modules.map Prod.fst, f.layers r n = f.outLayers n)
    {ws : List Arch.WeightInfo} (hws : Arch.allWeights f.pairs = .ok ws) (own : Ref → Str → Tensor.Tensor ℝ)
    (hown : ∀ v ∈ ws, Present f (b :: es.map Prod.fst) v →
      (∀ r ∈ b :: es.map Prod.fst, (LoadTask.wanted (dtype.map String.ofList) (Shipped.listed v)).execute W.casts (W.loaders r) = .ok (some (own r v.name)) ∧
        (own r v.name).shape = (own b v.name).shape) ∧
      (WholeMerge.storedType (outDtype.map String.ofList) (Shipped.listed v) = none ∨
        ∃ n t, WholeMerge.storedType (outDtype.map String.ofList) (Shipped.listed v) = some n ∧ (n, t) ∈ LoadTask.typeNames)) :
    ∃ p, yamlMain W line = .ok p ∧ p.out = O ∧
      Merges (p.family f) p.conf.toConfig ws (b :: es.map Prod.fst) (p.setup W) (fun v z => ∃ y, WholeMerge.Stored (p.setup W) (Shipped.listed v) y z ∧
        y.shape = (own b v.name).shape ∧
        ∀ i, y.get i = (own b v.name).get i + lam * (es.map (fun e => e.2 * ((own e.1 v.name).get i - (own b v.name).get i))).sum) := by
  have hfst : (es.map (fun e => (e.1, [(cs!"weight", e.2)]))).map Prod.fst = es.map Prod.fst := by rw [List.map_map]; rfl
  have hlook : ∀ e ∈ es, (es.lookup e.1).getD 0 = e.2 := fun e he => by rw [lookup_nodup honce he]; rfl
  obtain ⟨p, q1, q2, -, -, -, q3⟩ := C133_task_arithmetic W hdesc hasc l hk hk' hargs hfile hyaml .task_arithmetic hd (by simpa using hne) (by rw [hfst]; exact honce)
    (by rw [hfst]; exact hplain) (w := fun r => (es.lookup r).getD 0)
    (by
      intro e he _
      obtain ⟨e', he', rfl⟩ := List.mem_map.1 he
      simp only
      rw [hlook e' he']
      rfl)
    (mask := false) (nz := false) (rescale := false) (Or.inl ⟨rfl, rfl⟩) (Or.inl ⟨rfl, rfl⟩) (Or.inl ⟨rfl, rfl⟩) hf hs (by rw [hfst]; exact hlayers) hws own
    (by
      rw [hfst]
      intro v hv hp
      obtain ⟨g1, g2⟩ := hown v hv hp
      exact ⟨g1, g2, fun _ _ _ => .plain⟩)
  rw [hfst] at q3
  refine ⟨p, q1, q2, ?_⟩
  intro group prio pop conf size hstd
  obtain ⟨mods, h1, trace, h2, fs, h3, h4, idx, h5, h6, h7⟩ := q3 group prio pop conf size hstd
  refine ⟨mods, h1, trace, h2, fs, h3, h4, idx, h5, h6, ?_⟩
  intro v hv hp
  obtain ⟨z, ⟨y, y1, y2, parts, y3, y4⟩, h8⟩ := h7 v hv hp
  refine ⟨z, ⟨y, y1, y2, ?_⟩, h8⟩
  have hfil : (es.map (fun e => (e.1, [(cs!"weight", e.2)]))).filter (fun e => decide (e.1 ≠ b)) = es.map (fun e => (e.1, [(cs!"weight", e.2)])) := by
    rw [List.filter_eq_self]
    intro e he
    obtain ⟨e', he', rfl⟩ := List.mem_map.1 he
    exact decide_eq_true (fun h => hbase (h ▸ List.mem_map.2 ⟨e', he', rfl⟩))
  rw [hfil, List.forall₂_map_left_iff] at y3
  have hparts : parts = es.map (fun e => (e.2, Merge.diff (own e.1 v.name) (own b v.name))) := by
    have y3' : List.Forall₂ (fun (e : Ref × ℝ) (x : ℝ × Tensor.Tensor ℝ) => x = ((es.lookup e.1).getD 0, Merge.diff (own e.1 v.name) (own b v.name))) es parts := by
      refine y3.imp ?_
      rintro e x ⟨x1, x2⟩
      cases x2 with
      | plain h => exact Prod.ext x1 h
    rw [forall₂_map y3']
    exact List.map_congr_left (fun e he => by rw [hlook e he])
  subst hparts
  intro i
  obtain ⟨delta, hdel, hy⟩ := y4 i
  rw [hy]
  cases hdel with
  | all =>
    simp only [List.map_map]
    simp [List.lookup, Merge.diff, Function.comp_def]

/-! ## A concrete case: TIES on three Llama models -/

/-- The third reference. -/
def third : Ref := ⟨⟨cs!"c", none⟩, none, none⟩

/-- `merge_method: ties`, `base_model: a`, `models: [{model: a}, {model: b, parameters: {weight: 1}}, {model: c, parameters: {weight: 3}}]`,
`parameters: {density: 0.5, lambda: 0.5, int8_mask: true}`. -/
noncomputable def tiesDoc : List (Str × Doc ℝ) :=
  [(cs!"merge_method", .str cs!"ties"), (cs!"base_model", .str cs!"a"),
   (cs!"models", .list [.dict [(cs!"model", .str cs!"a")], .dict [(cs!"model", .str cs!"b"), (cs!"parameters", .dict [(cs!"weight", .float 1)])],
     .dict [(cs!"model", .str cs!"c"), (cs!"parameters", .dict [(cs!"weight", .float 3)])]]),
   (cs!"parameters", .dict [(cs!"density", .float (1 / 2)), (cs!"lambda", .float (1 / 2)), (cs!"int8_mask", .bool true)])]

/-- All tensors of "a" are (2, 2), of "b" (10, 3), of "c" (-5, 0). -/
def tiesOwn (m : Ref) : Tensor.Tensor ℝ := ⟨[2], fun i => if m = a then 2 else if m = b then (if i = 0 then 10 else 3) else if i = 0 then -5 else 0⟩

/-- A world with that file and those models. -/
noncomputable def tiesWorld (ch : WholeMerge.Chance) (lib : Lib ℝ) : World where
  file f := if f = cs!"c" then some cs!"models: ..." else none
  yaml _ := some (.dict tiesDoc)
  lib := lib
  chance := ch
  family _ := some llama
  casts := ⟨fun _ => .float32, fun _ x => x⟩
  loaders m := ⟨Shipped.llamaWeights.map (fun v => String.ofList v.name), fun _ => .ok (tiesOwn m), fun _ => .ok none⟩

theorem tiesDoc_says (lib : Lib ℝ) : PlainDoc lib tiesDoc cs!"ties" (some a) [(a, []), (b, [(cs!"weight", 1)]), (third, [(cs!"weight", 3)])]
    [(cs!"density", 1 / 2), (cs!"lambda", 1 / 2), (cs!"int8_mask", lib.ofInt 1)] none none where
  method := ⟨_, rfl, .mk _⟩
  base := .given (by simp) (.text rfl)
  models := by
    refine ⟨_, rfl, .cons ⟨_, none, rfl, ⟨_, rfl, .text rfl⟩, .missing, rfl⟩ (.cons ⟨_, some _, rfl, ⟨_, rfl, .text rfl⟩, .given (by simp) (.mk (.cons ⟨rfl, .float _⟩ .nil)), rfl⟩
      (.cons ⟨_, some _, rfl, ⟨_, rfl, .text rfl⟩, .given (by simp) (.mk (.cons ⟨rfl, .float _⟩ .nil)), rfl⟩ .nil))⟩
  parameters := ⟨some _, .given (by simp) (.mk (.cons ⟨rfl, .float _⟩ (.cons ⟨rfl, .float _⟩ (.cons ⟨rfl, .yes⟩ .nil)))), rfl⟩
  dtype := .missing
  outDtype := .missing
  template := ⟨none, .missing⟩
  others := by
    intro k hk
    simp only [List.mem_cons, List.not_mem_nil, or_false] at hk
    rcases hk with rfl | rfl | rfl | rfl <;> rfl

/-- A change of two entries, half of them kept: the larger one. -/
theorem half_kept {sample : (Nat → ℝ) → Nat → Bool} {n : WholeMerge.Numbers ℝ} {d d' : Tensor.Tensor ℝ} (h : Trimmed sample n false d d' (some .magnitude))
    (hn : n.density = 1 / 2) (hs : d.shape = [2]) (hlt : |d.get 1| < |d.get 0|) : d'.get 0 = d.get 0 ∧ d'.get 1 = 0 := by
  cases h with
  | dense _ h _ => rw [hn] at h; norm_num at h
  | largest kept c _ hc hkeep hnd hlen hin htop =>
    have hc : c = 1 := hc.off rfl
    subst hc
    have hp : d.shape.prod = 2 := by rw [hs]; rfl
    have hlen : kept.length = 1 := by
      rw [hn, hp] at hlen
      have : ⌊(1 / 2 : ℝ) * ((2 : Nat) : ℝ)⌋ = 1 := by norm_num
      rw [this] at hlen
      exact_mod_cast hlen
    obtain ⟨j, rfl⟩ := List.length_eq_one_iff.1 hlen
    have hj : j = 0 := by
      have h1 := hin j (List.mem_singleton.2 rfl)
      rw [hp] at h1
      by_contra hne
      have : j = 1 := by omega
      subst this
      have h2 := htop 1 (List.mem_singleton.2 rfl) 0 (by rw [hp]; omega) (by simp)
      exact absurd hlt (not_lt.2 h2)
    subst hj
    exact ⟨by rw [hkeep.inside 0 (by simp), one_mul], hkeep.outside 1 (by simp)⟩

/-- All hypotheses are met; of the changes (8, 1) and (-7, -2) the larger entries are kept, 1 * 8 and 3 * -7 disagree, the latter wins, and in the end each weight is
(2 - 7 / 2, 2). -/
theorem ties_case (ch : WholeMerge.Chance) (hdesc : ∀ w n, SortsDesc w n (ch.tools.sortDesc w n)) (hasc : ∀ w n, SortsAsc w n (ch.tools.sortAsc w n)) (lib : Lib ℝ)
    (hone : lib.ofInt 1 = 1) :
    ∃ p, yamlMain (tiesWorld ch lib) [cs!"-vj4", cs!"c", cs!"--no-cuda", cs!"o", cs!"--device", cs!"cuda:1", cs!"--cuda"] = .ok p ∧ p.out = cs!"o" ∧
      Merges (p.family llama) p.conf.toConfig Shipped.llamaWeights [a, a, b, third] (p.setup (tiesWorld ch lib))
        (fun v z => ∃ y, WholeMerge.Stored (p.setup (tiesWorld ch lib)) (Shipped.listed v) y z ∧ y.shape = [2] ∧ y.get 0 = -3 / 2 ∧ y.get 1 = 2) := by
  have hcall : ∃ k, CommandLine.call CommandLine.yaml [cs!"-vj4", cs!"c", cs!"--no-cuda", cs!"o", cs!"--device", cs!"cuda:1", cs!"--cuda"] = .ok k := ⟨_, rfl⟩
  obtain ⟨k, hk⟩ := hcall
  obtain ⟨h1, h2⟩ := (CommandLine.C128_call (by simp [CommandLine.commands]) CommandLine.exampleLine k).1 hk
  have hforce : ∀ v ∈ Shipped.llamaWeights, v.forceDtype = none ∧ v.name ≠ [] := by decide +kernel
  have hba : b ≠ a := by decide +kernel
  have hca : third ≠ a := by decide +kernel
  have hcb : third ≠ b := by decide +kernel
  obtain ⟨p, q1, q2, -, -, -, q3⟩ := C133_task_arithmetic (tiesWorld ch lib) hdesc hasc CommandLine.exampleLine h1 h2 (F := cs!"c") (O := cs!"o") (text := cs!"models: ...") rfl rfl rfl
    .ties (tiesDoc_says lib) (by simp) (by decide +kernel)
    (by
      intro r hr
      simp only [List.map_cons, List.map_nil, List.mem_cons, List.not_mem_nil, or_false] at hr
      rcases hr with rfl | rfl | rfl | rfl
      all_goals exact ⟨⟨by unfold ModelRef.NoSep; decide, (by rintro r hr; cases hr)⟩, (by rintro l hl; cases hl), rfl⟩)
    (w := fun r => if r = b then 1 else 3)
    (by
      intro e he hne
      simp only [List.mem_cons, List.not_mem_nil, or_false] at he
      rcases he with rfl | rfl | rfl
      · exact absurd rfl hne
      · rw [if_pos rfl]; rfl
      · rw [if_neg hcb]; rfl)
    (mask := true) (nz := true) (rescale := false) (Or.inr (by rw [hone]; rfl)) (Or.inl ⟨rfl, rfl⟩) (Or.inl ⟨rfl, rfl⟩)
    (f := llama) (fun _ _ => rfl) llama_shipped (fun _ _ _ _ => rfl) Shipped.llama_weights (fun r _ => tiesOwn r)
    (by
      intro v hv _
      obtain ⟨hf, hne⟩ := hforce v hv
      refine ⟨?_, Or.inl (by simp [WholeMerge.storedType, Shipped.listed, hf]), ?_⟩
      · intro r _
        refine ⟨?_, rfl⟩
        have hres : (LoadTask.wanted none (Shipped.listed v)).resolve ((tiesWorld ch lib).loaders r) = some (String.ofList v.name) := by
          unfold LoadTask.LoadTensor.resolve
          simp only [LoadTask.wanted, Shipped.listed, List.cons_append, List.find?_cons]
          have : String.ofList v.name ∈ ((tiesWorld ch lib).loaders r).names := List.mem_map.2 ⟨v, hv, rfl⟩
          rw [decide_eq_true this]
        have hne' : String.ofList v.name ≠ "" := by
          intro h
          apply hne
          have := congrArg String.toList h
          simpa using this
        unfold LoadTask.LoadTensor.execute LoadTask.LoadTensor.raw
        rw [Option.map_none, hres]
        simp only [if_neg hne']
        simp only [LoadTask.wanted, Shipped.listed, hf, Option.map_none, true_or, if_true, LoadTask.toDtype, tiesWorld]
      · intro e he hea
        have hden : (numbersOf (if e.1 = b then 1 else 3) e.2 [(cs!"density", 1 / 2), (cs!"lambda", 1 / 2), (cs!"int8_mask", lib.ofInt 1)]).density = 1 / 2 := by
          simp only [List.mem_cons, List.not_mem_nil, or_false] at he
          rcases he with rfl | rfl | rfl <;> rfl
        refine .largest ?_ ?_
        · rw [hden]; norm_num
        · rw [hden]
          simp [tiesOwn])
  refine ⟨p, q1, q2, ?_⟩
  intro group prio pop conf size hstd
  obtain ⟨mods, h1, trace, h2, fs, h3, h4, idx, h5, h6, h7⟩ := q3 group prio pop conf size hstd
  refine ⟨mods, h1, trace, h2, fs, h3, h4, idx, h5, h6, ?_⟩
  intro v hv hp
  obtain ⟨z, ⟨y, y1, y2, parts, y3, y4⟩, h8⟩ := h7 v hv hp
  have hfil : ([(a, []), (b, [(cs!"weight", 1)]), (third, [(cs!"weight", 3)])] : List (Ref × List (Str × ℝ))).filter (fun e => decide (e.1 ≠ a)) =
      [(b, [(cs!"weight", 1)]), (third, [(cs!"weight", 3)])] := by
    simp [hba, hca]
  rw [hfil] at y3
  obtain ⟨x, ps, ⟨e1, x1⟩, hps, rfl⟩ := List.forall₂_cons_left_iff.1 y3
  obtain ⟨x', ps', ⟨e2, x2⟩, hps', rfl⟩ := List.forall₂_cons_left_iff.1 hps
  cases hps'
  obtain ⟨k0, k1⟩ := half_kept x1 rfl rfl (by simp [Merge.diff, tiesOwn, hba]; norm_num)
  obtain ⟨m0, m1⟩ := half_kept x2 rfl rfl (by simp [Merge.diff, tiesOwn, hca, hcb]; norm_num)
  simp only [if_true] at e1
  simp only [if_neg hcb] at e2
  have hd0 : (Merge.diff (tiesOwn b) (tiesOwn a)).get 0 = 8 := by simp [Merge.diff, tiesOwn, hba]; norm_num
  have hd1 : (Merge.diff (tiesOwn third) (tiesOwn a)).get 0 = -7 := by simp [Merge.diff, tiesOwn, hca, hcb]; norm_num
  rw [hd0] at k0
  rw [hd1] at m0
  have hlam : (([(cs!"density", 1 / 2), (cs!"lambda", 1 / 2), (cs!"int8_mask", lib.ofInt 1)] : List (Str × ℝ)).lookup "lambda".toList).getD 1 = 1 / 2 := rfl
  have hbase : ∀ i, (tiesOwn a).get i = 2 := fun i => by simp [tiesOwn]
  refine ⟨z, ⟨y, y1, y2, ?_, ?_⟩, h8⟩
  · obtain ⟨delta, hdel, hy⟩ := y4 0
    rw [hy, hbase]
    rw [hlam] at hdel
    simp only [List.map_cons, List.map_nil, e1, e2, k0, m0] at hdel
    cases hdel with
    | agreeing _ s hel =>
      have hs : s = -1 := by
        cases hel with
        | sumPos h => simp at h; norm_num at h
        | sumNeg _ => rfl
      subst hs
      simp [Merge.agreeing]
      norm_num
  · obtain ⟨delta, hdel, hy⟩ := y4 1
    rw [hy, hbase]
    rw [hlam] at hdel
    simp only [List.map_cons, List.map_nil, k1, m1] at hdel
    cases hdel with
    | agreeing _ s hel =>
      simp [Merge.agreeing]

/-- There is a way to sort. -/
noncomputable def realSort (w : Nat → ℝ) (n : Nat) : List Nat := (List.range n).mergeSort (fun a b => decide (w a ≤ w b))

theorem realSort_sorts (w : Nat → ℝ) (n : Nat) : SortsAsc w n (realSort w n) := by
  refine ⟨List.mergeSort_perm _ _, ?_⟩
  have := List.pairwise_mergeSort (le := fun a b => decide (w a ≤ w b))
    (by intro a b c h1 h2; simp only [decide_eq_true_eq] at *; exact le_trans h1 h2)
    (by intro a b; simp only [Bool.or_eq_true, decide_eq_true_eq]; exact le_total _ _) (List.range n)
  exact this.imp (by intro a b h; simpa using h)

example : ∃ ch : WholeMerge.Chance, (∀ w n, SortsDesc w n (ch.tools.sortDesc w n)) ∧ ∀ w n, SortsAsc w n (ch.tools.sortAsc w n) :=
  ⟨⟨⟨Real.sqrt, fun w n => (realSort w n).reverse, realSort, fun _ _ _ _ => true⟩, fun _ l => l.reverse, fun _ l => l, fun _ l => l, fun _ _ n => List.range n⟩,
    fun w n => ⟨(List.reverse_perm _).trans (realSort_sorts w n).perm, List.pairwise_reverse.2 (realSort_sorts w n).sorted⟩, realSort_sorts⟩

end Verif.Main
