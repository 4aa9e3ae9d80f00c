import Verif.Props.MainTask
import Verif.Props.ShippedStack

/-! # C134: stacking layers (passthrough) with `mergekit-yaml`, from the command line to the files -/

namespace Verif.Main

open Verif.ModelRef (Str Ref)
open Verif.Document
open Verif.WholeMerge (getMethod MethodErr passthroughTask)
open Verif.CommandLine (Line Enough Called)
open Verif.Shipped (Family IsShipped numbered said Block Comes Kept Stacks Stands layersOf)

/-! ## What is claimed -/

/-- A document that stacks layers: a list of slices, each with one source - a model, a range of its layers, and perhaps parameters that are numbers -, with parameters
for all (`ps`), and perhaps a base model, data types and a chat template. -/
structure StackDoc (L : Lib ℝ) (d : List (Str × Doc ℝ)) (bs : List (Block ℝ)) (ps : List (Str × ℝ)) (dtype outDtype : Option Str) : Prop where
  method : Has Text d cs!"merge_method" cs!"passthrough"
  slices : ∃ l, d.lookup cs!"slices" = some (.list l) ∧ List.Forall₂ (fun s b => ∃ x lo hi q, s = .dict [(cs!"sources", .list [.dict x])] ∧ Has RefSays x cs!"model" b.model ∧
    x.lookup cs!"layer_range" = some (.list [lo, hi]) ∧ Integer L lo b.start ∧ Integer L hi b.stop ∧
    Maybe (Mapped (Number L)) (x.lookup cs!"parameters") q ∧ b.params = q.getD []) l bs
  base : ∃ r, Maybe RefSays (d.lookup cs!"base_model") r
  parameters : ∃ q, Maybe (Mapped (Number L)) (d.lookup cs!"parameters") q ∧ ps = q.getD []
  dtype : Maybe Text (d.lookup cs!"dtype") dtype
  outDtype : Maybe Text (d.lookup cs!"out_dtype") outDtype
  template : ∃ t, Maybe Text (d.lookup cs!"chat_template") t
  others : ∀ k ∈ [cs!"models", cs!"modules", cs!"tokenizer_source", cs!"tokenizer"], d.lookup k = none

/-! ## The configuration -/

theorem says_slices {L : Lib ℝ} : ∀ {l : List (Doc ℝ)} {bs : List (Block ℝ)}, List.Forall₂ (fun s b => ∃ x lo hi q, s = .dict [(cs!"sources", .list [.dict x])] ∧
      Has RefSays x cs!"model" b.model ∧ x.lookup cs!"layer_range" = some (.list [lo, hi]) ∧ Integer L lo b.start ∧ Integer L hi b.stop ∧
      Maybe (Mapped (Number L)) (x.lookup cs!"parameters") q ∧ b.params = q.getD []) l bs →
    ∃ ss, List.Forall₂ (SliceSays L) l ss ∧ ss.map OutSlice.toConfig = bs.map (fun b => ⟨[⟨b.model, b.start, b.stop, numbered b.params⟩], none, []⟩)
  | _, _, .nil => ⟨[], .nil, rfl⟩
  | _, _, .cons ⟨x, lo, hi, q, h1, h2, h3, h4, h5, h6, h7⟩ hl => by
    obtain ⟨ss, hs, he⟩ := says_slices hl
    obtain ⟨p, hp, hq⟩ := says_numbers h6
    subst h1
    refine ⟨⟨[⟨_, _, _, p⟩], none, none, none⟩ :: ss, .cons (.mk ⟨_, rfl, .mk (.cons (.mk h2 h3 h4 h5 hp) .nil)⟩ .missing .missing .missing) hs, ?_⟩
    rw [List.map_cons, List.map_cons, he, h7, ← hq]
    rfl

/-- The configuration of such a document. -/
theorem stack_says {L : Lib ℝ} {d : List (Str × Doc ℝ)} {bs : List (Block ℝ)} {ps : List (Str × ℝ)} {dtype outDtype : Option Str} (h : StackDoc L d bs ps dtype outDtype)
    (hne : bs ≠ []) : ∃ c, ConfSays L d c ∧ c.mergeMethod = cs!"passthrough" ∧ c.dtype = dtype ∧ c.outDtype = outDtype ∧ Shipped.StackConf c.toConfig bs ps ∧
      c.tokenizer = none ∧ c.tokenizerSource = none := by
  obtain ⟨l, hl, hml⟩ := h.slices
  obtain ⟨t, ht⟩ := h.template
  obtain ⟨r, hr⟩ := h.base
  obtain ⟨q, hq, rfl⟩ := h.parameters
  have ho := h.others
  simp only [List.forall_mem_cons] at ho
  obtain ⟨ho1, ho2, ho3, ho4, -⟩ := ho
  obtain ⟨ss, hss, hsc⟩ := says_slices hml
  obtain ⟨p, hp, hpc⟩ := says_numbers hq
  have hfill : Filled (some ss) := by
    cases ss with
    | nil => exact absurd (List.map_eq_nil_iff.1 hsc.symm) hne
    | cons e es => exact ⟨_, _, rfl⟩
  refine ⟨{ slices := some ss, mergeMethod := cs!"passthrough", baseModel := r, dtype, chatTemplate := t, outDtype, parameters := p },
    ⟨by rw [ho2]; exact .missing, by rw [hl]; exact .given (by simp) (.mk hss), by rw [ho1]; exact .missing, h.method, hr, h.dtype, by rw [ho3]; exact .missing,
      by rw [ho4]; exact .missing, ht, h.outDtype, hp, Or.inr (Or.inl ⟨(by rintro ⟨_, _, h⟩; cases h), hfill, (by rintro ⟨_, _, h⟩; cases h)⟩), Or.inl rfl⟩,
    rfl, rfl, rfl, ⟨congrArg some hsc, rfl, hpc, hne⟩, rfl, rfl⟩

/-- **C134** Stacking layers with `mergekit-yaml`, from the command line to the files.  The command line is right; the file it names is YAML that lists slices, each a range of layers of one
model, for the method "passthrough", with scales or without; the models are of one shipped architecture (of a single module), the output's configuration has as many
layers as the ranges together; every weight kept is there, and the data types exist.  Then the command starts a merge into the directory named, which succeeds and leaves exactly
the weights of the architecture with that many layers: what is before the layers is the first model's, what is after them the last one's, and each layer is the one at its
place in the ranges, renumbered - all times the scale where one is given, and unchanged otherwise. -/
theorem C134_stack (W : World) {line : List Str} (l : Line CommandLine.yaml.opts line) {k : CommandLine.Call} (hk : Enough CommandLine.yaml l.events l.args)
    (hk' : Called CommandLine.yaml l.events l.args k) {F O text : Str} (hargs : l.args = [F, O]) {d : List (Str × Doc ℝ)} (hfile : W.file F = some text)
    (hyaml : W.yaml text = some (.dict d)) {bs : List (Block ℝ)} {ps : List (Str × ℝ)} {dtype outDtype : Option Str} (hd : StackDoc W.lib d bs ps dtype outDtype)
    (hne : bs ≠ []) (hplain : ∀ b ∈ bs, b.model.Plain)
    {f : Family ℝ} (hf : ∀ c, ConfSays W.lib d c → W.family c = some f) (hs : IsShipped f) {n : String} {m : Arch.Module} (hm : f.modules = [(n, m)])
    (hdepth : (bs.map (fun b => b.stop - b.start)).sum = m.numLayers (f.outLayers n)) (own : Ref → Str → Tensor.Tensor ℝ)
    (hown : ∀ v b v', Comes m (bs.map (fun b => b.stop - b.start)).sum (fun r => m.numLayers (f.layers r n)) bs v b v' → Kept f v b v' →
      (LoadTask.wanted (dtype.map String.ofList) (Shipped.listed v')).execute W.casts (W.loaders b.model) = .ok (some (own b.model v'.name)) ∧
      (WholeMerge.storedType (outDtype.map String.ofList) (Shipped.listed v) = none ∨
        ∃ x t, WholeMerge.storedType (outDtype.map String.ofList) (Shipped.listed v) = some x ∧ (x, t) ∈ LoadTask.typeNames)) :
    ∃ p, yamlMain W line = .ok p ∧ p.out = O ∧ p.text = text ∧ p.options = k.merge ∧ W.family p.conf = some f ∧
      Stacks (p.family f) p.conf.toConfig (Comes m (bs.map (fun b => b.stop - b.start)).sum (fun r => m.numLayers (f.layers r n)) bs) (p.setup W)
        (fun v b v' z => ∃ y, WholeMerge.Stored (p.setup W) (Shipped.listed v) y z ∧ y.shape = (own b.model v'.name).shape ∧
          ∀ i, y.get i = (own b.model v'.name).get i * (said "scale" b.params ps).getD 1) := by
  obtain ⟨c, hc, hmm, hdt, hot, hst, htk, hts⟩ := stack_says hd hne
  have hread : read W.lib (.dict d) = .ok c := C130_accepts (.none (hd.others _ (by simp))) hc
  have hget : getMethod W.chance c.mergeMethod = some ⟨"passthrough".toList, [], [⟨"scale".toList, false, none⟩], passthroughTask⟩ := by
    rw [hmm]
    exact WholeMerge.getMethod_mem W.chance ⟨"passthrough".toList, _, _, _⟩ (WholeMerge.mem_static _ _ (by simp [WholeMerge.staticMethods]))
  have hmain := (C131_main W l ⟨k.merge, O, text, c, _⟩).2 ⟨F, k, _, hk, hk', hargs, rfl, hfile, hyaml, hread, hget⟩
  refine ⟨_, hmain, rfl, rfl, rfl, hf c hc, ?_⟩
  rw [hdepth] at hown ⊢
  refine Shipped.C119_stack (Prepared.family ⟨k.merge, O, text, c, ⟨"passthrough".toList, [], [⟨"scale".toList, false, none⟩], passthroughTask⟩⟩ f)
    ⟨hs.definition, hs.not_bert, hs.names⟩ hm rfl rfl c.toConfig bs ps hst hplain (le_of_eq hdepth)
    (Prepared.setup ⟨k.merge, O, text, c, ⟨"passthrough".toList, [], [⟨"scale".toList, false, none⟩], passthroughTask⟩⟩ W) rfl own ?_
  intro v b v' hcm hkp
  obtain ⟨g1, g2⟩ := hown v b v' hcm hkp
  rw [← hdt] at g1
  rw [← hot] at g2
  exact ⟨g1, g2⟩

/-! ## Llama, in names -/

/-- The module of Llama. -/
def llamaModule : Arch.Module := Arch.Data.llama.headD ⟨[], [], [], none, none⟩

/-- What is in a layer of Llama. -/
def inLayer : List Str :=
  [cs!"input_layernorm.weight", cs!"self_attn.q_proj.weight", cs!"self_attn.k_proj.weight", cs!"self_attn.v_proj.weight", cs!"self_attn.o_proj.weight",
   cs!"post_attention_layernorm.weight", cs!"mlp.up_proj.weight", cs!"mlp.gate_proj.weight", cs!"mlp.down_proj.weight"]

/-- The weight `model.layers.<i>.<s>`. -/
def layerWeight (i : Nat) (s : Str) : Arch.WeightInfo := { name := cs!"model.layers." ++ (Nat.toDigits 10 i ++ (cs!"." ++ s)) }

/-- Where the weights of a stack of Llama layers are from, by their names. -/
inductive LlamaComes (bs : List (Block ℝ)) : Arch.WeightInfo → Block ℝ → Arch.WeightInfo → Prop
  | embed {b} : bs.head? = some b → LlamaComes bs { name := cs!"model.embed_tokens.weight", isEmbed := true } b { name := cs!"model.embed_tokens.weight", isEmbed := true }
  | layer {j i : Nat} {b s} : (layersOf bs)[j]? = some (b, i) → s ∈ inLayer → LlamaComes bs (layerWeight j s) b (layerWeight i s)
  | norm {b} : bs.getLast? = some b → LlamaComes bs { name := cs!"model.norm.weight" } b { name := cs!"model.norm.weight" }
  | head {b} : bs.getLast? = some b → LlamaComes bs { name := cs!"lm_head.weight", isEmbed := true, optional := true, tiedNames := some [cs!"model.embed_tokens.weight"] } b { name := cs!"lm_head.weight", isEmbed := true, optional := true, tiedNames := some [cs!"model.embed_tokens.weight"] }

theorem llama_layers : llamaModule.layers = inLayer.map (fun s => { name := cs!"model.layers.${layer_index}." ++ s }) := by decide +kernel

theorem llama_stands (n i : Nat) {s : Str} (hs : s ∈ inLayer) (v : Arch.WeightInfo) :
    Stands llamaModule n (some (i : Int)) { name := cs!"model.layers.${layer_index}." ++ s } v ↔ v = layerWeight i s := by
  have key : Arch.substitute { name := cs!"model.layers.${layer_index}." ++ s } n (some (i : Int)) = .ok (layerWeight i s) := by
    simp only [inLayer, List.mem_cons, List.not_mem_nil, or_false] at hs
    rcases hs with rfl | rfl | rfl | rfl | rfl | rfl | rfl | rfl | rfl <;> rfl
  constructor
  · rintro ⟨x, hx, rfl⟩
    rw [key] at hx
    cases hx
    rfl
  · rintro rfl
    exact ⟨_, key, rfl⟩

theorem llama_outside {n : Nat} {w v : Arch.WeightInfo} (hw : w ∈ llamaModule.pre ∨ w ∈ llamaModule.post) : Stands llamaModule n none w v ↔ v = w := by
  have key : Arch.substitute w n none = .ok w := by
    rcases hw with hw | hw
    · have : llamaModule.pre = [{ name := cs!"model.embed_tokens.weight", isEmbed := true }] := by decide +kernel
      rw [this, List.mem_singleton] at hw
      subst hw
      rfl
    · have : llamaModule.post = [{ name := cs!"model.norm.weight" }, { name := cs!"lm_head.weight", isEmbed := true, optional := true, tiedNames := some [cs!"model.embed_tokens.weight"] }] := by decide +kernel
      rw [this] at hw
      simp only [List.mem_cons, List.not_mem_nil, or_false] at hw
      rcases hw with rfl | rfl <;> rfl
  constructor
  · rintro ⟨x, hx, rfl⟩
    rw [key] at hx
    cases hx
    rfl
  · rintro rfl
    exact ⟨_, key, rfl⟩

/-- **C134** For Llama the claim of `C134_stack` in names: the embeddings are the first model's, `model.norm.weight` and `lm_head.weight` (if it is stored there) the last one's,
and `model.layers.<j>.<s>` is `model.layers.<i>.<s>` of the model where layer `j` is from, `i` being its number there. -/
theorem C134_llama (bs : List (Block ℝ)) (total : Nat) (layers : Ref → Nat) (v : Arch.WeightInfo) (b : Block ℝ) (v' : Arch.WeightInfo) :
    Comes llamaModule total layers bs v b v' ↔ LlamaComes bs v b v' := by
  have hpre : llamaModule.pre = [{ name := cs!"model.embed_tokens.weight", isEmbed := true }] := by decide +kernel
  have hpost : llamaModule.post = [{ name := cs!"model.norm.weight" }, { name := cs!"lm_head.weight", isEmbed := true, optional := true, tiedNames := some [cs!"model.embed_tokens.weight"] }] := by decide +kernel
  constructor
  · intro h
    cases h with
    | first hb ht hv =>
      obtain rfl := (llama_outside (Or.inl ht)).1 hv
      rw [hpre, List.mem_singleton] at ht
      subst ht
      exact .embed hb
    | layer hj ht hv hv' =>
      rw [llama_layers] at ht
      obtain ⟨s, hs, rfl⟩ := List.mem_map.1 ht
      obtain rfl := (llama_stands _ _ hs _).1 hv
      obtain rfl := (llama_stands _ _ hs _).1 hv'
      exact .layer hj hs
    | last hb ht hv =>
      obtain rfl := (llama_outside (Or.inr ht)).1 hv
      rw [hpost] at ht
      simp only [List.mem_cons, List.not_mem_nil, or_false] at ht
      rcases ht with rfl | rfl
      · exact .norm hb
      · exact .head hb
  · intro h
    cases h with
    | embed hb => exact .first hb (by rw [hpre]; simp) ((llama_outside (Or.inl (by rw [hpre]; simp))).2 rfl)
    | layer hj hs =>
      exact .layer hj (by rw [llama_layers]; exact List.mem_map.2 ⟨_, hs, rfl⟩) ((llama_stands _ _ hs _).2 rfl) ((llama_stands _ _ hs _).2 rfl)
    | norm hb => exact .last hb (by rw [hpost]; simp) ((llama_outside (Or.inr (by rw [hpost]; simp))).2 rfl)
    | head hb => exact .last hb (by rw [hpost]; simp) ((llama_outside (Or.inr (by rw [hpost]; simp))).2 rfl)

/-! ## A concrete case: three layers of two Llama models -/

/-- Llama: the models have two layers, the output three. -/
def tall : Family ℝ := ⟨[("default", llamaModule)], fun _ => 3, fun _ _ => 2, fun _ => [cs!"lm_head.weight"], [], []⟩

/-- Layers 0 and 1 of "a", then layer 1 of "b" times two. -/
noncomputable def tallBlocks : List (Block ℝ) := [⟨a, 0, 2, []⟩, ⟨b, 1, 2, [(cs!"scale", 2)]⟩]

/-- `slices: [{sources: [{model: a, layer_range: [0, 2]}]}, {sources: [{model: b, layer_range: [1, 2], parameters: {scale: 2}}]}]`, `merge_method: passthrough`. -/
noncomputable def tallDoc : List (Str × Doc ℝ) :=
  [(cs!"slices", .list [.dict [(cs!"sources", .list [.dict [(cs!"model", .str cs!"a"), (cs!"layer_range", .list [.int 0, .int 2])]])],
      .dict [(cs!"sources", .list [.dict [(cs!"model", .str cs!"b"), (cs!"layer_range", .list [.int 1, .int 2]), (cs!"parameters", .dict [(cs!"scale", .float 2)])]])]]),
   (cs!"merge_method", .str cs!"passthrough")]

/-- Tensors that can be told apart: "a" gives the length of the name, "b" a hundred more. -/
def tallOwn (m : Ref) (name : Str) : Tensor.Tensor ℝ := ⟨[1], fun _ => (if m = a then 0 else 100) + name.length⟩

/-- A world with that file and those models. -/
noncomputable def tallWorld (ch : WholeMerge.Chance) (lib : Lib ℝ) : World where
  file f := if f = cs!"c" then some cs!"slices: ..." else none
  yaml _ := some (.dict tallDoc)
  lib := lib
  chance := ch
  family _ := some tall
  casts := ⟨fun _ => .float32, fun _ x => x⟩
  loaders m := ⟨Shipped.llamaWeights.map (fun v => String.ofList v.name), fun name => .ok (tallOwn m name.toList), fun _ => .ok none⟩

theorem tallDoc_says (lib : Lib ℝ) : StackDoc lib tallDoc tallBlocks [] none none where
  method := ⟨_, rfl, .mk _⟩
  slices := by
    refine ⟨_, rfl, .cons ⟨_, _, _, none, rfl, ⟨_, rfl, .text rfl⟩, rfl, .int 0, .int 2, .missing, rfl⟩
      (.cons ⟨_, _, _, some _, rfl, ⟨_, rfl, .text rfl⟩, rfl, .int 1, .int 2, .given (by simp) (.mk (.cons ⟨rfl, .float _⟩ .nil)), rfl⟩ .nil)⟩
  base := ⟨none, .missing⟩
  parameters := ⟨none, .missing, rfl⟩
  dtype := .missing
  outDtype := .missing
  template := ⟨none, .missing⟩
  others := by
    intro k hk
    simp only [List.mem_cons, List.not_mem_nil, or_false] at hk
    rcases hk with rfl | rfl | rfl | rfl <;> rfl

theorem tall_shipped : IsShipped tall := ⟨Shipped.llama_shipped.definition, Shipped.llama_shipped.not_bert, Shipped.llama_shipped.names⟩

example : (layersOf tallBlocks).map (fun x => (x.1.model, x.2)) = [(a, 0), (a, 1), (b, 1)] := by
  simp [layersOf, tallBlocks, List.range_succ]

/-- The third layer of the result is the second of "b". -/
theorem tall_layer : (layersOf tallBlocks)[2]? = some (⟨b, 1, 2, [(cs!"scale", 2)]⟩, 1) := by
  simp [layersOf, tallBlocks, List.range_succ]

theorem tall_bound {j i : Nat} {x : Block ℝ} (h : (layersOf tallBlocks)[j]? = some (x, i)) : i < 2 := by
  have := List.mem_of_getElem? h
  simp only [layersOf, tallBlocks, List.flatMap_cons, List.flatMap_nil, List.append_nil, List.mem_append, List.mem_map, List.mem_range] at this
  rcases this with ⟨o, ho, h⟩ | ⟨o, ho, h⟩ <;> cases h <;> omega

/-- All hypotheses are met; and the query projection of layer 2 is in the end that of layer 1 of "b", times two. -/
theorem tall_case (ch : WholeMerge.Chance) (lib : Lib ℝ) :
    ∃ p, yamlMain (tallWorld ch lib) [cs!"-vj4", cs!"c", cs!"--no-cuda", cs!"o", cs!"--device", cs!"cuda:1", cs!"--cuda"] = .ok p ∧ p.out = cs!"o" ∧
      Stacks (p.family tall) p.conf.toConfig (LlamaComes tallBlocks) (p.setup (tallWorld ch lib))
        (fun v b' v' z => ∃ y, WholeMerge.Stored (p.setup (tallWorld ch lib)) (Shipped.listed v) y z ∧
          (v.name = cs!"model.layers.2.self_attn.q_proj.weight" → b'.model = b → v'.name = cs!"model.layers.1.self_attn.q_proj.weight" → y.get 0 = (100 + 38) * 2)) ∧
      LlamaComes tallBlocks (layerWeight 2 cs!"self_attn.q_proj.weight") ⟨b, 1, 2, [(cs!"scale", 2)]⟩ (layerWeight 1 cs!"self_attn.q_proj.weight") := by
  have hcall : ∃ k, CommandLine.call CommandLine.yaml [cs!"-vj4", cs!"c", cs!"--no-cuda", cs!"o", cs!"--device", cs!"cuda:1", cs!"--cuda"] = .ok k := ⟨_, rfl⟩
  obtain ⟨k, hk⟩ := hcall
  obtain ⟨h1, h2⟩ := (CommandLine.C128_call (by simp [CommandLine.commands]) CommandLine.exampleLine k).1 hk
  have hba : b ≠ a := by decide +kernel
  have hknown : ∀ v b' v', LlamaComes tallBlocks v b' v' → (∃ u ∈ Shipped.llamaWeights, u.name = v'.name) ∧ v'.forceDtype = none ∧ v.forceDtype = none ∧ v'.name ≠ [] := by
    intro v b' v' h
    cases h with
    | embed => exact ⟨by decide +kernel, rfl, rfl, by simp⟩
    | layer hj hs =>
      refine ⟨?_, rfl, rfl, by simp [layerWeight]⟩
      have hall : ∀ i < 2, ∀ s ∈ inLayer, ∃ u ∈ Shipped.llamaWeights, u.name = (layerWeight i s).name := by decide +kernel
      exact hall _ (tall_bound hj) _ hs
    | norm => exact ⟨by decide +kernel, rfl, rfl, by simp⟩
    | head => exact ⟨by decide +kernel, rfl, rfl, by simp⟩
  obtain ⟨p, q1, q2, -, -, -, q3⟩ := C134_stack (tallWorld ch lib) CommandLine.exampleLine h1 h2 (F := cs!"c") (O := cs!"o") (text := cs!"slices: ...") rfl rfl rfl
    (tallDoc_says lib) (by simp [tallBlocks])
    (by
      intro x hx
      simp only [tallBlocks, List.mem_cons, List.not_mem_nil, or_false] at hx
      rcases hx with rfl | rfl
      all_goals exact ⟨⟨by unfold ModelRef.NoSep; decide, (by rintro r hr; cases hr)⟩, (by rintro l hl; cases hl), rfl⟩)
    (f := tall) (fun _ _ => rfl) tall_shipped (n := "default") (m := llamaModule) rfl (by simp [tallBlocks]; rfl) tallOwn
    (by
      intro v b' v' hcm _
      rw [C134_llama] at hcm
      obtain ⟨⟨u, hu, hun⟩, hf', hf, hne⟩ := hknown v b' v' hcm
      refine ⟨?_, Or.inl (by simp [WholeMerge.storedType, Shipped.listed, hf])⟩
      have hres : (LoadTask.wanted none (Shipped.listed v')).resolve ((tallWorld ch lib).loaders b'.model) = some (String.ofList v'.name) := by
        unfold LoadTask.LoadTensor.resolve
        simp only [LoadTask.wanted, Shipped.listed, List.cons_append, List.find?_cons]
        have : String.ofList v'.name ∈ ((tallWorld ch lib).loaders b'.model).names := List.mem_map.2 ⟨u, hu, by rw [hun]⟩
        rw [decide_eq_true this]
      have hne' : String.ofList v'.name ≠ "" := by
        intro h
        apply hne
        have := congrArg String.toList h
        simpa using this
      unfold LoadTask.LoadTensor.execute LoadTask.LoadTensor.raw
      rw [Option.map_none, hres]
      simp only [if_neg hne']
      simp only [LoadTask.wanted, Shipped.listed, hf', Option.map_none, true_or, if_true, LoadTask.toDtype, tallWorld, String.toList_ofList])
  have hcomes : Comes llamaModule (tallBlocks.map (fun b => b.stop - b.start)).sum (fun r => llamaModule.numLayers (tall.layers r "default")) tallBlocks = LlamaComes tallBlocks := by
    funext v b' v'
    exact propext (C134_llama _ _ _ _ _ _)
  rw [hcomes] at q3
  refine ⟨p, q1, q2, ?_, .layer tall_layer (by simp [inLayer])⟩
  intro group prio pop conf size hstd
  obtain ⟨mods, h1, trace, h2, fs, h3, h4, idx, h5, h6, h7⟩ := q3 group prio pop conf size hstd
  refine ⟨mods, h1, trace, h2, fs, h3, h4, idx, h5, h6, ?_⟩
  intro v b' v' hcm hkp
  obtain ⟨z, ⟨y, y1, y2, y3⟩, h8⟩ := h7 v b' v' hcm hkp
  refine ⟨z, ⟨y, y1, ?_⟩, h8⟩
  intro _ e2 e3
  have hsc : (said "scale" b'.params []).getD 1 = (2 : ℝ) := by
    cases hcm with
    | embed hb => simp [tallBlocks] at hb; subst hb; exact absurd e2 hba.symm
    | layer hj hs =>
      have := List.mem_of_getElem? hj
      simp only [layersOf, tallBlocks, List.flatMap_cons, List.flatMap_nil, List.append_nil, List.mem_append, List.mem_map, List.mem_range] at this
      rcases this with ⟨o, ho, h⟩ | ⟨o, ho, h⟩
      · cases h; exact absurd e2 hba.symm
      · cases h; rfl
    | norm hb => simp [tallBlocks] at hb; subst hb; rfl
    | head hb => simp [tallBlocks] at hb; subst hb; rfl
  rw [y3 0, hsc, e2, e3]
  simp [tallOwn, hba]

end Verif.Main
