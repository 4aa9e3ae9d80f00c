import Verif.Model.Main
import Verif.Props.CommandLine
import Verif.Props.Document
import Verif.Props.ShippedMerge
import Verif.Props.Registry

/-! # C131: `mergekit-yaml` from the command line to the files -/

namespace Verif.Main

open Verif.ModelRef (Str Ref)
open Verif.Document
open Verif.WholeMerge (getMethod MethodErr)
open Verif.CommandLine (Line Enough Called)
open Verif.Shipped (Family IsShipped Merges Present)

/-! ## What is claimed -/

/-- A document that asks for a linear merge of models (`es`: the references and their weights), and for nothing else but data types and perhaps normalization. -/
structure LinearDoc (L : Lib ℝ) (d : List (Str × Doc ℝ)) (es : List (Ref × ℝ)) (nz : Bool) (dtype outDtype : Option Str) : Prop where
  method : Has Text d cs!"merge_method" cs!"linear"
  models : ∃ l, d.lookup cs!"models" = some (.list l) ∧ List.Forall₂ (fun m e => ∃ x v, m = .dict x ∧ Has RefSays x cs!"model" e.1 ∧
    x.lookup cs!"parameters" = some (.dict [(cs!"weight", v)]) ∧ Number L v e.2) l es
  normalize : (d.lookup cs!"parameters" = none ∧ nz = true) ∨ ∃ v x, d.lookup cs!"parameters" = some (.dict [(cs!"normalize", v)]) ∧ Number L v x ∧ (nz = true ↔ x ≠ 0)
  dtype : Maybe Text (d.lookup cs!"dtype") dtype
  outDtype : Maybe Text (d.lookup cs!"out_dtype") outDtype
  template : ∃ t, Maybe Text (d.lookup cs!"chat_template") t
  others : ∀ k ∈ [cs!"slices", cs!"modules", cs!"base_model", cs!"tokenizer_source", cs!"tokenizer"], d.lookup k = none

/-! ## The command -/

theorem argument_first {k : CommandLine.Call} {F O : Str} (h : k.args = CommandLine.yaml.args.zip [F, O]) : argument k cs!"config_file" = F ∧ argument k cs!"out_path" = O := by
  unfold argument
  rw [h]
  exact ⟨rfl, rfl⟩

/-- **C131** What the command runs a merge with: exactly if the command line is right, the file it names is there and is YAML that says a configuration, and the method
is one there is; and then with that configuration, that method, the options given and the place given. -/
theorem C131_main (W : World) {line : List Str} (l : Line CommandLine.yaml.opts line) (p : Prepared) :
    yamlMain W line = .ok p ↔ ∃ F k d, Enough CommandLine.yaml l.events l.args ∧ Called CommandLine.yaml l.events l.args k ∧ l.args = [F, p.out] ∧ k.merge = p.options ∧
      W.file F = some p.text ∧ W.yaml p.text = some d ∧ read W.lib d = .ok p.conf ∧ getMethod W.chance p.conf.mergeMethod = some p.method := by
  have hmem : CommandLine.yaml ∈ CommandLine.commands := by simp [CommandLine.commands]
  have htwo : ∀ a : List Str, a.length = 2 → ∃ F O, a = [F, O] := by
    intro a ha
    match a, ha with
    | [F, O], _ => exact ⟨F, O, rfl⟩
  constructor
  · intro h
    unfold yamlMain at h
    cases hk : CommandLine.call CommandLine.yaml line with
    | error e => rw [hk] at h; cases h
    | ok k =>
      rw [hk] at h
      simp only at h
      obtain ⟨h1, h2⟩ := (CommandLine.C128_call hmem l k).1 hk
      obtain ⟨F, O, hFO⟩ := htwo l.args h1.args
      have hargs := h2.args
      rw [hFO] at hargs
      obtain ⟨ha, hb⟩ := argument_first hargs
      rw [ha, hb] at h
      cases hf : W.file F with
      | none => rw [hf] at h; cases h
      | some text =>
        rw [hf] at h
        simp only at h
        cases hy : W.yaml text with
        | none => rw [hy] at h; cases h
        | some d =>
          rw [hy] at h
          simp only at h
          cases hr : read W.lib d with
          | error e => rw [hr] at h; cases h
          | ok c =>
            rw [hr] at h
            simp only at h
            cases hg : getMethod W.chance c.mergeMethod with
            | none => rw [hg] at h; cases h
            | some m =>
              rw [hg] at h
              cases h
              exact ⟨F, k, d, h1, h2, hFO, rfl, hf, hy, hr, hg⟩
  · rintro ⟨F, k, d, h1, h2, hFO, ho, hf, hy, hr, hg⟩
    have hk := (CommandLine.C128_call hmem l k).2 ⟨h1, h2⟩
    have hargs := h2.args
    rw [hFO] at hargs
    obtain ⟨ha, hb⟩ := argument_first hargs
    unfold yamlMain
    rw [hk]
    simp only
    rw [ha, hb, hf]
    simp only
    rw [hy]
    simp only
    rw [hr]
    simp only
    rw [hg]
    obtain ⟨_, _, _, _, _⟩ := p
    cases ho
    rfl

/-- **C131** In particular: if a merge is started, the configuration is what the document says (C130), and the method is the one of that name. -/
theorem C131_started (W : World) {line : List Str} (l : Line CommandLine.yaml.opts line) {p : Prepared} (h : yamlMain W line = .ok p) :
    ∃ F d, l.args = [F, p.out] ∧ W.file F = some p.text ∧ W.yaml p.text = some (.dict d) ∧ ConfSays W.lib d p.conf ∧ p.method ∈ WholeMerge.registry W.chance ∧
      p.method.name = p.conf.mergeMethod := by
  obtain ⟨F, k, d, -, -, h3, -, h5, h6, h7, h8⟩ := (C131_main W l p).1 h
  have hd : ∃ x, d = .dict x := by
    cases d with
    | dict x => exact ⟨x, rfl⟩
    | _ => cases h7
  obtain ⟨x, rfl⟩ := hd
  refine ⟨F, x, h3, h5, h6, C130_reads h7, ?_⟩
  unfold getMethod at h8
  exact ⟨List.mem_of_find?_eq_some h8, by simpa using List.find?_some h8⟩

/-- **C131** And a merge is started if the line is right, the file is there, its document says a configuration (with sources of tokens in one form each, see C130) and names a method
there is; with a name that no method has, none is. -/
theorem C131_starts (W : World) {line : List Str} (l : Line CommandLine.yaml.opts line) {k : CommandLine.Call} (hk : Enough CommandLine.yaml l.events l.args)
    (hk' : Called CommandLine.yaml l.events l.args k) {F O text : Str} (hargs : l.args = [F, O]) {d : List (Str × Doc ℝ)} (hfile : W.file F = some text)
    (hyaml : W.yaml text = some (.dict d)) (htok : PlainTokens W.lib d) {c : Conf ℝ} (hc : ConfSays W.lib d c) :
    (∀ m ∈ WholeMerge.registry W.chance, m.name = c.mergeMethod → yamlMain W line = .ok ⟨k.merge, O, text, c, m⟩) ∧
      ((∀ m ∈ WholeMerge.registry W.chance, m.name ≠ c.mergeMethod) → ∀ p, yamlMain W line ≠ .ok p) := by
  have hread := C130_accepts htok hc
  constructor
  · intro m hm hn
    exact (C131_main W l _).2 ⟨F, k, _, hk, hk', hargs, rfl, hfile, hyaml, hread, by rw [← hn]; exact WholeMerge.getMethod_mem _ m hm⟩
  · intro hno p hp
    obtain ⟨F', d', h3, h5, h6, h7, h8, h9⟩ := C131_started W l hp
    obtain ⟨F'', k', d'', -, -, g3, -, g5, g6, g7, g8⟩ := (C131_main W l p).1 hp
    rw [hargs] at g3
    injection g3 with e1 e2
    subst e1
    rw [hfile] at g5
    cases g5
    rw [hyaml] at g6
    cases g6
    rw [hread] at g7
    cases g7
    exact hno _ h8 h9

/-- **C131** The run uses the method asked for, with the parameters that it declares: all that is proved about merges with the methods of the table (C113: `Uses`) is
about the runs that the command starts. -/
theorem C131_uses (W : World) {line : List Str} {p : Prepared} (h : yamlMain W line = .ok p) (f : Family ℝ) :
    WholeMerge.Uses W.chance (String.ofList p.conf.mergeMethod) (p.family f).env (p.setup W) := by
  unfold yamlMain at h
  cases hk : CommandLine.call CommandLine.yaml line with
  | error e => rw [hk] at h; cases h
  | ok k =>
    rw [hk] at h
    simp only at h
    cases hf : W.file (argument k cs!"config_file") with
    | none => rw [hf] at h; cases h
    | some text =>
      rw [hf] at h
      simp only at h
      cases hy : W.yaml text with
      | none => rw [hy] at h; cases h
      | some d =>
        rw [hy] at h
        simp only at h
        cases hr : read W.lib d with
        | error e => rw [hr] at h; cases h
        | ok c =>
          rw [hr] at h
          simp only at h
          cases hg : getMethod W.chance c.mergeMethod with
          | none => rw [hg] at h; cases h
          | some m =>
            rw [hg] at h
            cases h
            exact ⟨m, by rw [String.toList_ofList]; exact hg, rfl, rfl, rfl⟩

/-! ## Linear merges -/

theorem lookup_nodup {B : Type} : ∀ {l : List (Ref × B)}, (l.map Prod.fst).Nodup → ∀ {e}, e ∈ l → l.lookup e.1 = some e.2
  | [], _, _, he => by cases he
  | a :: l, hn, e, he => by
    rw [List.map_cons, List.nodup_cons] at hn
    rcases List.mem_cons.1 he with rfl | he
    · simp [List.lookup]
    · have : e.1 ≠ a.1 := fun h => hn.1 (h ▸ List.mem_map.2 ⟨e, he, rfl⟩)
      rw [List.lookup_cons]
      simp only [beq_eq_false_iff_ne.2 this]
      exact lookup_nodup hn.2 he

/-- The configuration of such a document. -/
theorem linear_says {L : Lib ℝ} {d : List (Str × Doc ℝ)} {es : List (Ref × ℝ)} {nz : Bool} {dtype outDtype : Option Str} (h : LinearDoc L d es nz dtype outDtype) (hne : es ≠ []) :
    ∃ c, ConfSays L d c ∧ c.mergeMethod = cs!"linear" ∧ c.dtype = dtype ∧ c.outDtype = outDtype ∧
      c.models = some (es.map (fun e => ⟨e.1, some [(cs!"weight", .num (.one e.2))]⟩)) ∧ c.slices = none ∧ c.modules = none ∧ c.baseModel = none ∧ c.tokenizer = none ∧
      c.tokenizerSource = none ∧ (c.parameters = none ∧ nz = true ∨ ∃ x, c.parameters = some [(cs!"normalize", .num (.one x))] ∧ (nz = true ↔ x ≠ 0)) := by
  obtain ⟨l, hl, hml⟩ := h.models
  obtain ⟨t, ht⟩ := h.template
  have ho := h.others
  simp only [List.forall_mem_cons] at ho
  obtain ⟨ho1, ho2, ho3, ho4, ho5, -⟩ := ho
  have hmods : Maybe (Listed (ModelSays L)) (d.lookup cs!"models") (some (es.map (fun e => (⟨e.1, some [(cs!"weight", .num (.one e.2))]⟩ : InModel ℝ)))) := by
    rw [hl]
    refine .given (by simp) (.mk ?_)
    rw [List.forall₂_map_right_iff]
    refine hml.imp ?_
    rintro m e ⟨x, v, rfl, hm, hp, hn⟩
    refine .mk hm ?_
    rw [hp]
    exact .given (by simp) (.mk (.cons ⟨rfl, .one hn⟩ .nil))
  have hpar : ∃ pa, Maybe (Mapped (Says L)) (d.lookup cs!"parameters") pa ∧ (pa = none ∧ nz = true ∨ ∃ x, pa = some [(cs!"normalize", .num (.one x))] ∧ (nz = true ↔ x ≠ 0)) := by
    rcases h.normalize with ⟨h0, hz⟩ | ⟨v, x, hv, hx, hz⟩
    · exact ⟨none, by rw [h0]; exact .missing, Or.inl ⟨rfl, hz⟩⟩
    · exact ⟨_, by rw [hv]; exact .given (by simp) (.mk (.cons ⟨rfl, .one hx⟩ .nil)), Or.inr ⟨x, rfl, hz⟩⟩
  obtain ⟨pa, hpa, hpa'⟩ := hpar
  have hfill : Filled (some (es.map (fun e => (⟨e.1, some [(cs!"weight", .num (.one e.2))]⟩ : InModel ℝ)))) := by
    cases es with
    | nil => exact absurd rfl hne
    | cons e es => exact ⟨_, _, rfl⟩
  refine ⟨{ models := some (es.map (fun e => ⟨e.1, some [(cs!"weight", .num (.one e.2))]⟩)), mergeMethod := cs!"linear", dtype, chatTemplate := t, outDtype, parameters := pa },
    ⟨by rw [ho2]; exact .missing, by rw [ho1]; exact .missing, hmods, h.method, by rw [ho3]; exact .missing, h.dtype, by rw [ho4]; exact .missing, by rw [ho5]; exact .missing, ht,
      h.outDtype, hpa, Or.inr (Or.inr ⟨(by rintro ⟨_, _, h⟩; cases h), (by rintro ⟨_, _, h⟩; cases h), hfill⟩), Or.inl rfl⟩, rfl, rfl, rfl, rfl, rfl, rfl, rfl, rfl, rfl, hpa'⟩

/-- **C131** A linear merge with `mergekit-yaml`, from the command line to the files.  The command line is right; the file it names is YAML that lists models with a weight
each; the models are of one shipped architecture and size, and every weight of the architecture is there in all of them in one shape; the weights do not add up to zero
(unless normalization is off), and the data types exist.  Then the command starts a merge into the directory named, which succeeds and leaves exactly the weights of the
architecture, each the weighted mean (or sum) of the models' tensors of that name. -/
theorem C131_linear (W : World) {line : List Str} (l : Line CommandLine.yaml.opts line) {k : CommandLine.Call} (hk : Enough CommandLine.yaml l.events l.args)
    (hk' : Called CommandLine.yaml l.events l.args k) {F O text : Str} (hargs : l.args = [F, O]) {d : List (Str × Doc ℝ)} (hfile : W.file F = some text)
    (hyaml : W.yaml text = some (.dict d)) {es : List (Ref × ℝ)} {nz : Bool} {dtype outDtype : Option Str} (hd : LinearDoc W.lib d es nz dtype outDtype)
    (hne : es ≠ []) (honce : (es.map Prod.fst).Nodup) (hplain : ∀ e ∈ es, e.1.Plain) (htot : nz = true → (es.map Prod.snd).sum ≠ 0)
    {f : Family ℝ} (hf : ∀ c, ConfSays W.lib d c → W.family c = some f) (hs : IsShipped f)
    (hlayers : ∀ e ∈ es, ∀ n ∈ f.modules.map Prod.fst, f.layers e.1 n = f.outLayers n)
    {ws : List Arch.WeightInfo} (hws : Arch.allWeights f.pairs = .ok ws) (own : Ref → Str → Tensor.Tensor ℝ)
    (hown : ∀ v ∈ ws, Present f (es.map Prod.fst) v →
      (∀ e ∈ es, (LoadTask.wanted (dtype.map String.ofList) (Shipped.listed v)).execute W.casts (W.loaders e.1) = .ok (some (own e.1 v.name))) ∧
      (∃ sh, ∀ e ∈ es, (own e.1 v.name).shape = sh) ∧
      (WholeMerge.storedType (outDtype.map String.ofList) (Shipped.listed v) = none ∨
        ∃ n t, WholeMerge.storedType (outDtype.map String.ofList) (Shipped.listed v) = some n ∧ (n, t) ∈ LoadTask.typeNames)) :
    ∃ p, yamlMain W line = .ok p ∧ p.out = O ∧ p.text = text ∧ p.options = k.merge ∧ W.family p.conf = some f ∧
      Merges (p.family f) p.conf.toConfig ws (es.map Prod.fst) (p.setup W) (fun v z => ∃ y, WholeMerge.Stored (p.setup W) (Shipped.listed v) y z ∧
        (∀ e ∈ es, y.shape = (own e.1 v.name).shape) ∧
        ∀ i, y.get i * (if nz then (es.map Prod.snd).sum else 1) = (es.map (fun e => e.2 * (own e.1 v.name).get i)).sum) := by
  obtain ⟨c, hc, hmm, hdt, hot, hms, hsl, hmo, hbm, htk, hts, hpar⟩ := linear_says hd hne
  have hread : read W.lib (.dict d) = .ok c := C130_accepts (.none (hd.others _ (by simp))) hc
  have hget : getMethod W.chance c.mergeMethod = some ⟨"linear".toList, [⟨"normalize".toList, false, some (WholeMerge.flag true)⟩], [⟨"weight".toList, true, none⟩], WholeMerge.linearTask⟩ := by
    rw [hmm]
    exact WholeMerge.getMethod_mem W.chance ⟨"linear".toList, _, _, _⟩ (WholeMerge.mem_static _ _ (by simp [WholeMerge.staticMethods]))
  have hmain := (C131_main W l ⟨k.merge, O, text, c, _⟩).2 ⟨F, k, _, hk, hk', hargs, rfl, hfile, hyaml, hread, hget⟩
  refine ⟨_, hmain, rfl, rfl, rfl, hf c hc, ?_⟩
  have hlook : ∀ e ∈ es, (es.lookup e.1).getD 0 = e.2 := fun e he => by rw [lookup_nodup honce he]; rfl
  have hfst : (es.map (fun e => (⟨e.1, [(cs!"weight", .scalar (.num e.2))]⟩ : Config.InModel ℝ))).map (·.model) = es.map Prod.fst := by
    rw [List.map_map]; rfl
  have hsimple : WholeMerge.Simple c.toConfig (es.map (fun e => (⟨e.1, [(cs!"weight", .scalar (.num e.2))]⟩ : Config.InModel ℝ))) (fun r => (es.lookup r).getD 0) nz := by
    refine ⟨?_, ?_, ?_, ?_, by simpa using hne, by rw [hfst]; exact honce, ?_⟩
    · unfold Conf.toConfig
      rw [hms]
      simp only [Option.map_some, List.map_map]
      rfl
    · unfold Conf.toConfig; rw [hsl]; rfl
    · exact hbm
    · unfold Conf.toConfig
      rcases hpar with ⟨h0, rfl⟩ | ⟨x, hx, hz⟩
      · rw [h0]; exact .unset
      · rw [hx]
        by_cases hx0 : x = 0
        · subst hx0
          have : nz = false := by simpa using hz
          subst this
          exact .off
        · have : nz = true := hz.2 hx0
          subst this
          exact .on x hx0
    · intro m hm
      obtain ⟨e, he, rfl⟩ := List.mem_map.1 hm
      simp only
      rw [hlook e he]
      rfl
  have key := Shipped.C119_linear (Prepared.family ⟨k.merge, O, text, c,
      ⟨"linear".toList, [⟨"normalize".toList, false, some (WholeMerge.flag true)⟩], [⟨"weight".toList, true, none⟩], WholeMerge.linearTask⟩⟩ f) ⟨hs.definition, hs.not_bert, hs.names⟩ ⟨by simp [Prepared.family, Family.env, WholeMerge.flag], rfl⟩ c.toConfig _ _ nz hsimple
    (by
      intro m hm
      obtain ⟨e, he, rfl⟩ := List.mem_map.1 hm
      exact hplain e he)
    (by
      intro m hm
      obtain ⟨e, he, rfl⟩ := List.mem_map.1 hm
      exact hlayers e he)
    ws hws (Prepared.setup ⟨k.merge, O, text, c, ⟨"linear".toList, [⟨"normalize".toList, false, some (WholeMerge.flag true)⟩], [⟨"weight".toList, true, none⟩], WholeMerge.linearTask⟩⟩ W) rfl own
    (by
      rw [hfst]
      intro v hv hp
      obtain ⟨g1, ⟨sh, g2⟩, g3⟩ := hown v hv hp
      refine ⟨?_, ⟨sh, ?_⟩, ?_⟩
      · intro m hm
        obtain ⟨e, he, rfl⟩ := List.mem_map.1 hm
        have := g1 e he
        rw [← hdt] at this
        exact this
      · intro m hm
        obtain ⟨e, he, rfl⟩ := List.mem_map.1 hm
        exact g2 e he
      · rw [← hot] at g3
        exact g3)
    (by
      intro hz
      have : (es.map (fun e => (⟨e.1, [(cs!"weight", .scalar (.num e.2))]⟩ : Config.InModel ℝ))).map (fun m => (es.lookup m.model).getD 0) = es.map Prod.snd := by
        rw [List.map_map]
        exact List.map_congr_left hlook
      rw [this]
      exact htot hz)
  rw [hfst] at key
  intro group prio pop conf size hstd
  obtain ⟨mods, h1, trace, h2, fs, h3, h4, idx, h5, h6, h7⟩ := key group prio pop conf size hstd
  refine ⟨mods, h1, trace, h2, fs, h3, h4, idx, h5, h6, ?_⟩
  intro v hv hp
  obtain ⟨z, ⟨y, y1, y2, y3⟩, h8⟩ := h7 v hv hp
  refine ⟨z, ⟨y, y1, fun e he => y2 _ (List.mem_map.2 ⟨e, he, rfl⟩), ?_⟩, h8⟩
  intro i
  have := y3 i
  unfold WholeTok.Mixed at this
  have e1 : (es.map (fun e => (⟨e.1, [(cs!"weight", .scalar (.num e.2))]⟩ : Config.InModel ℝ))).map (fun m => ((es.lookup m.model).getD 0, (own m.model v.name).get i)) =
      es.map (fun e => (e.2, (own e.1 v.name).get i)) := by
    rw [List.map_map]
    exact List.map_congr_left (fun e he => by simp only [Function.comp_apply]; rw [hlook e he])
  rw [e1] at this
  simp only [List.map_map] at this
  by_cases hz : nz = true
  · rw [if_pos hz] at this ⊢
    exact this
  · rw [if_neg hz] at this ⊢
    rw [mul_one]
    exact this

/-! ## A concrete case: two Llama models -/

/-- Llama with two layers, as in `Props/ShippedMerge.lean`. -/
def llama : Family ℝ := ⟨Shipped.llama.modules, Shipped.llama.outLayers, Shipped.llama.layers, Shipped.llama.stored, [], []⟩

theorem llama_shipped : IsShipped llama := ⟨Shipped.llama_shipped.definition, Shipped.llama_shipped.not_bert, Shipped.llama_shipped.names⟩

/-- `models: [{model: a, parameters: {weight: 1}}, {model: b, parameters: {weight: 3}}]`, `merge_method: linear`. -/
def linearDoc : List (Str × Doc ℝ) :=
  [(cs!"models", .list [.dict [(cs!"model", .str cs!"a"), (cs!"parameters", .dict [(cs!"weight", .float 1)])],
     .dict [(cs!"model", .str cs!"b"), (cs!"parameters", .dict [(cs!"weight", .float 3)])]]), (cs!"merge_method", .str cs!"linear")]

/-- The two references. -/
def a : Ref := ⟨⟨cs!"a", none⟩, none, none⟩
/-- The other one. -/
def b : Ref := ⟨⟨cs!"b", none⟩, none, none⟩

/-- A world with that file, and models `a` with 2 in every place, `b` with 10. -/
def world (ch : WholeMerge.Chance) (lib : Lib ℝ) : World where
  file f := if f = cs!"c" then some cs!"models: ..." else none
  yaml _ := some (.dict linearDoc)
  lib := lib
  chance := ch
  family _ := some llama
  casts := ⟨fun _ => .float32, fun _ x => x⟩
  loaders m := ⟨Shipped.llamaWeights.map (fun v => String.ofList v.name), fun _ => .ok ⟨[1], fun _ => if m = a then 2 else 10⟩, fun _ => .ok none⟩

theorem linearDoc_says (lib : Lib ℝ) : LinearDoc lib linearDoc [(a, 1), (b, 3)] true none none where
  method := ⟨_, rfl, .mk _⟩
  models := by
    refine ⟨_, rfl, .cons ⟨_, _, rfl, ?_, rfl, .float _⟩ (.cons ⟨_, _, rfl, ?_, rfl, .float _⟩ .nil)⟩
    · exact ⟨_, rfl, .text rfl⟩
    · exact ⟨_, rfl, .text rfl⟩
  normalize := Or.inl ⟨rfl, rfl⟩
  dtype := .missing
  outDtype := .missing
  template := ⟨none, .missing⟩
  others := by decide +kernel

/-- All hypotheses are met by `mergekit-yaml -vj4 c --no-cuda o --device cuda:1 --cuda`; each weight is (1 * 2 + 3 * 10) / 4 in the end. -/
theorem linear_case (ch : WholeMerge.Chance) (lib : Lib ℝ) :
    ∃ p, yamlMain (world ch lib) [cs!"-vj4", cs!"c", cs!"--no-cuda", cs!"o", cs!"--device", cs!"cuda:1", cs!"--cuda"] = .ok p ∧ p.out = cs!"o" ∧
      Merges (p.family llama) p.conf.toConfig Shipped.llamaWeights [a, b] (p.setup (world ch lib))
        (fun v z => ∃ y, WholeMerge.Stored (p.setup (world ch lib)) (Shipped.listed v) y z ∧ ∀ i, y.get i * (1 + 3) = 1 * 2 + 3 * 10) := by
  have hcall : ∃ k, CommandLine.call CommandLine.yaml [cs!"-vj4", cs!"c", cs!"--no-cuda", cs!"o", cs!"--device", cs!"cuda:1", cs!"--cuda"] = .ok k := ⟨_, rfl⟩
  obtain ⟨k, hk⟩ := hcall
  obtain ⟨h1, h2⟩ := (CommandLine.C128_call (by simp [CommandLine.commands]) CommandLine.exampleLine k).1 hk
  have hforce : ∀ v ∈ Shipped.llamaWeights, v.forceDtype = none ∧ v.name ≠ [] := by decide +kernel
  obtain ⟨p, q1, q2, -, -, -, q3⟩ := C131_linear (world ch lib) CommandLine.exampleLine h1 h2 (F := cs!"c") (O := cs!"o") (text := cs!"models: ...") rfl rfl rfl
    (linearDoc_says lib) (by simp) (by decide +kernel)
    (by
      intro e he
      simp only [List.mem_cons, List.not_mem_nil, or_false] at he
      rcases he with rfl | rfl
      · exact ⟨⟨by unfold ModelRef.NoSep; decide, (by rintro r hr; cases hr)⟩, (by rintro l hl; cases hl), rfl⟩
      · exact ⟨⟨by unfold ModelRef.NoSep; decide, (by rintro r hr; cases hr)⟩, (by rintro l hl; cases hl), rfl⟩)
    (by intro _; norm_num) (f := llama) (fun _ _ => rfl) llama_shipped (fun _ _ _ _ => rfl) Shipped.llama_weights (fun r _ => ⟨[1], fun _ => if r = a then 2 else 10⟩)
    (by
      intro v hv _
      obtain ⟨hf, hne⟩ := hforce v hv
      refine ⟨?_, ⟨[1], fun _ _ => rfl⟩, Or.inl (by simp [WholeMerge.storedType, Shipped.listed, hf])⟩
      intro e _
      have hres : (LoadTask.wanted none (Shipped.listed v)).resolve ((world ch lib).loaders e.1) = some (String.ofList v.name) := by
        unfold LoadTask.LoadTensor.resolve
        simp only [LoadTask.wanted, Shipped.listed, List.cons_append, List.find?_cons]
        have : String.ofList v.name ∈ ((world ch lib).loaders e.1).names := List.mem_map.2 ⟨v, hv, rfl⟩
        rw [decide_eq_true this]
      have hne' : String.ofList v.name ≠ "" := by
        intro h
        apply hne
        have := congrArg String.toList h
        simpa using this
      unfold LoadTask.LoadTensor.execute LoadTask.LoadTensor.raw
      rw [Option.map_none, hres]
      simp only [if_neg hne']
      simp only [LoadTask.wanted, Shipped.listed, hf, Option.map_none, true_or, if_true, LoadTask.toDtype, world])
  refine ⟨p, q1, q2, ?_⟩
  intro group prio pop conf size hstd
  obtain ⟨mods, h1, trace, h2, fs, h3, h4, idx, h5, h6, h7⟩ := q3 group prio pop conf size hstd
  refine ⟨mods, h1, trace, h2, fs, h3, h4, idx, h5, h6, ?_⟩
  intro v hv hp
  obtain ⟨z, ⟨y, y1, y2, y3⟩, h8⟩ := h7 v hv hp
  refine ⟨z, ⟨y, y1, fun i => ?_⟩, h8⟩
  have hab : b ≠ a := by decide +kernel
  simpa [hab] using y3 i

example (ch : WholeMerge.Chance) (lib : Lib ℝ) : ∃ p, yamlMain (world ch lib) [cs!"-vj4", cs!"c", cs!"--no-cuda", cs!"o", cs!"--device", cs!"cuda:1", cs!"--cuda"] = .ok p ∧
    WholeMerge.Uses ch (String.ofList p.conf.mergeMethod) (p.family llama).env (p.setup (world ch lib)) ∧ ∃ d, ConfSays lib d p.conf := by
  obtain ⟨p, hp, -⟩ := linear_case ch lib
  obtain ⟨F, d, -, -, -, h, -⟩ := C131_started (world ch lib) CommandLine.exampleLine hp
  exact ⟨p, hp, C131_uses (world ch lib) hp llama, d, h⟩

-- another file is not there
example (ch : WholeMerge.Chance) (lib : Lib ℝ) : yamlMain (world ch lib) [cs!"x", cs!"o"] = .error .noFile := by
  unfold yamlMain
  rfl

end Verif.Main
