import Verif.Props.MainLegacy
import Verif.Props.MainStack

/-! # C138: `mergekit-layershuffle` from the command line to the files -/

namespace Verif.Main

open Verif.ModelRef (Str Ref)
open Verif.Document
open Verif.WholeMerge (getMethod MethodErr passthroughTask)
open Verif.CommandLine (Line Enough Called Event meaning valuesOf marksOf)
open Verif.Shipped (Family IsShipped Block Comes Kept Stacks layersOf)
open Verif.Scripts (Weighted)

/-! ## What is claimed -/

/-- The option `--model` (`-m`), which can be given several times. -/
def modelOpt : CommandLine.Opt := { name := cs!"model", kind := .many, on := [cs!"--model", cs!"-m"] }

/-- The option `--weight` (`-w`), which can be given several times. -/
def weightOpt : CommandLine.Opt := { name := cs!"weight", kind := .many, on := [cs!"--weight", cs!"-w"] }

/-- The flag `--dry-run`. -/
def dryOpt : CommandLine.Opt := { name := cs!"dry_run", kind := .flag, on := [cs!"--dry-run"] }

/-- What a line of `mergekit-layershuffle` asks for. -/
structure Wish where
  models : List Ref
  weights : List ℝ
  fp16 : Bool
  random : Bool
  dry : Bool

/-- Reading it off the options on the line. -/
structure Wishes (float : Str → Option ℝ) (es : List Event) (q : Wish) : Prop where
  models : Stand (valuesOf modelOpt es) q.models
  weights : List.Forall₂ (fun s x => float s = some x) (valuesOf weightOpt es) q.weights
  fp16 : (marksOf (yesNo cs!"fp16" cs!"fp16") es).getLast?.getD false = q.fp16
  random : (marksOf (yesNo cs!"full_random" cs!"full-random") es).getLast?.getD false = q.random
  dry : (marksOf dryOpt es).getLast?.getD false = q.dry

/-- Layer `i` of the model in position `i`, for each. -/
def ownPlace (ms : List Ref) : List (Block ℝ) := ms.zipIdx.map (fun e => ⟨e.1, e.2, e.2 + 1, []⟩)

/-- Single layers of models. -/
def singles (ls : List (Ref × Nat)) : List (Block ℝ) := ls.map (fun e => ⟨e.1, e.2, e.2 + 1, []⟩)

/-- How many layers `--full-random` takes: of each model with a weight, its number of layers times the weight, decimals cut off. -/
noncomputable def taken (layers : Ref → Nat) (q : Wish) : Nat := ((q.models.zip q.weights).map (fun e => ⌊(layers e.1 : ℝ) * e.2⌋.toNat)).sum

/-- The configuration of these layers, as a document. -/
def singlesDoc (ls : List (Ref × Nat)) (fp16 : Bool) : List (Str × Doc ℝ) :=
  [(cs!"merge_method", .str cs!"passthrough"),
   (cs!"slices", .list (ls.map (fun e => .dict [(cs!"sources", .list [.dict [(cs!"model", .str e.1.print), (cs!"layer_range", .list [.int e.2, .int (e.2 + 1)])]])]))),
   (cs!"dtype", if fp16 then .str cs!"float16" else .null)]

/-! ## The document -/

theorem parseAll_iff : ∀ {l : List Str} {rs : List Ref}, parseAll l = some rs ↔ Stand l rs
  | [], rs => by
    unfold parseAll
    constructor
    · intro h; cases h; exact .nil
    · intro h; cases h; rfl
  | s :: l, rs => by
    unfold parseAll
    constructor
    · intro h
      cases hs : ModelRef.parse s with
      | error e => rw [hs] at h; cases h
      | ok r =>
        rw [hs] at h
        simp only at h
        cases hl : parseAll l with
        | none => rw [hl] at h; cases h
        | some rs' =>
          rw [hl] at h
          cases h
          exact .cons hs (parseAll_iff.1 hl)
    · intro h
      cases h with
      | cons h1 h2 =>
        rw [h1]
        simp only
        rw [parseAll_iff.2 h2]

theorem singles_says (L : Lib ℝ) (ls : List (Ref × Nat)) (fp16 : Bool) (hplain : ∀ e ∈ ls, e.1.Plain) :
    StackDoc L (singlesDoc ls fp16) (singles ls) [] (if fp16 then some cs!"float16" else none) none where
  method := ⟨_, rfl, .mk _⟩
  slices := by
    refine ⟨_, rfl, ?_⟩
    unfold singles
    rw [List.forall₂_map_left_iff, List.forall₂_map_right_iff]
    refine List.forall₂_same.2 (fun e he => ⟨_, _, _, none, rfl, ⟨_, rfl, .text (ModelRef.C24_parse_print _ (hplain e he))⟩, rfl, .int _, ?_, .missing, rfl⟩)
    have : ((e.2 : Int) + 1) = ((e.2 + 1 : Nat) : Int) := by push_cast; rfl
    rw [this]
    exact .int _
  base := ⟨none, .missing⟩
  parameters := ⟨none, .missing, rfl⟩
  dtype := by
    show Maybe Text (some (if fp16 then .str cs!"float16" else .null)) _
    cases fp16
    · exact .null
    · exact .given (by simp) (.mk _)
  outDtype := .missing
  template := ⟨none, .missing⟩
  others := by
    intro k hk
    simp only [List.mem_cons, List.not_mem_nil, or_false] at hk
    rcases hk with rfl | rfl | rfl | rfl <;> rfl

theorem shuffleDoc_singles {slices : List (Scripts.Slice Ref)} {ls : List (Ref × Nat)} (h : slices = ls.map (fun e => ⟨e.1, e.2, e.2 + 1⟩)) (fp16 : Bool) :
    shuffleDoc slices fp16 = .dict (singlesDoc ls fp16) := by
  subst h
  unfold shuffleDoc singlesDoc
  rw [List.map_map]
  have : sliceDoc ∘ (fun e : Ref × Nat => (⟨e.1, e.2, e.2 + 1⟩ : Scripts.Slice Ref)) =
      fun e => .dict [(cs!"sources", .list [.dict [(cs!"model", .str e.1.print), (cs!"layer_range", .list [.int e.2, .int (e.2 + 1)])]])] := by
    funext e
    simp [sliceDoc]
  rw [this]
  cases fp16 <;> rfl

/-! ## The command -/

theorem shuffle_mem : CommandLine.layershuffle ∈ CommandLine.commands := by simp [CommandLine.commands]

theorem shuffle_options {es : List Event} {args : List Str} {k : CommandLine.Call} (hk : Called CommandLine.layershuffle es args k) :
    wordsOf k cs!"model" = valuesOf modelOpt es ∧ wordsOf k cs!"weight" = valuesOf weightOpt es ∧
    flagOf k cs!"fp16" false = (marksOf (yesNo cs!"fp16" cs!"fp16") es).getLast?.getD false ∧
    flagOf k cs!"full_random" false = (marksOf (yesNo cs!"full_random" cs!"full-random") es).getLast?.getD false ∧
    flagOf k cs!"dry_run" false = (marksOf dryOpt es).getLast?.getD false :=
  ⟨wordsOf_called shuffle_mem hk (o := modelOpt) (by decide +kernel) rfl,
   wordsOf_called shuffle_mem hk (o := weightOpt) (by decide +kernel) rfl,
   flagOf_called shuffle_mem hk (o := yesNo cs!"fp16" cs!"fp16") (by decide +kernel) rfl _,
   flagOf_called shuffle_mem hk (o := yesNo cs!"full_random" cs!"full-random") (by decide +kernel) rfl _,
   flagOf_called shuffle_mem hk (o := dryOpt) (by decide +kernel) rfl _⟩

/-- The configuration for what is asked for. -/
theorem shuffleArguments_eq (D : Dice) (float : Str → Option ℝ) {line : List Str} (l : Line CommandLine.layershuffle.opts line) {k : CommandLine.Call}
    (hk : Enough CommandLine.layershuffle l.events l.args) (hk' : Called CommandLine.layershuffle l.events l.args k) {q : Wish} (hq : Wishes float l.events q) :
    shuffleArguments D float line =
      match (if q.random then Scripts.fullRandom q.models D.layers q.weights D.draw D.mix else Scripts.shuffle q.models D.layers q.weights D.random) with
      | .error e => .error (.script e)
      | .ok slices => .ok (k, shuffleDoc slices q.fp16) := by
  have hcall := (CommandLine.C128_call shuffle_mem l k).2 ⟨hk, hk'⟩
  obtain ⟨o1, o2, o3, o4, o5⟩ := shuffle_options hk'
  obtain ⟨q1, q2, q3, q4, q5⟩ := hq
  rw [q3] at o3
  rw [q4] at o4
  rw [← o1] at q1
  rw [← o2] at q2
  unfold shuffleArguments
  rw [hcall]
  simp only
  rw [floats_iff.2 q2, parseAll_iff.2 q1]
  simp only
  rw [o3, o4]
  generalize (if q.random then Scripts.fullRandom q.models D.layers q.weights D.draw D.mix else Scripts.shuffle q.models D.layers q.weights D.random) = s
  cases s <;> rfl

/-- What the command does with what is asked for. -/
theorem shuffleMain_eq (W : World) (D : Dice) (float : Str → Option ℝ) {line : List Str} (l : Line CommandLine.layershuffle.opts line) {k : CommandLine.Call}
    (hk : Enough CommandLine.layershuffle l.events l.args) (hk' : Called CommandLine.layershuffle l.events l.args k) {q : Wish} (hq : Wishes float l.events q) :
    shuffleMain W D float line =
      match (if q.random then Scripts.fullRandom q.models D.layers q.weights D.draw D.mix else Scripts.shuffle q.models D.layers q.weights D.random) with
      | .error e => .error (.script e)
      | .ok slices =>
        match prepare W k (shuffleDoc slices q.fp16) with
        | .error e => .error e
        | .ok p => .ok (if q.dry then none else some p) := by
  have o5 := (shuffle_options hk').2.2.2.2
  rw [hq.dry] at o5
  unfold shuffleMain
  rw [shuffleArguments_eq D float l hk hk' hq]
  generalize (if q.random then Scripts.fullRandom q.models D.layers q.weights D.draw D.mix else Scripts.shuffle q.models D.layers q.weights D.random) = s
  cases s with
  | error e => rfl
  | ok slices =>
    simp only
    rw [o5]
    generalize prepare W k (shuffleDoc slices q.fp16) = p
    cases p <;> rfl

/-- Without a right line, numbers that are numbers and models that can be named there is nothing. -/
theorem shuffleMain_wishes (W : World) (D : Dice) (float : Str → Option ℝ) {line : List Str} (l : Line CommandLine.layershuffle.opts line) {x : Option Prepared}
    (h : shuffleMain W D float line = .ok x) :
    ∃ k q, Enough CommandLine.layershuffle l.events l.args ∧ Called CommandLine.layershuffle l.events l.args k ∧ Wishes float l.events q := by
  unfold shuffleMain shuffleArguments at h
  cases hk : CommandLine.call CommandLine.layershuffle line with
  | error e => rw [hk] at h; cases h
  | ok k =>
    rw [hk] at h
    simp only at h
    obtain ⟨h1, h2⟩ := (CommandLine.C128_call shuffle_mem l k).1 hk
    obtain ⟨o1, o2, o3, o4, o5⟩ := shuffle_options h2
    cases hw : floats float (wordsOf k cs!"weight") with
    | none => rw [hw] at h; cases h
    | some ws =>
      rw [hw] at h
      simp only at h
      cases hm : parseAll (wordsOf k cs!"model") with
      | none => rw [hm] at h; cases h
      | some rs =>
        exact ⟨k, ⟨rs, ws, _, _, _⟩, h1, h2, ⟨o1 ▸ parseAll_iff.1 hm, o2 ▸ floats_iff.1 hw, rfl, rfl, rfl⟩⟩

/-- **C138** A dry run merges nothing, and any other run that gets so far does. -/
theorem C138_dry_run (W : World) (D : Dice) (float : Str → Option ℝ) {line : List Str} (l : Line CommandLine.layershuffle.opts line) {x : Option Prepared}
    (h : shuffleMain W D float line = .ok x) : x = none ↔ (marksOf dryOpt l.events).getLast? = some true := by
  obtain ⟨k, q, h1, h2, hq⟩ := shuffleMain_wishes W D float l h
  rw [shuffleMain_eq W D float l h1 h2 hq] at h
  have hd : q.dry = true ↔ (marksOf dryOpt l.events).getLast? = some true := by
    rw [← hq.dry]
    cases (marksOf dryOpt l.events).getLast? with
    | none => simp
    | some b => simp
  rw [← hd]
  split at h
  · cases h
  · split at h
    · cases h
    · cases h
      cases q.dry <;> simp

/-- The merge of single layers. -/
theorem merge_singles (W : World) {k : CommandLine.Call} {O : Str} (ha : argument k cs!"out_path" = O)
    {ls : List (Ref × Nat)} (hne : ls ≠ []) (hplain : ∀ e ∈ ls, e.1.Plain) (fp16 : Bool)
    {f : Family ℝ} (hf : ∀ c, ConfSays W.lib (singlesDoc ls fp16) c → W.family c = some f) (hs : IsShipped f) {n : String} {m : Arch.Module} (hm : f.modules = [(n, m)])
    (hdepth : ls.length = m.numLayers (f.outLayers n)) (own : Ref → Str → Tensor.Tensor ℝ)
    (hown : ∀ v b v', Comes m ls.length (fun r => m.numLayers (f.layers r n)) (singles ls) v b v' → Kept f v b v' →
      (LoadTask.wanted (if fp16 then some "float16" else none) (Shipped.listed v')).execute W.casts (W.loaders b.model) = .ok (some (own b.model v'.name)) ∧
      (WholeMerge.storedType none (Shipped.listed v) = none ∨ ∃ x t, WholeMerge.storedType none (Shipped.listed v) = some x ∧ (x, t) ∈ LoadTask.typeNames)) :
    ∃ p, prepare W k (.dict (singlesDoc ls fp16)) = .ok p ∧ p.out = O ∧ p.options = k.merge ∧ W.family p.conf = some f ∧
      Stacks (p.family f) p.conf.toConfig (Comes m ls.length (fun r => m.numLayers (f.layers r n)) (singles ls)) (p.setup W)
        (fun v b v' z => ∃ y, WholeMerge.Stored (p.setup W) (Shipped.listed v) y z ∧ y.shape = (own b.model v'.name).shape ∧ ∀ i, y.get i = (own b.model v'.name).get i) := by
  have hd := singles_says W.lib ls fp16 hplain
  obtain ⟨c, hc, hmm, hdt, hot, hst, htk, hts⟩ := stack_says hd (by simpa [singles] using hne)
  have hread : read W.lib (.dict (singlesDoc ls fp16)) = .ok c := C130_accepts (.none (hd.others _ (by simp))) hc
  have hget : getMethod W.chance c.mergeMethod = some ⟨"passthrough".toList, [], [⟨"scale".toList, false, none⟩], passthroughTask⟩ := by
    rw [hmm]
    exact WholeMerge.getMethod_mem W.chance ⟨"passthrough".toList, _, _, _⟩ (WholeMerge.mem_static _ _ (by simp [WholeMerge.staticMethods]))
  have hprep : prepare W k (.dict (singlesDoc ls fp16)) = .ok ⟨k.merge, O, [], c, ⟨"passthrough".toList, [], [⟨"scale".toList, false, none⟩], passthroughTask⟩⟩ := by
    unfold prepare
    rw [hread]
    simp only
    rw [hget, ha]
  refine ⟨_, hprep, rfl, rfl, hf c hc, ?_⟩
  have hsum : ((singles ls).map (fun b => b.stop - b.start)).sum = ls.length := by
    unfold singles
    rw [List.map_map]
    have : ((fun b : Block ℝ => b.stop - b.start) ∘ fun e : Ref × Nat => (⟨e.1, e.2, e.2 + 1, []⟩ : Block ℝ)) = fun _ => 1 := by
      funext e; simp
    rw [this]
    simp
  rw [hdepth] at hown ⊢
  have key := Shipped.C119_stack (Prepared.family ⟨k.merge, O, [], c, ⟨"passthrough".toList, [], [⟨"scale".toList, false, none⟩], passthroughTask⟩⟩ f)
    ⟨hs.definition, hs.not_bert, hs.names⟩ hm rfl rfl c.toConfig (singles ls) [] hst
    (by
      intro b hb
      obtain ⟨e, he, rfl⟩ := List.mem_map.1 hb
      exact hplain e he)
    (le_of_eq (hsum.trans hdepth))
    (Prepared.setup ⟨k.merge, O, [], c, ⟨"passthrough".toList, [], [⟨"scale".toList, false, none⟩], passthroughTask⟩⟩ W) rfl own
    (by
      intro v b v' hcm hkp
      obtain ⟨g1, g2⟩ := hown v b v' hcm hkp
      have e1 : (Prepared.setup ⟨k.merge, O, [], c, ⟨"passthrough".toList, [], [⟨"scale".toList, false, none⟩], passthroughTask⟩⟩ W).dtype = if fp16 then some "float16" else none := by
        unfold Prepared.setup
        simp only [hdt]
        cases fp16 <;> rfl
      have e2 : (Prepared.setup ⟨k.merge, O, [], c, ⟨"passthrough".toList, [], [⟨"scale".toList, false, none⟩], passthroughTask⟩⟩ W).outDtype = none := by
        unfold Prepared.setup
        simp only [hot]
        rfl
      rw [e1, e2]
      exact ⟨g1, g2⟩)
  intro group prio pop conf size hstd
  obtain ⟨mods, h1, trace, h2, fs, h3, h4, idx, h5, h6, h7⟩ := key group prio pop conf size hstd
  refine ⟨mods, h1, trace, h2, fs, h3, h4, idx, h5, h6, ?_⟩
  intro v b v' hcm hkp
  obtain ⟨z, ⟨y, y1, y2, y3⟩, h8⟩ := h7 v b v' hcm hkp
  refine ⟨z, ⟨y, y1, y2, fun i => ?_⟩, h8⟩
  rw [y3 i]
  have hb : b.params = [] := by
    have hin : b ∈ singles ls := by
      cases hcm with
      | first hb => exact List.mem_of_mem_head? hb
      | layer hj =>
        have := List.mem_of_getElem? hj
        unfold layersOf at this
        obtain ⟨b', hb', hx⟩ := List.mem_flatMap.1 this
        obtain ⟨o, _, ho⟩ := List.mem_map.1 hx
        cases ho
        exact hb'
      | last hb => exact List.mem_of_mem_getLast? hb
    obtain ⟨e, _, rfl⟩ := List.mem_map.1 hin
    rfl
  rw [hb]
  simp [Shipped.said]

theorem out_path_of {k : CommandLine.Call} {es : List Event} {args : List Str} (hk : Called CommandLine.layershuffle es args k) {O : Str} (hargs : args = [O]) :
    argument k cs!"out_path" = O := by
  have := hk.args
  rw [hargs] at this
  unfold argument
  rw [this]
  rfl

/-- **C138** A shuffle of layers with `mergekit-layershuffle`, from the command line to the files.  The command line is right, without `--full-random` and `--dry-run`; there is a weight for
each model and the weights have a positive sum; the models are of one shipped architecture (of a single module), the output has as many layers as the first model; and every
weight that can be taken is there.  Then, whatever the random numbers are, there is a choice of one of the models with positive weight for each layer of the first model, and the
command starts a merge into the directory named, which succeeds and leaves exactly the weights of the architecture, unchanged: layer `i` of the model chosen for layer
`i`; what is before the layers is from the first model chosen, what is after them from the last one chosen. -/
theorem C138_shuffle (W : World) (D : Dice) (hrandom : ∀ i, 0 ≤ D.random i ∧ D.random i < 1) (float : Str → Option ℝ) {line : List Str}
    (l : Line CommandLine.layershuffle.opts line) {k : CommandLine.Call} (hk : Enough CommandLine.layershuffle l.events l.args) (hk' : Called CommandLine.layershuffle l.events l.args k)
    {O : Str} (hargs : l.args = [O]) {q : Wish} (hq : Wishes float l.events q) (hr : q.random = false) (hdry : q.dry = false)
    {r0 : Ref} (h0 : q.models.head? = some r0) (hdeep : 0 < D.layers r0) (hlen : q.weights.length = q.models.length) (hpos : 0 < q.weights.sum)
    (hplain : ∀ r ∈ q.models, r.Plain)
    {f : Family ℝ} (hf : ∀ c, W.family c = some f) (hs : IsShipped f) {n : String} {m : Arch.Module} (hm : f.modules = [(n, m)])
    (hdepth : D.layers r0 = m.numLayers (f.outLayers n)) (own : Ref → Str → Tensor.Tensor ℝ)
    (hown : ∀ ms : List Ref, ms.length = D.layers r0 → (∀ r ∈ ms, Weighted q.models q.weights r) →
      ∀ v b v', Comes m (D.layers r0) (fun r => m.numLayers (f.layers r n)) (ownPlace ms) v b v' → Kept f v b v' →
      (LoadTask.wanted (if q.fp16 then some "float16" else none) (Shipped.listed v')).execute W.casts (W.loaders b.model) = .ok (some (own b.model v'.name)) ∧
      (WholeMerge.storedType none (Shipped.listed v) = none ∨ ∃ x t, WholeMerge.storedType none (Shipped.listed v) = some x ∧ (x, t) ∈ LoadTask.typeNames)) :
    ∃ ms : List Ref, ms.length = D.layers r0 ∧ (∀ r ∈ ms, Weighted q.models q.weights r) ∧
      ∃ p, shuffleMain W D float line = .ok (some p) ∧ p.out = O ∧ p.options = k.merge ∧ W.family p.conf = some f ∧
      Stacks (p.family f) p.conf.toConfig (Comes m (D.layers r0) (fun r => m.numLayers (f.layers r n)) (ownPlace ms)) (p.setup W)
        (fun v b v' z => ∃ y, WholeMerge.Stored (p.setup W) (Shipped.listed v) y z ∧ y.shape = (own b.model v'.name).shape ∧ ∀ i, y.get i = (own b.model v'.name).get i) := by
  obtain ⟨out, hout⟩ := (Scripts.C65_accepted (r := D.random) h0 hdeep).2 ⟨hlen, hpos⟩
  obtain ⟨g1, g2⟩ := Scripts.C65_layers hrandom h0 hout
  have g3 := Scripts.C65_slices hout
  have hflat : Scripts.layersOf out = out.map (fun s => (s.model, s.start)) := by
    unfold Scripts.layersOf
    clear g1 g2 hout
    induction out with
    | nil => rfl
    | cons s out ih =>
      rw [List.flatMap_cons, ih (fun t ht => g3 t (by simp [ht])), List.map_cons, g3 s (by simp)]
      simp
  have hslices : out = (Scripts.layersOf out).map (fun e => ⟨e.1, e.2, e.2 + 1⟩) := by
    rw [hflat, List.map_map]
    apply List.ext_getElem?
    intro i
    rw [List.getElem?_map]
    cases hi : out[i]? with
    | none => rfl
    | some s =>
      have := g3 s (List.mem_of_getElem? hi)
      obtain ⟨x, y, z⟩ := s
      simp only at this
      subst this
      rfl
  let ms := (Scripts.layersOf out).map Prod.fst
  have hzip : Scripts.layersOf out = ms.zipIdx := by
    apply List.ext_getElem?
    intro i
    rw [List.getElem?_zipIdx, List.getElem?_map]
    cases hi : (Scripts.layersOf out)[i]? with
    | none => rfl
    | some e =>
      obtain ⟨h1, h2⟩ := g2 i e.1 e.2 hi
      simp only [Option.map_some, Nat.zero_add, Option.some.injEq]
      rw [← h1]
  have hw : ∀ r ∈ ms, Weighted q.models q.weights r := by
    intro r hr
    obtain ⟨e, he, rfl⟩ := List.mem_map.1 hr
    obtain ⟨i, hi⟩ := List.mem_iff_getElem?.1 he
    exact (g2 i e.1 e.2 hi).2
  have hml : ms.length = D.layers r0 := by rw [List.length_map]; exact g1
  have hown' := hown ms hml hw
  have hsing : singles (Scripts.layersOf out) = ownPlace ms := by
    unfold singles ownPlace
    rw [hzip]
  rw [← hsing, ← g1] at hown'
  obtain ⟨p, p1, p2, p3, p4, p5⟩ := merge_singles W (out_path_of hk' hargs) (ls := Scripts.layersOf out)
    (by intro h; rw [h] at g1; simp at g1; omega)
    (by
      intro e he
      obtain ⟨i, hi⟩ := List.mem_iff_getElem?.1 he
      obtain ⟨-, j, w, hj, -⟩ := g2 i e.1 e.2 hi
      exact hplain _ (List.mem_of_getElem? hj))
    q.fp16 (fun c _ => hf c) hs hm (g1.trans hdepth) own hown'
  refine ⟨ms, hml, hw, p, ?_, p2, p3, p4, ?_⟩
  · rw [shuffleMain_eq W D float l hk hk' hq, hr]
    simp only [Bool.false_eq_true, if_false]
    rw [hout]
    simp only
    rw [shuffleDoc_singles hslices, p1, hdry]
    rfl
  · rw [hsing, g1] at p5
    exact p5

/-- **C138** The same with `--full-random`, for weights not above 1: the output has, for each model with a weight, as many layers as its number of layers times its weight, decimals cut
off; all are layers that there are, in some order, and taken over unchanged. -/
theorem C138_random (W : World) (D : Dice) (hmix : ∀ l, (D.mix l).Perm l) (float : Str → Option ℝ) {line : List Str}
    (l : Line CommandLine.layershuffle.opts line) {k : CommandLine.Call} (hk : Enough CommandLine.layershuffle l.events l.args) (hk' : Called CommandLine.layershuffle l.events l.args k)
    {O : Str} (hargs : l.args = [O]) {q : Wish} (hq : Wishes float l.events q) (hr : q.random = true) (hdry : q.dry = false)
    (hdraw : ∀ i r x, q.models[i]? = some r → q.weights[i]? = some x → ∀ j, 0 < ⌊(D.layers r : ℝ) * x⌋.toNat → D.draw i j < ⌊(D.layers r : ℝ) * x⌋.toNat)
    (hne : q.models ≠ []) (hw : ∀ x ∈ q.weights, x ≤ 1) (hsome : 0 < taken D.layers q) (hplain : ∀ r ∈ q.models, r.Plain)
    {f : Family ℝ} (hf : ∀ c, W.family c = some f) (hs : IsShipped f) {n : String} {m : Arch.Module} (hm : f.modules = [(n, m)])
    (hdepth : taken D.layers q = m.numLayers (f.outLayers n)) (own : Ref → Str → Tensor.Tensor ℝ)
    (hown : ∀ ls : List (Ref × Nat), ls.length = taken D.layers q → (∀ e ∈ ls, e.1 ∈ q.models ∧ e.2 < D.layers e.1) →
      ∀ v b v', Comes m (taken D.layers q) (fun r => m.numLayers (f.layers r n)) (singles ls) v b v' → Kept f v b v' →
      (LoadTask.wanted (if q.fp16 then some "float16" else none) (Shipped.listed v')).execute W.casts (W.loaders b.model) = .ok (some (own b.model v'.name)) ∧
      (WholeMerge.storedType none (Shipped.listed v) = none ∨ ∃ x t, WholeMerge.storedType none (Shipped.listed v) = some x ∧ (x, t) ∈ LoadTask.typeNames)) :
    ∃ ls : List (Ref × Nat), ls.length = taken D.layers q ∧ (∀ e ∈ ls, e.1 ∈ q.models ∧ e.2 < D.layers e.1) ∧
      ∃ p, shuffleMain W D float line = .ok (some p) ∧ p.out = O ∧ p.options = k.merge ∧ W.family p.conf = some f ∧
      Stacks (p.family f) p.conf.toConfig (Comes m (taken D.layers q) (fun r => m.numLayers (f.layers r n)) (singles ls)) (p.setup W)
        (fun v b v' z => ∃ y, WholeMerge.Stored (p.setup W) (Shipped.listed v) y z ∧ y.shape = (own b.model v'.name).shape ∧ ∀ i, y.get i = (own b.model v'.name).get i) := by
  obtain ⟨out, hout⟩ : ∃ out, Scripts.fullRandom q.models D.layers q.weights D.draw D.mix = .ok out := by
    cases hq : q.models with
    | nil => exact absurd hq hne
    | cons r rs => exact ⟨_, rfl⟩
  obtain ⟨g1, g2⟩ := Scripts.C65_random_count hmix hout
  have g3 := Scripts.C77_existing_layers_partial hmix hdraw hw hout
  let ls := out.map (fun s => (s.model, s.start))
  have hslices : out = ls.map (fun e => ⟨e.1, e.2, e.2 + 1⟩) := by
    rw [List.map_map]
    apply List.ext_getElem?
    intro i
    rw [List.getElem?_map]
    cases hi : out[i]? with
    | none => rfl
    | some s =>
      have := (g2 s (List.mem_of_getElem? hi)).1
      obtain ⟨x, y, z⟩ := s
      simp only at this
      subst this
      rfl
  have hll : ls.length = taken D.layers q := by rw [List.length_map]; exact g1
  have hin : ∀ e ∈ ls, e.1 ∈ q.models ∧ e.2 < D.layers e.1 := by
    intro e he
    obtain ⟨s, hs, rfl⟩ := List.mem_map.1 he
    exact ⟨(g2 s hs).2, g3 s hs⟩
  have hown' := hown ls hll hin
  rw [← hll] at hown'
  obtain ⟨p, p1, p2, p3, p4, p5⟩ := merge_singles W (out_path_of hk' hargs) (ls := ls)
    (by intro h; rw [h] at hll; simp at hll; omega) (fun e he => hplain _ (hin e he).1) q.fp16 (fun c _ => hf c) hs hm (hll.trans hdepth) own hown'
  refine ⟨ls, hll, hin, p, ?_, p2, p3, p4, ?_⟩
  · rw [shuffleMain_eq W D float l hk hk' hq, hr]
    simp only [if_true]
    rw [hout]
    simp only
    rw [shuffleDoc_singles hslices, p1, hdry]
    rfl
  · rw [hll] at p5
    exact p5

/-! ## Llama, in names -/

/-- Where the weights of a shuffle of Llama models are from. -/
inductive LlamaMixed (ms : List Ref) : Arch.WeightInfo → Ref → Prop
  | embed {r} : ms.head? = some r → LlamaMixed ms { name := cs!"model.embed_tokens.weight", isEmbed := true } r
  | layer {j : Nat} {r s} : ms[j]? = some r → s ∈ inLayer → LlamaMixed ms (layerWeight j s) r
  | norm {r} : ms.getLast? = some r → LlamaMixed ms { name := cs!"model.norm.weight" } r
  | head {r} : ms.getLast? = some r →
      LlamaMixed ms { name := cs!"lm_head.weight", isEmbed := true, optional := true, tiedNames := some [cs!"model.embed_tokens.weight"] } r

theorem layersOf_ownPlace (ms : List Ref) : layersOf (ownPlace ms) = ms.zipIdx.map (fun e => (⟨e.1, e.2, e.2 + 1, []⟩, e.2)) := by
  unfold layersOf ownPlace
  rw [List.flatMap_map]
  induction ms.zipIdx with
  | nil => rfl
  | cons e l ih =>
    rw [List.flatMap_cons, ih, List.map_cons]
    simp

theorem ownPlace_head (ms : List Ref) (b : Block ℝ) : (ownPlace ms).head? = some b → ms.head? = some b.model := by
  cases ms with
  | nil => intro h; cases h
  | cons r ms => intro h; simp [ownPlace, List.zipIdx_cons] at h; subst h; rfl

theorem ownPlace_last (ms : List Ref) (b : Block ℝ) : (ownPlace ms).getLast? = some b → ms.getLast? = some b.model := by
  intro h
  unfold ownPlace at h
  rw [List.getLast?_map] at h
  cases hl : ms.zipIdx.getLast? with
  | none => rw [hl] at h; cases h
  | some e =>
    rw [hl] at h
    simp only [Option.map_some, Option.some.injEq] at h
    subst h
    have : ms.getLast? = (ms.zipIdx.map Prod.fst).getLast? := by rw [zipIdx_fst]
    rw [this, List.getLast?_map, hl]
    rfl

/-- **C138** For Llama the claim of `C138_shuffle` in names: the embeddings are those of the model chosen for layer 0, `model.layers.<j>.<s>` is the weight of that same name in the model
chosen for layer `j`, `model.norm.weight` and `lm_head.weight` (if it is stored there) are those of the model chosen for the last layer. -/
theorem C138_llama (ms : List Ref) (total : Nat) (layers : Ref → Nat) (v v' : Arch.WeightInfo) (r : Ref) :
    (∃ b, b.model = r ∧ Comes llamaModule total layers (ownPlace ms) v b v') ↔ v' = v ∧ LlamaMixed ms v r := by
  constructor
  · rintro ⟨b, rfl, h⟩
    rw [C134_llama] at h
    cases h with
    | embed hb => exact ⟨rfl, .embed (ownPlace_head _ _ hb)⟩
    | layer hj hs =>
      rw [layersOf_ownPlace, List.getElem?_map, List.getElem?_zipIdx] at hj
      rename_i j i s
      cases hr : ms[j]? with
      | none => rw [hr] at hj; cases hj
      | some r =>
        rw [hr] at hj
        simp only [Option.map_some, Nat.zero_add, Option.some.injEq, Prod.mk.injEq] at hj
        obtain ⟨rfl, rfl⟩ := hj
        exact ⟨rfl, .layer hr hs⟩
    | norm hb => exact ⟨rfl, .norm (ownPlace_last _ _ hb)⟩
    | head hb => exact ⟨rfl, .head (ownPlace_last _ _ hb)⟩
  · rintro ⟨rfl, h⟩
    have hhead : ∀ r, ms.head? = some r → ∃ b, b.model = r ∧ (ownPlace ms).head? = some b := by
      intro r h
      cases ms with
      | nil => cases h
      | cons r' ms => cases h; exact ⟨⟨r, 0, 1, []⟩, rfl, by simp [ownPlace, List.zipIdx_cons]⟩
    have hlast : ∀ r, ms.getLast? = some r → ∃ b, b.model = r ∧ (ownPlace ms).getLast? = some b := by
      intro r h
      cases hb : (ownPlace ms).getLast? with
      | none =>
        rw [List.getLast?_eq_none_iff] at hb
        have : ms = [] := by simpa [ownPlace] using hb
        rw [this] at h; cases h
      | some b =>
        have := ownPlace_last _ _ hb
        rw [h] at this
        cases this
        exact ⟨b, rfl, rfl⟩
    cases h with
    | embed hr =>
      obtain ⟨b, hb, hh⟩ := hhead _ hr
      exact ⟨b, hb, (C134_llama _ _ _ _ _ _).2 (.embed hh)⟩
    | @layer j r s hr hs =>
      refine ⟨⟨r, j, j + 1, []⟩, rfl, (C134_llama _ _ _ _ _ _).2 (.layer ?_ hs)⟩
      rw [layersOf_ownPlace, List.getElem?_map, List.getElem?_zipIdx, hr]
      simp
    | norm hr =>
      obtain ⟨b, hb, hh⟩ := hlast _ hr
      exact ⟨b, hb, (C134_llama _ _ _ _ _ _).2 (.norm hh)⟩
    | head hr =>
      obtain ⟨b, hb, hh⟩ := hlast _ hr
      exact ⟨b, hb, (C134_llama _ _ _ _ _ _).2 (.head hh)⟩

/-! ## A concrete case: two Llama models -/

/-- `mergekit-layershuffle o -m a -m b -w 1 -w 3`. -/
def shuffleLine : Line CommandLine.layershuffle.opts [cs!"o", cs!"-m", cs!"a", cs!"-m", cs!"b", cs!"-w", cs!"1", cs!"-w", cs!"3"] where
  uses := [.plain cs!"o", .marksNext [] modelOpt 'm' cs!"a", .marksNext [] modelOpt 'm' cs!"b", .marksNext [] weightOpt 'w' cs!"1", .marksNext [] weightOpt 'w' cs!"3"]
  after := none
  fits := by
    intro u hu
    simp only [List.mem_cons, List.not_mem_nil, or_false] at hu
    rcases hu with rfl | rfl | rfl | rfl | rfl
    · exact show ¬ _ by decide
    all_goals exact ⟨(by intro e he; cases he), by decide +kernel, by decide +kernel, by decide +kernel, CommandLine.notLong_of (by decide +kernel)⟩
  written := by decide +kernel

/-- What that line asks for. -/
noncomputable def shuffleWish : Wish := ⟨[a, b], [1, 3], false, false, false⟩

theorem shuffle_wishes : Wishes someFloat shuffleLine.events shuffleWish where
  models := by
    have : valuesOf modelOpt shuffleLine.events = [cs!"a", cs!"b"] := by decide +kernel
    rw [this]
    exact .cons rfl (.cons rfl .nil)
  weights := by
    have : valuesOf weightOpt shuffleLine.events = [cs!"1", cs!"3"] := by decide +kernel
    rw [this]
    exact .cons (by simp [someFloat]) (.cons (by simp [someFloat]) .nil)
  fp16 := by decide +kernel
  random := by decide +kernel
  dry := by decide +kernel

/-- Llama: two layers everywhere. -/
def flat : Family ℝ := ⟨[("default", llamaModule)], fun _ => 2, fun _ _ => 2, fun _ => [cs!"lm_head.weight"], [], []⟩

theorem flat_shipped : IsShipped flat := ⟨Shipped.llama_shipped.definition, Shipped.llama_shipped.not_bert, Shipped.llama_shipped.names⟩

/-- A world with those models. -/
noncomputable def flatWorld (ch : WholeMerge.Chance) (lib : Lib ℝ) : World := { tallWorld ch lib with family := fun _ => some flat }

/-- All hypotheses are met, whatever the random numbers: each of the two layers is that layer of "a" or of "b". -/
theorem shuffle_case (ch : WholeMerge.Chance) (lib : Lib ℝ) (D : Dice) (hD : ∀ r, D.layers r = 2) (hrandom : ∀ i, 0 ≤ D.random i ∧ D.random i < 1) :
    ∃ ms : List Ref, ms.length = 2 ∧ (∀ r ∈ ms, r = a ∨ r = b) ∧
      ∃ p, shuffleMain (flatWorld ch lib) D someFloat [cs!"o", cs!"-m", cs!"a", cs!"-m", cs!"b", cs!"-w", cs!"1", cs!"-w", cs!"3"] = .ok (some p) ∧ p.out = cs!"o" ∧
      Stacks (p.family flat) p.conf.toConfig (Comes llamaModule 2 (fun r => llamaModule.numLayers (flat.layers r "default")) (ownPlace ms)) (p.setup (flatWorld ch lib))
        (fun v b v' z => ∃ y, WholeMerge.Stored (p.setup (flatWorld ch lib)) (Shipped.listed v) y z ∧ y.shape = (tallOwn b.model v'.name).shape ∧
          ∀ i, y.get i = (tallOwn b.model v'.name).get i) := by
  have hcall : ∃ k, CommandLine.call CommandLine.layershuffle [cs!"o", cs!"-m", cs!"a", cs!"-m", cs!"b", cs!"-w", cs!"1", cs!"-w", cs!"3"] = .ok k := ⟨_, rfl⟩
  obtain ⟨k, hk⟩ := hcall
  obtain ⟨h1, h2⟩ := (CommandLine.C128_call shuffle_mem shuffleLine k).1 hk
  have hfrom : ∀ r, Weighted shuffleWish.models shuffleWish.weights r → r = a ∨ r = b := by
    rintro r ⟨i, w, hi, -⟩
    have := List.mem_of_getElem? hi
    simpa [shuffleWish] using this
  obtain ⟨ms, g1, g2, p, q1, q2, -, -, q3⟩ := C138_shuffle (flatWorld ch lib) D hrandom someFloat shuffleLine h1 h2 (O := cs!"o") rfl shuffle_wishes rfl rfl (r0 := a) rfl
    (by rw [hD]; omega) rfl (by simp [shuffleWish]; norm_num)
    (by
      intro x hx
      simp only [shuffleWish, List.mem_cons, List.not_mem_nil, or_false] at hx
      rcases hx with rfl | rfl
      all_goals exact ⟨⟨by unfold ModelRef.NoSep; decide, (by rintro r hr; cases hr)⟩, (by rintro l hl; cases hl), rfl⟩)
    (f := flat) (fun _ => rfl) flat_shipped (n := "default") (m := llamaModule) rfl (by rw [hD]; rfl) tallOwn
    (by
      intro ms hml _ v b' v' hcm _
      obtain ⟨rfl, hmix⟩ := (C138_llama _ _ _ _ _ _).1 ⟨b', rfl, hcm⟩
      have hknown : (∃ u ∈ Shipped.llamaWeights, u.name = v'.name) ∧ v'.forceDtype = none ∧ v'.name ≠ [] := by
        generalize b'.model = r at hmix
        cases hmix with
        | embed => exact ⟨by decide +kernel, rfl, by simp⟩
        | layer hj hs =>
          refine ⟨?_, rfl, by simp [layerWeight]⟩
          have hall : ∀ i < 2, ∀ s ∈ inLayer, ∃ u ∈ Shipped.llamaWeights, u.name = (layerWeight i s).name := by decide +kernel
          have := (List.getElem?_eq_some_iff.1 hj).1
          rw [hml, hD] at this
          exact hall _ this _ hs
        | norm => exact ⟨by decide +kernel, rfl, by simp⟩
        | head => exact ⟨by decide +kernel, rfl, by simp⟩
      obtain ⟨⟨u, hu, hun⟩, hf, hne⟩ := hknown
      refine ⟨?_, Or.inl (by simp [WholeMerge.storedType, Shipped.listed, hf])⟩
      have hres : (LoadTask.wanted none (Shipped.listed v')).resolve ((flatWorld ch lib).loaders b'.model) = some (String.ofList v'.name) := by
        unfold LoadTask.LoadTensor.resolve
        simp only [LoadTask.wanted, Shipped.listed, List.cons_append, List.find?_cons]
        have : String.ofList v'.name ∈ ((flatWorld ch lib).loaders b'.model).names := List.mem_map.2 ⟨u, hu, by rw [hun]⟩
        rw [decide_eq_true this]
      have hne' : String.ofList v'.name ≠ "" := by
        intro h
        apply hne
        have := congrArg String.toList h
        simpa using this
      unfold LoadTask.LoadTensor.execute LoadTask.LoadTensor.raw
      have : (if shuffleWish.fp16 then some "float16" else none) = (none : Option String) := rfl
      rw [this, hres]
      simp only [if_neg hne']
      simp only [LoadTask.wanted, Shipped.listed, hf, Option.map_none, true_or, if_true, LoadTask.toDtype, flatWorld, tallWorld, String.toList_ofList])
  rw [hD] at g1 q3
  exact ⟨ms, g1, fun r hr => hfrom r (g2 r hr), p, q1, q2, q3⟩

/-- `mergekit-layershuffle o -m a -w 1 --full-random`. -/
def randomLine : Line CommandLine.layershuffle.opts [cs!"o", cs!"-m", cs!"a", cs!"-w", cs!"1", cs!"--full-random"] where
  uses := [.plain cs!"o", .marksNext [] modelOpt 'm' cs!"a", .marksNext [] weightOpt 'w' cs!"1", .flag (yesNo cs!"full_random" cs!"full-random") cs!"--full-random" true]
  after := none
  fits := by
    intro u hu
    simp only [List.mem_cons, List.not_mem_nil, or_false] at hu
    rcases hu with rfl | rfl | rfl | rfl
    · exact show ¬ _ by decide
    · exact ⟨(by intro e he; cases he), by decide +kernel, by decide +kernel, by decide +kernel, CommandLine.notLong_of (by decide +kernel)⟩
    · exact ⟨(by intro e he; cases he), by decide +kernel, by decide +kernel, by decide +kernel, CommandLine.notLong_of (by decide +kernel)⟩
    · exact ⟨by decide +kernel, by decide +kernel, by decide +kernel, by decide +kernel⟩
  written := by decide +kernel

/-- What that line asks for. -/
noncomputable def randomWish : Wish := ⟨[a], [1], false, true, false⟩

theorem random_wishes : Wishes someFloat randomLine.events randomWish where
  models := by
    have : valuesOf modelOpt randomLine.events = [cs!"a"] := by decide +kernel
    rw [this]
    exact .cons rfl .nil
  weights := by
    have : valuesOf weightOpt randomLine.events = [cs!"1"] := by decide +kernel
    rw [this]
    exact .cons (by simp [someFloat]) .nil
  fp16 := by decide +kernel
  random := by decide +kernel
  dry := by decide +kernel

theorem random_taken {layers : Ref → Nat} (h : ∀ r, layers r = 2) : taken layers randomWish = 2 := by
  simp [taken, randomWish, h]

/-- All hypotheses are met: two layers of "a", whichever are drawn, in any order. -/
theorem random_case (ch : WholeMerge.Chance) (lib : Lib ℝ) (D : Dice) (hD : ∀ r, D.layers r = 2) (hmix : ∀ l, (D.mix l).Perm l) (hdraw : ∀ i j, D.draw i j < 2) :
    ∃ ls : List (Ref × Nat), ls.length = 2 ∧ (∀ e ∈ ls, e.1 = a ∧ e.2 < 2) ∧
      ∃ p, shuffleMain (flatWorld ch lib) D someFloat [cs!"o", cs!"-m", cs!"a", cs!"-w", cs!"1", cs!"--full-random"] = .ok (some p) ∧ p.out = cs!"o" ∧
      Stacks (p.family flat) p.conf.toConfig (Comes llamaModule 2 (fun r => llamaModule.numLayers (flat.layers r "default")) (singles ls)) (p.setup (flatWorld ch lib))
        (fun v b v' z => ∃ y, WholeMerge.Stored (p.setup (flatWorld ch lib)) (Shipped.listed v) y z ∧ y.shape = (tallOwn b.model v'.name).shape ∧
          ∀ i, y.get i = (tallOwn b.model v'.name).get i) := by
  have hcall : ∃ k, CommandLine.call CommandLine.layershuffle [cs!"o", cs!"-m", cs!"a", cs!"-w", cs!"1", cs!"--full-random"] = .ok k := ⟨_, rfl⟩
  obtain ⟨k, hk⟩ := hcall
  obtain ⟨h1, h2⟩ := (CommandLine.C128_call shuffle_mem randomLine k).1 hk
  have htaken := random_taken hD
  obtain ⟨ls, g1, g2, p, q1, q2, -, -, q3⟩ := C138_random (flatWorld ch lib) D hmix someFloat randomLine h1 h2 (O := cs!"o") rfl random_wishes rfl rfl
    (by
      intro i r x hr hx j _
      have : x = 1 := by simpa [randomWish] using List.mem_of_getElem? hx
      subst this
      rw [hD]
      have := hdraw i j
      simpa using this)
    (by simp [randomWish]) (by intro x hx; simp [randomWish] at hx; rw [hx]) (by rw [htaken]; omega)
    (by
      intro x hx
      simp only [randomWish, List.mem_cons, List.not_mem_nil, or_false] at hx
      rcases hx with rfl
      exact ⟨⟨by unfold ModelRef.NoSep; decide, (by rintro r hr; cases hr)⟩, (by rintro l hl; cases hl), rfl⟩)
    (f := flat) (fun _ => rfl) flat_shipped (n := "default") (m := llamaModule) rfl (by rw [htaken]; rfl) tallOwn
    (by
      intro ls hll hin v b' v' hcm _
      rw [C134_llama] at hcm
      have hknown : (∃ u ∈ Shipped.llamaWeights, u.name = v'.name) ∧ v'.forceDtype = none ∧ v.forceDtype = none ∧ v'.name ≠ [] := by
        cases hcm with
        | embed => exact ⟨by decide +kernel, rfl, rfl, by simp⟩
        | layer hj hs =>
          refine ⟨?_, rfl, rfl, by simp [layerWeight]⟩
          have hall : ∀ i < 2, ∀ s ∈ inLayer, ∃ u ∈ Shipped.llamaWeights, u.name = (layerWeight i s).name := by decide +kernel
          refine hall _ ?_ _ hs
          have := List.mem_of_getElem? hj
          unfold layersOf singles at this
          obtain ⟨b, hb, hx⟩ := List.mem_flatMap.1 this
          obtain ⟨e, he, rfl⟩ := List.mem_map.1 hb
          obtain ⟨o, ho, hx⟩ := List.mem_map.1 hx
          have hlt := (hin e he).2
          rw [hD] at hlt
          simp at ho
          subst ho
          cases hx
          exact hlt
        | norm => exact ⟨by decide +kernel, rfl, rfl, by simp⟩
        | head => exact ⟨by decide +kernel, rfl, rfl, by simp⟩
      obtain ⟨⟨u, hu, hun⟩, hf', hf, hne⟩ := hknown
      refine ⟨?_, Or.inl (by simp [WholeMerge.storedType, Shipped.listed, hf])⟩
      have hres : (LoadTask.wanted none (Shipped.listed v')).resolve ((flatWorld ch lib).loaders b'.model) = some (String.ofList v'.name) := by
        unfold LoadTask.LoadTensor.resolve
        simp only [LoadTask.wanted, Shipped.listed, List.cons_append, List.find?_cons]
        have : String.ofList v'.name ∈ ((flatWorld ch lib).loaders b'.model).names := List.mem_map.2 ⟨u, hu, by rw [hun]⟩
        rw [decide_eq_true this]
      have hne' : String.ofList v'.name ≠ "" := by
        intro h
        apply hne
        have := congrArg String.toList h
        simpa using this
      unfold LoadTask.LoadTensor.execute LoadTask.LoadTensor.raw
      have : (if randomWish.fp16 then some "float16" else none) = (none : Option String) := rfl
      rw [this, hres]
      simp only [if_neg hne']
      simp only [LoadTask.wanted, Shipped.listed, hf', Option.map_none, true_or, if_true, LoadTask.toDtype, flatWorld, tallWorld, String.toList_ofList])
  rw [htaken] at g1 q3
  refine ⟨ls, g1, fun e he => ⟨?_, ?_⟩, p, q1, q2, q3⟩
  · simpa [randomWish] using (g2 e he).1
  · have := (g2 e he).2
    rwa [hD] at this

end Verif.Main
