import Verif.Props.MainLegacy
import Verif.Props.MainSlerp

/-! # C137: spherical interpolation with `mergekit-legacy`, from the command line to the files -/

namespace Verif.Shipped

open Verif.ModelRef (Str Ref)
open Verif.LoadTask (WeightInfo typeNames wanted)
open Verif.Plan
open Verif.Config
open Verif.Tensor (Tensor)
open Verif.WholeMerge
open Verif.Arch (distinctArchs)

/-- **C119** Spherical interpolation between two models of an architecture shipped, from the configuration to the files, for configurations that list models: the base model, listed or not, and another
one of the same size, with a number `t` for all. -/
theorem C119_slerp_models (f : Family ℝ) (hs : IsShipped f) (hparams : f.params = [⟨"t".toList, true, none⟩]) (htparams : f.tensorParams = [])
    (c : MergeConfig ℝ) (b o : Ref) (es : List (Ref × List (Str × ℝ))) (ps : List (Str × ℝ)) (hc : TaskConf c b es ps) (hob : o ≠ b)
    (hes : es.map Prod.fst = [b, o] ∨ es.map Prod.fst = [o, b] ∨ es.map Prod.fst = [o])
    (hplain : ∀ r ∈ [b, o], r.Plain) (hlayers : ∀ r ∈ [b, o], ∀ n ∈ f.modules.map Prod.fst, f.layers r n = f.outLayers n)
    (ws : List Arch.WeightInfo) (hws : Arch.allWeights f.pairs = .ok ws) {x : ℝ} (hx : ps.lookup "t".toList = some x)
    (s : Setup ℝ (Tensor ℝ) MethodErr) (hmeth : s.method = slerpMethod) (own : Ref → Str → Tensor ℝ)
    (hown : ∀ v ∈ ws, Present f [b, o] v →
      (∀ r ∈ [b, o], (wanted s.dtype (listed v)).execute s.casts (s.loaders r) = .ok (some (own r v.name))) ∧ (own o v.name).shape = (own b v.name).shape ∧
      (storedType s.outDtype (listed v) = none ∨ ∃ n d, storedType s.outDtype (listed v) = some n ∧ (n, d) ∈ typeNames)) :
    Merges f c ws [b, o] s (fun v z => ∃ y, Stored s (listed v) y z ∧ y.shape = (own b v.name).shape ∧
      OnArc (own b v.name).shape.prod x (own b v.name).get (own o v.name).get y.get) := by
  have hfst : (es.map (fun e => (⟨e.1, numbered e.2⟩ : InModel ℝ))).map (·.model) = es.map Prod.fst := by rw [List.map_map]; rfl
  have hall : es.map Prod.fst ++ (if b ∈ es.map Prod.fst then [] else [b]) = [b, o] ∨ es.map Prod.fst ++ (if b ∈ es.map Prod.fst then [] else [b]) = [o, b] := by
    rcases hes with h | h | h
    · left; rw [h]; simp
    · right; rw [h]; simp
    · right; rw [h]; simp [Ne.symm hob]
  generalize hmodels : es.map Prod.fst ++ (if b ∈ es.map Prod.fst then [] else [b]) = models at hall
  have hmem : ∀ r, r ∈ models ↔ r ∈ [b, o] := by
    intro r
    rcases hall with rfl | rfl
    · rfl
    · simp [or_comm]
  have hal : Alike f c (es.map (fun e => ⟨e.1, numbered e.2⟩)) models := by
    refine ⟨hc.models, by simpa using hc.some_model, hc.slices, by rw [hc.base, hfst]; exact hmodels.symm, by rw [hfst]; exact hc.once, ?_, ?_⟩
    · intro r hr
      exact hplain r ((hmem r).1 hr)
    · intro r hr
      exact hlayers r ((hmem r).1 hr)
  have hne : f.modules ≠ [] := by
    intro h0
    have hd := hs.definition
    rw [h0] at hd
    have : (distinctArchs.all (fun l => !l.isEmpty)) = true := by decide +kernel
    have := List.all_eq_true.1 this _ hd
    simp at this
  have hu := C119_usable_partial f hs _ (alike_fits f hs.names hne hal)
  obtain ⟨_, k2⟩ := allWeights_mem hws
  have hfrom : ∀ e ∈ sections f c (es.map (fun e => ⟨e.1, numbered e.2⟩)), ∀ wt sl t ins, Place f.env e.1 (e.2.slices.getD []) wt sl t ins →
      sl = whole f c (es.map (fun e => ⟨e.1, numbered e.2⟩)) e.1 ∧ e.2.parameters = [] ∧ ∃ v ∈ ws, listed v = wt ∧ ins = models.map (fun r => (r, wt)) := by
    intro e he wt sl t ins hpl
    obtain ⟨n, hn', rfl⟩ := List.mem_map.1 he
    obtain ⟨m, hm⟩ := known_module hn'
    have hmem := place_mem hpl
    simp only [Option.getD_some] at hpl hmem
    rw [env_weights (module_eq hs.names hm)] at hmem
    simp only [List.map_cons, List.map_nil, List.sum_cons, List.sum_nil, Nat.add_zero] at hmem
    rw [whole_len hs.names hal hm] at hmem
    obtain ⟨v, hv, hvw⟩ := k2 (m, f.outLayers n) (List.mem_map.2 ⟨_, hm, rfl⟩) wt hmem
    obtain ⟨p1, p2⟩ := place_same hs.names hal hm hpl
    exact ⟨p1, rfl, v, hv, hvw, p2⟩
  have hpres : ∀ v, Present f models v ↔ Present f [b, o] v := by
    intro v
    unfold Present
    simp only [hmem]
  have hfr : ∀ (d : OutModule ℝ) (n : String) (name : Str) (t : ℝ), d.parameters = [] → FractionIs c d (whole f c (es.map (fun e => ⟨e.1, numbered e.2⟩)) n) name t x := by
    intro d n name t hd
    have := (said_all (f := f) hc (n := n) hd name t "t" _).2 rfl
    rw [hx] at this
    exact this
  refine merges_congr hmem (C119_models f hs hal hws s _ (delivers_mono (C109_slerp f.env ⟨hparams, htparams⟩ c _ (alike_sections hal) hu ?_ s hmeth
    (fun r wi => own r wi.name) ?_) ?_))
  · intro e he sl hsl
    obtain ⟨n, -, rfl⟩ := List.mem_map.1 he
    simp only [Option.getD_some, List.mem_singleton] at hsl
    subst hsl
    refine ⟨b, Or.inr ⟨rfl, hc.base⟩, Or.inr ?_⟩
    have hm := whole_models hal n
    generalize (whole f c (es.map (fun e => ⟨e.1, numbered e.2⟩)) n).sources = l at hm
    rcases hall with rfl | rfl
    · match l, hm with
      | [u, w], hm =>
        simp only [List.map_cons, List.map_nil, List.cons.injEq, and_true] at hm
        exact ⟨_, _, rfl, Or.inl hm.1⟩
    · match l, hm with
      | [u, w], hm =>
        simp only [List.map_cons, List.map_nil, List.cons.injEq, and_true] at hm
        exact ⟨_, _, rfl, Or.inr hm.2⟩
  · intro e he wt sl t ins hpl hno
    obtain ⟨rfl, hpar, v, hv, rfl, rfl⟩ := hfrom e he wt sl t ins hpl
    obtain ⟨g1, g2, g3⟩ := hown v hv ((hpres v).1 (leftOut_iff.1 hno))
    have hsh : ∀ r ∈ models, (own r v.name).shape = (own b v.name).shape := by
      intro r hr
      have := (hmem r).1 hr
      simp only [List.mem_cons, List.not_mem_nil, or_false] at this
      rcases this with rfl | rfl
      · rfl
      · exact g2
    refine ⟨?_, ?_, g3, x, hfr _ _ _ _ hpar⟩
    · intro i hi
      obtain ⟨r, hr, rfl⟩ := List.mem_map.1 hi
      exact g1 r ((hmem r).1 hr)
    · intro i hi j hj
      obtain ⟨r, hr, rfl⟩ := List.mem_map.1 hi
      obtain ⟨r', hr', rfl⟩ := List.mem_map.1 hj
      exact (hsh r hr).trans (hsh r' hr').symm
  · rintro e he wt sl t ins z hpl hno ⟨y, y1, y2⟩ v' hv' hvw
    obtain ⟨rfl, hpar, v, hv, rfl, rfl⟩ := hfrom e he wt sl t ins hpl
    have hname : v'.name = v.name := congrArg WeightInfo.name hvw
    refine ⟨y, by rw [hvw]; exact y1, ?_⟩
    rw [hname]
    rcases y2 with ⟨r, wi, hr, -⟩ | ⟨b', o', wb, wo, hne', hb', hins', hsh, harc⟩
    · rcases hall with rfl | rfl <;> simp at hr
    · have hbb : b' = b := by
        rcases hb' with h | ⟨_, h⟩
        · cases h
        · rw [hc.base] at h; exact (Option.some.inj h).symm
      subst hbb
      obtain ⟨rfl, rfl, rfl⟩ : o' = o ∧ wb = listed v ∧ wo = listed v := by
        rcases hall with rfl | rfl <;> rcases hins' with h' | h' <;>
          simp only [List.map_cons, List.map_nil, List.cons.injEq, Prod.mk.injEq, and_true] at h'
        · exact ⟨h'.2.1.symm, h'.1.2.symm, h'.2.2.symm⟩
        · exact absurd h'.2.1 hob
        · exact absurd h'.1.1 hob
        · exact ⟨h'.1.1.symm, h'.2.2.symm, h'.1.2.symm⟩
      exact ⟨hsh, harc x (hfr _ _ _ _ hpar)⟩

end Verif.Shipped

namespace Verif.Main

open Verif.ModelRef (Str Ref)
open Verif.Document
open Verif.WholeMerge (getMethod MethodErr slerpMethod OnArc)
open Verif.CommandLine (Line Enough Called valuesOf)
open Verif.Shipped (Family IsShipped Merges Present)
open Verif.Scripts (listed fits)

theorem all_t (q : Asked) (L : Lib ℝ) (hs : q.method = cs!"slerp") {x : ℝ} (hw : q.weight = [x]) : (q.all L).lookup cs!"t" = some x := by
  unfold Asked.all
  rw [if_pos hs, hw]
  rfl

/-- **C137** Spherical interpolation with `mergekit-legacy`, from the command line to the files.  The command line is right: the method is `slerp`, there is a base model and exactly one other model
(the base model may be repeated with `--merge`, in either place), and one `--weight x`; the two are of one shipped architecture and size, every weight of the architecture is there in both in one
shape, and the data types exist.  Then the command starts a merge into the directory named, which succeeds and leaves exactly the weights of the architecture, each the point at
fraction `x` of the arc from the base model's tensor of that name to the other model's - whatever densities are given and whether or not `--no-normalize` or `--int8-mask` is. -/
theorem C137_slerp (W : World) (float : Str → Option ℝ)
    {line : List Str} (l : Line CommandLine.legacy.opts line) {k : CommandLine.Call} (hk : Enough CommandLine.legacy l.events l.args)
    (hk' : Called CommandLine.legacy l.events l.args k) {O : Str} (hargs : l.args = [O]) {q : Asked} (hq : Asks float l.events q)
    (hdens : fits 2 q.density) (hnaive : q.naive = false)
    (hmethod : q.method = cs!"slerp") {x : ℝ} (hx : q.weight = [x]) {B S : Str} {b o : Ref} (hB : q.base = some B) (hBe : B ≠ []) (hb : ModelRef.parse B = .ok b)
    (hS : ModelRef.parse S = .ok o) (hmerge : q.merge = [S] ∨ q.merge = [S, B] ∨ q.merge = [B, S]) (hob : o ≠ b) (hplain : ∀ r ∈ [b, o], r.Plain)
    {f : Family ℝ} (hf : ∀ c, ConfSays W.lib q.document c → W.family c = some f) (hs : IsShipped f)
    (hlayers : ∀ r ∈ [b, o], ∀ n ∈ f.modules.map Prod.fst, f.layers r n = f.outLayers n)
    {ws : List Arch.WeightInfo} (hws : Arch.allWeights f.pairs = .ok ws) (own : Ref → Str → Tensor.Tensor ℝ)
    (hown : ∀ v ∈ ws, Present f [b, o] v →
      (∀ r ∈ [b, o], (LoadTask.wanted (if q.bf16 then some "bfloat16" else none) (Shipped.listed v)).execute W.casts (W.loaders r) = .ok (some (own r v.name))) ∧
      (own o v.name).shape = (own b v.name).shape ∧
      (WholeMerge.storedType none (Shipped.listed v) = none ∨ ∃ n t, WholeMerge.storedType none (Shipped.listed v) = some n ∧ (n, t) ∈ LoadTask.typeNames)) :
    ∃ p, legacyMain W float line = .ok p ∧ p.out = O ∧ p.options = k.merge ∧ W.family p.conf = some f ∧
      Merges (p.family f) p.conf.toConfig ws [b, o] (p.setup W) (fun v z => ∃ y, WholeMerge.Stored (p.setup W) (Shipped.listed v) y z ∧
        y.shape = (own b v.name).shape ∧ OnArc (own b v.name).shape.prod x (own b v.name).get (own o v.name).get y.get) := by
  have hSB : S ≠ B := by
    intro h
    rw [h, hb] at hS
    exact hob (Except.ok.inj hS).symm
  obtain ⟨rs, hrs, hrs'⟩ : ∃ rs, Stand (listed q.merge q.base) rs ∧ (rs = [b, o] ∨ rs = [o, b]) := by
    rw [hB]
    rcases hmerge with h | h | h
    · have : listed q.merge (some B) = [S, B] := by rw [h]; simp [listed, Ne.symm hSB, hBe]
      rw [this]
      exact ⟨_, .cons hS (.cons hb .nil), Or.inr rfl⟩
    · have : listed q.merge (some B) = [S, B] := by rw [h]; simp [listed]
      rw [this]
      exact ⟨_, .cons hS (.cons hb .nil), Or.inr rfl⟩
    · have : listed q.merge (some B) = [B, S] := by rw [h]; simp [listed]
      rw [this]
      exact ⟨_, .cons hb (.cons hS .nil), Or.inl rfl⟩
  have hlen : rs.length = 2 := by rcases hrs' with rfl | rfl <;> rfl
  have hne : rs ≠ [] := by intro h; rw [h] at hlen; cases hlen
  have honce : rs.Nodup := by rcases hrs' with rfl | rfl <;> simp [hob, Ne.symm hob]
  have hus : q.Usable := by
    refine ⟨?_, ?_⟩
    · rw [hrs.length_eq, hlen]; exact hdens
    · rw [if_pos hmethod, hx]; rfl
  have hbase : Maybe RefSays (q.document.lookup cs!"base_model") (some b) := by
    have : q.document.lookup cs!"base_model" = some (match q.base with
      | none => .null
      | some b => .str b) := rfl
    rw [this, hB]
    exact .given (by simp) (.text hb)
  have hd := document_plain W.lib q hnaive hrs hbase
  have hfst : (rs.zipIdx.map (fun e => (e.1, q.params e.2))).map Prod.fst = rs := by
    rw [List.map_map]
    exact zipIdx_fst rs
  obtain ⟨c, hc, hmm, hdt, hot, hms, hsl, hmo, hbm, hpar, htk, hts⟩ := plain_says hd (by simpa using hne)
  have hread : read W.lib (.dict q.document) = .ok c := C130_accepts (.none rfl) hc
  have hget : getMethod W.chance c.mergeMethod = some ⟨"slerp".toList, [⟨"t".toList, true, none⟩], [], slerpMethod⟩ := by
    rw [hmm, hmethod]
    exact WholeMerge.getMethod_mem W.chance ⟨"slerp".toList, _, _, _⟩ (WholeMerge.mem_static _ _ (by simp [WholeMerge.staticMethods]))
  have hmain := (C137_main W float l ⟨k.merge, O, [], c, _⟩).2 ⟨k, q, hk, hk', hargs, rfl, rfl, hq, hus, hread, hget⟩
  refine ⟨_, hmain, rfl, rfl, hf c hc, ?_⟩
  exact Shipped.C119_slerp_models (Prepared.family ⟨k.merge, O, [], c, ⟨"slerp".toList, [⟨"t".toList, true, none⟩], [], slerpMethod⟩⟩ f)
    ⟨hs.definition, hs.not_bert, hs.names⟩ rfl rfl c.toConfig b o _ _ ⟨hms, hsl, hbm, hpar, by simpa using hne, by rw [hfst]; exact honce⟩ hob
    (by rw [hfst]; rcases hrs' with h | h <;> simp [h]) hplain hlayers ws hws (all_t q W.lib hmethod hx)
    (Prepared.setup ⟨k.merge, O, [], c, ⟨"slerp".toList, [⟨"t".toList, true, none⟩], [], slerpMethod⟩⟩ W) rfl own
    (by
      intro v hv hp
      obtain ⟨g1, g2, g3⟩ := hown v hv hp
      have e1 : (Prepared.setup ⟨k.merge, O, [], c, ⟨"slerp".toList, [⟨"t".toList, true, none⟩], [], slerpMethod⟩⟩ W).dtype = if q.bf16 then some "bfloat16" else none := by
        unfold Prepared.setup
        simp only [hdt]
        cases q.bf16 <;> rfl
      have e2 : (Prepared.setup ⟨k.merge, O, [], c, ⟨"slerp".toList, [⟨"t".toList, true, none⟩], [], slerpMethod⟩⟩ W).outDtype = none := by
        unfold Prepared.setup
        simp only [hot]
        rfl
      rw [e1, e2]
      exact ⟨g1, g2, g3⟩)

/-! ## A concrete case -/

/-- `mergekit-legacy o --merge b --base-model a --method slerp --weight 0.5`. -/
def arcLine : Line CommandLine.legacy.opts [cs!"o", cs!"--merge", cs!"b", cs!"--base-model", cs!"a", cs!"--method", cs!"slerp", cs!"--weight", cs!"0.5"] where
  uses := [.plain cs!"o", .next (several cs!"merge" cs!"merge") cs!"--merge" cs!"b", .next (one cs!"base_model" cs!"base-model") cs!"--base-model" cs!"a",
    .next (one cs!"method" cs!"method") cs!"--method" cs!"slerp", .next (several cs!"weight" cs!"weight") cs!"--weight" cs!"0.5"]
  after := none
  fits := by
    intro u hu
    simp only [List.mem_cons, List.not_mem_nil, or_false] at hu
    rcases hu with rfl | rfl | rfl | rfl | rfl
    · exact show ¬ _ by decide
    all_goals exact ⟨by decide +kernel, by decide +kernel, by decide +kernel, by decide +kernel⟩
  written := by decide +kernel

/-- What that line asks for. -/
noncomputable def arcAsked : Asked where
  merge := [cs!"b"]
  base := some cs!"a"
  density := []
  weight := [1 / 2]
  method := cs!"slerp"
  normalize := true
  mask := false
  bf16 := false
  naive := false

theorem arc_asks : Asks someFloat arcLine.events arcAsked where
  merge := by decide +kernel
  density := by
    have : valuesOf (several cs!"density" cs!"density") arcLine.events = [] := by decide +kernel
    rw [this]
    exact .nil
  weight := by
    have : valuesOf (several cs!"weight" cs!"weight") arcLine.events = [cs!"0.5"] := by decide +kernel
    rw [this]
    exact .cons (by simp [someFloat]) .nil
  method := by decide +kernel
  base := by decide +kernel
  normalize := by decide +kernel
  mask := by decide +kernel
  bf16 := by decide +kernel
  naive := by decide +kernel

/-- All hypotheses are met; the models' tensors are at a right angle, and in the end each weight begins with √2/2. -/
theorem arc_case (ch : WholeMerge.Chance) (lib : Lib ℝ) :
    ∃ p, legacyMain (roundWorld ch lib) someFloat [cs!"o", cs!"--merge", cs!"b", cs!"--base-model", cs!"a", cs!"--method", cs!"slerp", cs!"--weight", cs!"0.5"] = .ok p ∧ p.out = cs!"o" ∧
      Merges (p.family round) p.conf.toConfig Shipped.llamaWeights [a, b] (p.setup (roundWorld ch lib))
        (fun v z => ∃ y, WholeMerge.Stored (p.setup (roundWorld ch lib)) (Shipped.listed v) y z ∧ y.get 0 = Real.sqrt 2 / 2) := by
  have hcall : ∃ k, CommandLine.call CommandLine.legacy [cs!"o", cs!"--merge", cs!"b", cs!"--base-model", cs!"a", cs!"--method", cs!"slerp", cs!"--weight", cs!"0.5"] = .ok k := ⟨_, rfl⟩
  obtain ⟨k, hk⟩ := hcall
  obtain ⟨h1, h2⟩ := (CommandLine.C128_call (by simp [CommandLine.commands]) arcLine k).1 hk
  have hforce : ∀ v ∈ Shipped.llamaWeights, v.forceDtype = none ∧ v.name ≠ [] := by decide +kernel
  have hba : b ≠ a := by decide +kernel
  obtain ⟨p, q1, q2, -, -, q3⟩ := C137_slerp (roundWorld ch lib) someFloat arcLine h1 h2 (O := cs!"o") rfl arc_asks (by simp [fits, arcAsked]) rfl rfl rfl (B := cs!"a") (S := cs!"b")
    (b := a) (o := b) rfl (by simp) rfl rfl (Or.inl rfl) hba
    (by
      intro r hr
      simp only [List.mem_cons, List.not_mem_nil, or_false] at hr
      rcases hr with rfl | rfl
      all_goals exact ⟨⟨by unfold ModelRef.NoSep; decide, (by rintro r hr; cases hr)⟩, (by rintro l hl; cases hl), rfl⟩)
    (f := round) (fun _ _ => rfl) ⟨Shipped.llama_shipped.definition, Shipped.llama_shipped.not_bert, Shipped.llama_shipped.names⟩ (fun _ _ _ _ => rfl) Shipped.llama_weights roundOwn
    (by
      intro v hv _
      obtain ⟨hf, hne⟩ := hforce v hv
      refine ⟨?_, rfl, Or.inl (by simp [WholeMerge.storedType, Shipped.listed, hf])⟩
      intro r _
      have hres : (LoadTask.wanted none (Shipped.listed v)).resolve ((roundWorld ch lib).loaders r) = some (String.ofList v.name) := by
        unfold LoadTask.LoadTensor.resolve
        simp only [LoadTask.wanted, Shipped.listed, List.cons_append, List.find?_cons]
        have : String.ofList v.name ∈ ((roundWorld ch lib).loaders r).names := List.mem_map.2 ⟨v, hv, rfl⟩
        rw [decide_eq_true this]
      have hne' : String.ofList v.name ≠ "" := by
        intro h
        apply hne
        have := congrArg String.toList h
        simpa using this
      unfold LoadTask.LoadTensor.execute LoadTask.LoadTensor.raw
      have : (if arcAsked.bf16 then some "bfloat16" else none) = (none : Option String) := rfl
      rw [this, hres]
      simp only [if_neg hne']
      simp only [LoadTask.wanted, Shipped.listed, hf, Option.map_none, true_or, if_true, LoadTask.toDtype, roundWorld, String.toList_ofList])
  refine ⟨p, q1, q2, ?_⟩
  intro group prio pop conf size hstd
  obtain ⟨mods, h1, trace, h2, fs, h3, h4, idx, h5, h6, h7⟩ := q3 group prio pop conf size hstd
  refine ⟨mods, h1, trace, h2, fs, h3, h4, idx, h5, h6, ?_⟩
  intro v hv hp
  obtain ⟨z, ⟨y, y1, y2, y3⟩, h8⟩ := h7 v hv hp
  exact ⟨z, ⟨y, y1, round_arc rfl rfl rfl y3⟩, h8⟩

end Verif.Main
