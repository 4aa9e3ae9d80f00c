import Verif.Props.MainTask
import Verif.Props.MainLegacySlerp
import Verif.Props.Registry

/-! # C149: further methods with a base model and `mergekit-yaml`, from the command line to the files -/

namespace Verif.Shipped

open Verif.ModelRef (Str Ref)
open Verif.LoadTask (WeightInfo typeNames wanted)
open Verif.Plan
open Verif.Config
open Verif.Tensor (Tensor)
open Verif.WholeMerge
open Verif.Arch (distinctArchs)

/-- The models that are merged: those listed, and the base model after them if it is not listed. -/
def merged {K : Type} (b : Ref) (es : List (Ref × List (Str × K))) : List Ref := es.map Prod.fst ++ (if b ∈ es.map Prod.fst then [] else [b])

theorem mem_merged {K : Type} {b : Ref} {es : List (Ref × List (Str × K))} (r : Ref) : r ∈ merged b es ↔ r ∈ b :: es.map Prod.fst := by
  unfold merged
  by_cases hb : b ∈ es.map Prod.fst
  · rw [if_pos hb, List.append_nil, List.mem_cons]
    exact ⟨Or.inr, fun h => h.elim (fun h => h ▸ hb) id⟩
  · rw [if_neg hb, List.mem_append, List.mem_singleton, List.mem_cons]
    exact or_comm

section
variable {f : Family ℝ} {c : MergeConfig ℝ} {b : Ref} {es : List (Ref × List (Str × ℝ))} {ps : List (Str × ℝ)} {ws : List Arch.WeightInfo}

/-- A configuration that lists models of one size with a base model: what is delivered for places is left behind for the weights of the architecture. -/
theorem based_merges (hs : IsShipped f) (hc : TaskConf c b es ps) (hplain : ∀ r ∈ b :: es.map Prod.fst, r.Plain)
    (hlayers : ∀ r ∈ b :: es.map Prod.fst, ∀ n ∈ f.modules.map Prod.fst, f.layers r n = f.outLayers n) (hws : Arch.allWeights f.pairs = .ok ws)
    (s : Setup ℝ (Tensor ℝ) MethodErr) (own : Ref → Str → Tensor ℝ)
    (hload : ∀ v ∈ ws, Present f (b :: es.map Prod.fst) v →
      (∀ r ∈ b :: es.map Prod.fst, (wanted s.dtype (listed v)).execute s.casts (s.loaders r) = .ok (some (own r v.name))) ∧
      (storedType s.outDtype (listed v) = none ∨ ∃ n d, storedType s.outDtype (listed v) = some n ∧ (n, d) ∈ typeNames))
    (facts : (e : String × OutModule ℝ) → (w : WeightInfo) → (sl : OutSlice ℝ) → (t : ℝ) → (ins : List (Ref × WeightInfo)) → Prop)
    (R : (e : String × OutModule ℝ) → (w : WeightInfo) → (sl : OutSlice ℝ) → (t : ℝ) → (ins : List (Ref × WeightInfo)) → Tensor ℝ → Prop)
    (hd : ∀ l, Sections f.env c l → Usable f.env l →
      (∀ e ∈ l, ∀ w sl t ins, Place f.env e.1 (e.2.slices.getD []) w sl t ins → ¬ LeftOut f.env w ins → Fed s (fun r wi => own r wi.name) w ins ∧ facts e w sl t ins) →
      Delivers f.env c l s (fun e w sl t ins z => ∃ y, R e w sl t ins y ∧ Stored s w y z))
    (right : Arch.WeightInfo → Tensor ℝ → Prop)
    (hfacts : ∀ v ∈ ws, Present f (b :: es.map Prod.fst) v → ∀ (e : String × OutModule ℝ) n t, e.2.parameters = [] →
      facts e (listed v) (whole f c (es.map (fun e => ⟨e.1, numbered e.2⟩)) n) t ((merged b es).map (fun r => (r, listed v))))
    (hR : ∀ v ∈ ws, Present f (b :: es.map Prod.fst) v → ∀ (e : String × OutModule ℝ) n t y, e.2.parameters = [] →
      R e (listed v) (whole f c (es.map (fun e => ⟨e.1, numbered e.2⟩)) n) t ((merged b es).map (fun r => (r, listed v))) y → right v y) :
    Merges f c ws (b :: es.map Prod.fst) s (fun v z => ∃ y, Stored s (listed v) y z ∧ right v y) := by
  have hfst : (es.map (fun e => (⟨e.1, numbered e.2⟩ : InModel ℝ))).map (·.model) = es.map Prod.fst := by rw [List.map_map]; rfl
  have hal : Alike f c (es.map (fun e => ⟨e.1, numbered e.2⟩)) (merged b es) := by
    refine ⟨hc.models, by simpa using hc.some_model, hc.slices, by rw [hc.base, hfst]; rfl, by rw [hfst]; exact hc.once, ?_, ?_⟩
    · intro r hr
      exact hplain r ((mem_merged r).1 hr)
    · intro r hr
      exact hlayers r ((mem_merged r).1 hr)
  have hne : f.modules ≠ [] := by
    intro h0
    have hd := hs.definition
    rw [h0] at hd
    have : (distinctArchs.all (fun l => !l.isEmpty)) = true := by decide +kernel
    have := List.all_eq_true.1 this _ hd
    simp at this
  have hu := C119_usable_partial f hs _ (alike_fits f hs.names hne hal)
  obtain ⟨_, k2⟩ := allWeights_mem hws
  have hfrom : ∀ e ∈ sections f c (es.map (fun e => ⟨e.1, numbered e.2⟩)), ∀ wt sl t ins, Place f.env e.1 (e.2.slices.getD []) wt sl t ins →
      sl = whole f c (es.map (fun e => ⟨e.1, numbered e.2⟩)) e.1 ∧ e.2.parameters = [] ∧ ∃ v ∈ ws, listed v = wt ∧ ins = (merged b es).map (fun r => (r, wt)) := by
    intro e he wt sl t ins hpl
    obtain ⟨n, hn', rfl⟩ := List.mem_map.1 he
    obtain ⟨m, hm⟩ := known_module hn'
    have hmem := place_mem hpl
    simp only [Option.getD_some] at hpl hmem
    rw [env_weights (module_eq hs.names hm)] at hmem
    simp only [List.map_cons, List.map_nil, List.sum_cons, List.sum_nil, Nat.add_zero] at hmem
    rw [whole_len hs.names hal hm] at hmem
    obtain ⟨v, hv, hvw⟩ := k2 (m, f.outLayers n) (List.mem_map.2 ⟨_, hm, rfl⟩) wt hmem
    obtain ⟨p1, p2⟩ := place_same hs.names hal hm hpl
    exact ⟨p1, rfl, v, hv, hvw, p2⟩
  have hpres : ∀ v, Present f (merged b es) v ↔ Present f (b :: es.map Prod.fst) v := by
    intro v
    unfold Present
    simp only [mem_merged]
  refine merges_congr mem_merged (C119_models f hs hal hws s _ (delivers_mono (hd _ (alike_sections hal) hu ?_) ?_))
  · intro e he wt sl t ins hpl hno
    obtain ⟨rfl, hpar, v, hv, rfl, rfl⟩ := hfrom e he wt sl t ins hpl
    have hp := (hpres v).1 (leftOut_iff.1 hno)
    obtain ⟨g1, g2⟩ := hload v hv hp
    refine ⟨⟨?_, g2⟩, hfacts v hv hp e _ t hpar⟩
    intro i hi
    obtain ⟨r, hr, rfl⟩ := List.mem_map.1 hi
    exact g1 r ((mem_merged r).1 hr)
  · rintro e he wt sl t ins z hpl hno ⟨y, y1, y2⟩ v' hv' hvw
    obtain ⟨rfl, hpar, v, hv, rfl, rfl⟩ := hfrom e he wt sl t ins hpl
    rw [← hvw] at y1 y2 hno
    have hp := (hpres v').1 (leftOut_iff.1 hno)
    exact ⟨y, y2, hR v' hv' hp e _ t y hpar y1⟩

end

end Verif.Shipped

namespace Verif.Main

open Verif.ModelRef (Str Ref)
open Verif.Document
open Verif.WholeMerge (getMethod MethodErr Uses Counts allBut Neared Selected Reinforced BaseIs ReinforcedPlus WeightIs)
open Verif.CommandLine (Line Enough Called)
open Verif.Shipped (Family IsShipped Merges Present Switch TaskConf merged mem_merged numbered said)
open Verif.Tensor (Tensor)

/-! ## What is claimed -/

/-- A right use of `mergekit-yaml`: the command line names a file with a document that lists models (`es`, with numbers for single models) and a base model, and numbers `ps` for all; the models are of one
shipped architecture and size, and what is to be loaded of them (`own`) is there in one shape, in data types that exist. -/
structure Good (W : World) (line : List Str) (name : String) (O : Str) (b : Ref) (es : List (Ref × List (Str × ℝ))) (ps : List (Str × ℝ)) (f : Family ℝ)
    (ws : List Arch.WeightInfo) (own : Ref → Str → Tensor ℝ) : Prop where
  command : ∃ (l : Line CommandLine.yaml.opts line) (k : CommandLine.Call) (F text : Str) (d : List (Str × Doc ℝ)) (dtype outDtype : Option Str),
    Enough CommandLine.yaml l.events l.args ∧ Called CommandLine.yaml l.events l.args k ∧ l.args = [F, O] ∧ W.file F = some text ∧ W.yaml text = some (.dict d) ∧
    PlainDoc W.lib d name.toList (some b) es ps dtype outDtype ∧ (∀ c, ConfSays W.lib d c → W.family c = some f) ∧
    ∀ v ∈ ws, Present f (b :: es.map Prod.fst) v →
      (∀ r ∈ b :: es.map Prod.fst, (LoadTask.wanted (dtype.map String.ofList) (Shipped.listed v)).execute W.casts (W.loaders r) = .ok (some (own r v.name)) ∧
        (own r v.name).shape = (own b v.name).shape) ∧
      (WholeMerge.storedType (outDtype.map String.ofList) (Shipped.listed v) = none ∨
        ∃ n t, WholeMerge.storedType (outDtype.map String.ofList) (Shipped.listed v) = some n ∧ (n, t) ∈ LoadTask.typeNames)
  some_model : es ≠ []
  once : (es.map Prod.fst).Nodup
  plain : ∀ r ∈ b :: es.map Prod.fst, r.Plain
  shipped : IsShipped f
  layers : ∀ r ∈ b :: es.map Prod.fst, ∀ n ∈ f.modules.map Prod.fst, f.layers r n = f.outLayers n
  weights : Arch.allWeights f.pairs = .ok ws

/-- The command starts a merge into the directory named, which succeeds and leaves exactly the weights of the architecture, each of them right. -/
def Leaves (W : World) (line : List Str) (O : Str) (f : Family ℝ) (ws : List Arch.WeightInfo) (models : List Ref) (right : Arch.WeightInfo → Tensor ℝ → Prop) : Prop :=
  ∃ p, yamlMain W line = .ok p ∧ p.out = O ∧ W.family p.conf = some f ∧
    Merges (p.family f) p.conf.toConfig ws models (p.setup W) (fun v z => ∃ y, WholeMerge.Stored (p.setup W) (Shipped.listed v) y z ∧ right v y)

/-- The tensors of the models listed other than the base. -/
noncomputable def others (b : Ref) (es : List (Ref × List (Str × ℝ))) (own : Ref → Str → Tensor ℝ) (name : Str) : List (Tensor ℝ) :=
  ((es.map Prod.fst).filter (fun r => decide (r ≠ b))).map (fun r => own r name)

/-- The entries that are compared for entry `k` of a tensor: those of its row, or all (specification). -/
def compared (rows : Bool) (shape : List Nat) (k : Nat) : List Nat :=
  if rows then (List.range (shape.getLastD 1)).map (fun j => k / shape.getLastD 1 * shape.getLastD 1 + j) else List.range shape.prod

theorem compared_eq : compared = Sphere.stockLine := rfl

/-- Two models, the base (listed or not) and another one. -/
def Two (b o : Ref) (es : List (Ref × List (Str × ℝ))) : Prop := o ≠ b ∧ (es.map Prod.fst = [b, o] ∨ es.map Prod.fst = [o, b] ∨ es.map Prod.fst = [o])

/-- Three models: the base (listed at any place or not) and two others, with their weights. -/
def Three (b i j : Ref) (wi wj : ℝ) (es : List (Ref × List (Str × ℝ))) (ps : List (Str × ℝ)) : Prop :=
  i ≠ b ∧ j ≠ b ∧ i ≠ j ∧ ∃ pi pj, said "weight" pi ps = some wi ∧ said "weight" pj ps = some wj ∧
    ((∃ pb, es = [(b, pb), (i, pi), (j, pj)] ∨ es = [(i, pi), (b, pb), (j, pj)] ∨ es = [(i, pi), (j, pj), (b, pb)]) ∨ es = [(i, pi), (j, pj)])

theorem two_merged {b o : Ref} {es : List (Ref × List (Str × ℝ))} (h : Two b o es) : merged b es = [b, o] ∨ merged b es = [o, b] := by
  obtain ⟨hob, h⟩ := h
  unfold merged
  rcases h with h | h | h
  · left; rw [h]; simp
  · right; rw [h]; simp
  · right; rw [h]; simp [Ne.symm hob]

theorem allBut_merged {b : Ref} {es : List (Ref × List (Str × ℝ))} {own : Ref → Str → Tensor ℝ} (v : Arch.WeightInfo) :
    allBut b (fun r wi => own r wi.name) ((merged b es).map (fun r => (r, Shipped.listed v))) = others b es own v.name := by
  unfold allBut merged others
  rw [Shipped.filter_base, List.filter_map, List.map_map, List.map_map]
  rfl

section
variable {W : World} {line : List Str} {O : Str} {b : Ref} {es : List (Ref × List (Str × ℝ))} {ps : List (Str × ℝ)} {f : Family ℝ} {ws : List Arch.WeightInfo}
  {own : Ref → Str → Tensor ℝ}

/-- The command, and then place by place. -/
theorem good_leaves {name : String} (h : Good W line name O b es ps f ws own) (hname : name ∈ WholeMerge.guideNames)
    (facts : Config.MergeConfig ℝ → (e : String × Config.OutModule ℝ) → (w : LoadTask.WeightInfo) → (sl : Config.OutSlice ℝ) → (t : ℝ) → (ins : List (Ref × LoadTask.WeightInfo)) → Prop)
    (R : Config.MergeConfig ℝ → (e : String × Config.OutModule ℝ) → (w : LoadTask.WeightInfo) → (sl : Config.OutSlice ℝ) → (t : ℝ) → (ins : List (Ref × LoadTask.WeightInfo)) → Tensor ℝ → Prop)
    (hd : ∀ (env : Plan.Env ℝ) (c : Config.MergeConfig ℝ) (s : WholeMerge.Setup ℝ (Tensor ℝ) MethodErr) l, WholeMerge.Sections env c l → WholeMerge.Usable env l → Uses W.chance name env s →
      (∀ e ∈ l, ∀ w sl t ins, WholeMerge.Place env e.1 (e.2.slices.getD []) w sl t ins → ¬ WholeMerge.LeftOut env w ins →
        WholeMerge.Fed s (fun r wi => own r wi.name) w ins ∧ facts c e w sl t ins) →
      WholeMerge.Delivers env c l s (fun e w sl t ins z => ∃ y, R c e w sl t ins y ∧ WholeMerge.Stored s w y z))
    (right : Arch.WeightInfo → Tensor ℝ → Prop)
    (hfacts : ∀ (g : Family ℝ) (c : Config.MergeConfig ℝ), TaskConf c b es ps → ∀ v ∈ ws, Present f (b :: es.map Prod.fst) v →
      (∀ r ∈ b :: es.map Prod.fst, (own r v.name).shape = (own b v.name).shape) → ∀ (e : String × Config.OutModule ℝ) n t, e.2.parameters = [] →
      facts c e (Shipped.listed v) (Shipped.whole g c (es.map (fun e => ⟨e.1, numbered e.2⟩)) n) t ((merged b es).map (fun r => (r, Shipped.listed v))))
    (hR : ∀ (g : Family ℝ) (c : Config.MergeConfig ℝ), TaskConf c b es ps → ∀ v ∈ ws, ∀ (e : String × Config.OutModule ℝ) n t y, e.2.parameters = [] →
      R c e (Shipped.listed v) (Shipped.whole g c (es.map (fun e => ⟨e.1, numbered e.2⟩)) n) t ((merged b es).map (fun r => (r, Shipped.listed v))) y → right v y) :
    Leaves W line O f ws (b :: es.map Prod.fst) right := by
  obtain ⟨l, k, F, text, d, dtype, outDtype, hk, hk', hargs, hfile, hyaml, hdoc, hf, hown⟩ := h.command
  obtain ⟨c, hc, hmm, hdt, hot, hms, hsl, hmo, hbm, hpar, htk, hts⟩ := plain_says hdoc h.some_model
  have hread : read W.lib (.dict d) = .ok c := C130_accepts (.none (hdoc.others _ (by simp))) hc
  obtain ⟨m, hm, -⟩ := (WholeMerge.C113_names W.chance name.toList).1.2 ⟨name, hname, rfl⟩
  have hget : getMethod W.chance c.mergeMethod = some m := by rw [hmm]; exact hm
  have hmain := (C131_main W l ⟨k.merge, O, text, c, m⟩).2 ⟨F, k, _, hk, hk', hargs, rfl, hfile, hyaml, hread, hget⟩
  refine ⟨_, hmain, rfl, hf c hc, ?_⟩
  have hconf : TaskConf c.toConfig b es ps := ⟨hms, hsl, hbm, hpar, h.some_model, h.once⟩
  refine Shipped.based_merges (f := Prepared.family ⟨k.merge, O, text, c, m⟩ f) ⟨h.shipped.definition, h.shipped.not_bert, h.shipped.names⟩ hconf h.plain h.layers h.weights
    (Prepared.setup ⟨k.merge, O, text, c, m⟩ W) own ?_ (facts c.toConfig) (R c.toConfig) ?_ right ?_ ?_
  · intro v hv hp
    obtain ⟨g1, g2⟩ := hown v hv hp
    rw [← hdt] at g1
    rw [← hot] at g2
    exact ⟨fun r hr => (g1 r hr).1, g2⟩
  · intro l' hl' hu' hh
    exact hd _ _ _ l' hl' hu' ⟨m, hm, rfl, rfl, rfl⟩ hh
  · intro v hv hp e n t he
    exact hfacts _ _ hconf v hv hp (fun r hr => ((hown v hv hp).1 r hr).2) e n t he
  · intro v hv _ e n t y he hr
    exact hR _ _ hconf v hv e n t y he hr

theorem counts_number {g : Family ℝ} {c : Config.MergeConfig ℝ} (hc : TaskConf c b es ps) {e : String × Config.OutModule ℝ} (he : e.2.parameters = []) (n : String) (name : Str) (t : ℝ) (key : String) (x y : ℝ) :
    Counts c e.2 (Shipped.whole g c (es.map (fun e => ⟨e.1, numbered e.2⟩)) n) name t key (.num x) (.num y) ↔ y = (ps.lookup key.toList).getD x := by
  unfold Counts
  constructor
  · rintro ⟨v, hv, h⟩
    rw [(Shipped.said_all hc he name t key v).1 hv, Shipped.getD_num] at h
    exact (Config.Scalar.num.inj h).symm
  · rintro rfl
    exact ⟨_, (Shipped.said_all hc he name t key _).2 rfl, Shipped.getD_num _ _⟩

theorem base_eq {g : Family ℝ} {c : Config.MergeConfig ℝ} (hc : TaskConf c b es ps) {n : String} {b' : Ref} :
    BaseIs c (Shipped.whole g c (es.map (fun e => ⟨e.1, numbered e.2⟩)) n) b' ↔ b' = b := by
  constructor
  · rintro (h | ⟨_, h⟩)
    · cases h
    · rw [hc.base] at h
      exact (Option.some.inj h).symm
  · rintro rfl
    exact Or.inr ⟨rfl, hc.base⟩

theorem base_in {v : Arch.WeightInfo} {wb : LoadTask.WeightInfo} (h : (b, wb) ∈ (merged b es).map (fun r => (r, Shipped.listed v))) : wb = Shipped.listed v := by
  obtain ⟨r, -, hr⟩ := List.mem_map.1 h
  exact (Prod.mk.inj hr).2.symm

theorem base_mem (v : Arch.WeightInfo) : (b, Shipped.listed v) ∈ (merged b es).map (fun r => (r, Shipped.listed v)) :=
  List.mem_map.2 ⟨b, (mem_merged b).2 List.mem_cons_self, rfl⟩

/-- **C149** Nearswap of the base model and another one, with a number `t` that is not negative. -/
theorem C149_nearswap (horder : ∀ name l, (W.chance.order name l).Perm l) (h : Good W line "nearswap" O b es ps f ws own) {o : Ref} (htwo : Two b o es)
    {x : ℝ} (hx : ps.lookup "t".toList = some x) (hx0 : 0 ≤ x) :
    Leaves W line O f ws (b :: es.map Prod.fst) (fun v y => Neared (own b v.name) (own o v.name) x y) := by
  have hmod := two_merged htwo
  have ho : o ∈ b :: es.map Prod.fst := by
    rw [← mem_merged]
    rcases hmod with h | h <;> simp [h]
  refine good_leaves h (by simp [WholeMerge.guideNames]) _ _ (fun env c s l hl hu huse hh => WholeMerge.C113_nearswap W.chance horder env c l hl hu s _ huse hh) _ ?_ ?_
  · intro g c hc v hv hp hsh e n t he
    refine ⟨b, Shipped.listed v, o, Shipped.listed v, x, (base_eq hc).2 rfl, ?_, ?_, hx0, (hsh o ho).symm⟩
    · rcases hmod with h | h <;> rw [h]
      · exact .refl _
      · exact .swap _ _ _
    · have := (Shipped.said_all (f := g) hc (n := n) he (Shipped.listed v).name t "t" _).2 rfl
      rw [hx] at this
      exact this
  · rintro g c hc v hv e n t y he ⟨b', wb, m, wm, x', hb', hins, hx', hy⟩
    obtain rfl := (base_eq hc).1 hb'
    have hx'' := (Shipped.said_all hc he _ _ _ _).1 hx'
    rw [hx] at hx''
    obtain rfl : x' = x := by simpa using hx''
    have hperm : [(b', Shipped.listed v), (o, Shipped.listed v)].Perm [(b', wb), (m, wm)] := by
      refine List.Perm.trans ?_ hins
      rcases hmod with h | h <;> rw [h]
      · exact .refl _
      · exact .swap _ _ _
    have hwb : wb = Shipped.listed v := base_in (b := b') (hins.mem_iff.2 (by simp))
    subst hwb
    have h2 := (List.perm_cons _).1 hperm
    have h3 := List.singleton_perm.1 h2
    simp only [List.cons.injEq, Prod.mk.injEq, and_true] at h3
    obtain ⟨rfl, rfl⟩ := h3
    exact hy

/-- **C149** RAM with the number `epsilon` (1/100000 if there is none). -/
theorem C149_ram (horder : ∀ name l, (W.chance.order name l).Perm l) (h : Good W line "ram" O b es ps f ws own) :
    Leaves W line O f ws (b :: es.map Prod.fst) (fun v y => Reinforced (own b v.name) (others b es own v.name) ((ps.lookup "epsilon".toList).getD (1 / 100000)) y) := by
  refine good_leaves h (by simp [WholeMerge.guideNames]) _ _ (fun env c s l hl hu huse hh => WholeMerge.C113_ram W.chance horder env c l hl hu s _ huse hh) _ ?_ ?_
  · intro g c hc v hv hp hsh e n t he
    refine ⟨b, Shipped.listed v, _, (base_eq hc).2 rfl, base_mem v, (counts_number hc he _ _ _ _ _ _).2 rfl, ?_⟩
    intro i hi
    obtain ⟨r, hr, rfl⟩ := List.mem_map.1 hi
    exact hsh r ((mem_merged r).1 hr)
  · rintro g c hc v hv e n t y he ⟨b', wb, eps, hb', hins, heps, hy⟩
    obtain rfl := (base_eq hc).1 hb'
    obtain rfl := base_in hins
    obtain rfl := (counts_number hc he _ _ _ _ _ _).1 heps
    rw [allBut_merged] at hy
    exact hy

/-- **C149** RAM+ with the numbers `r`, `alpha` and `epsilon` (1/10, 2/10 and 1/100000 if there are none). -/
theorem C149_ramplus (horder : ∀ name l, (W.chance.order name l).Perm l) (h : Good W line "ramplus_tl" O b es ps f ws own)
    (he0 : 0 < (ps.lookup "epsilon".toList).getD (1 / 100000)) (he1 : (ps.lookup "epsilon".toList).getD (1 / 100000) ≤ 1) (ha : 0 ≤ (ps.lookup "alpha".toList).getD (2 / 10)) :
    Leaves W line O f ws (b :: es.map Prod.fst) (fun v y => ReinforcedPlus (own b v.name) (others b es own v.name) ((ps.lookup "r".toList).getD (1 / 10))
      ((ps.lookup "alpha".toList).getD (2 / 10)) ((ps.lookup "epsilon".toList).getD (1 / 100000)) y) := by
  refine good_leaves h (by simp [WholeMerge.guideNames]) _ _ (fun env c s l hl hu huse hh => WholeMerge.C113_ramplus W.chance horder env c l hl hu s _ huse hh) _ ?_ ?_
  · intro g c hc v hv hp hsh e n t he
    refine ⟨b, Shipped.listed v, _, _, _, ⟨(base_eq hc).2 rfl, base_mem v, (counts_number hc he _ _ _ _ _ _).2 rfl, (counts_number hc he _ _ _ _ _ _).2 rfl,
      (counts_number hc he _ _ _ _ _ _).2 rfl⟩, he0, he1, ha, ?_⟩
    intro i hi
    obtain ⟨r, hr, rfl⟩ := List.mem_map.1 hi
    exact hsh r ((mem_merged r).1 hr)
  · rintro g c hc v hv e n t y he ⟨b', wb, r, alpha, eps, ⟨hb', hins, h1, h2, h3⟩, hy⟩
    obtain rfl := (base_eq hc).1 hb'
    obtain rfl := base_in hins
    obtain rfl := (counts_number hc he _ _ _ _ _ _).1 h1
    obtain rfl := (counts_number hc he _ _ _ _ _ _).1 h2
    obtain rfl := (counts_number hc he _ _ _ _ _ _).1 h3
    rw [allBut_merged] at hy
    exact hy

/-- **C149** SCE with the number `select_topk` (1 if there is none), where at least one entry of every weight is selected. -/
theorem C149_sce (horder : ∀ name l, (W.chance.order name l).Perm l) (h : Good W line "sce" O b es ps f ws own) (hother : ∃ r ∈ es.map Prod.fst, r ≠ b)
    (hsel : ∀ v ∈ ws, Present f (b :: es.map Prod.fst) v → 1 ≤ (ps.lookup "select_topk".toList).getD 1 ∨ (0 < (ps.lookup "select_topk".toList).getD 1 ∧
      1 ≤ ⌊(Merge.varyingCount (own b v.name) (others b es own v.name) : ℝ) * (ps.lookup "select_topk".toList).getD 1⌋)) :
    Leaves W line O f ws (b :: es.map Prod.fst) (fun v y => Selected (W.chance.topk v.name) (own b v.name) (others b es own v.name) ((ps.lookup "select_topk".toList).getD 1) y) := by
  have hne : ∀ name, others b es own name ≠ [] := by
    intro name h0
    obtain ⟨r, hr, hrb⟩ := hother
    have : own r name ∈ others b es own name := List.mem_map.2 ⟨r, List.mem_filter.2 ⟨hr, by simpa using hrb⟩, rfl⟩
    rw [h0] at this
    cases this
  refine good_leaves h (by simp [WholeMerge.guideNames]) _ _ (fun env c s l hl hu huse hh => WholeMerge.C113_sce W.chance horder env c l hl hu s _ huse hh) _ ?_ ?_
  · intro g c hc v hv hp hsh e n t he
    refine ⟨b, Shipped.listed v, _, (base_eq hc).2 rfl, base_mem v, ⟨_, (counts_number hc he _ _ _ _ _ _).2 rfl⟩, (counts_number hc he _ _ _ _ _ _).2 rfl, ?_, ?_, ?_⟩
    · rw [allBut_merged]; exact hne _
    · rw [allBut_merged]; exact hsel v hv hp
    · intro i hi
      obtain ⟨r, hr, rfl⟩ := List.mem_map.1 hi
      exact hsh r ((mem_merged r).1 hr)
  · rintro g c hc v hv e n t y he ⟨b', wb, sel, hb', hins, hs, hy⟩
    obtain rfl := (base_eq hc).1 hb'
    obtain rfl := base_in hins
    obtain rfl := (counts_number hc he _ _ _ _ _ _).1 hs
    rw [allBut_merged] at hy
    exact hy

/-- **C149** Model stock of the base model and at least two others, row by row with `filter_wise`. -/
theorem C149_model_stock (h : Good W line "model_stock" O b es ps f ws own) {filterWise : Bool} (hfw : Switch "filter_wise" false ps filterWise)
    (hmany : 3 ≤ (merged b es).length)
    (hfin : ∀ v ∈ ws, Present f (b :: es.map Prod.fst) v → ∀ k < (own b v.name).numel, 1 + (((others b es own v.name).length : ℝ) - 1) *
      Sphere.meanCos (compared filterWise (own b v.name).shape k) ((others b es own v.name).map (fun x => fun j => x.get j - (own b v.name).get j)) ≠ 0) :
    Leaves W line O f ws (b :: es.map Prod.fst) (fun v y => y.shape = (own b v.name).shape ∧ ∀ k, y.get k = (own b v.name).get k + Sphere.ratio (others b es own v.name).length
        (Sphere.meanCos (compared filterWise (own b v.name).shape k) ((others b es own v.name).map (fun x => fun j => x.get j - (own b v.name).get j))) *
      (((others b es own v.name).map (fun x => x.get k)).sum / (others b es own v.name).length - (own b v.name).get k)) := by
  refine good_leaves h (by simp [WholeMerge.guideNames]) _ _ (fun env c s l hl hu huse hh => WholeMerge.C113_model_stock W.chance env c l hl hu s _ huse hh) _ ?_ ?_
  · intro g c hc v hv hp hsh e n t he
    refine ⟨b, Shipped.listed v, filterWise, (base_eq hc).2 rfl, base_mem v, ⟨_, (Shipped.said_all hc he _ _ _ _).2 rfl, Shipped.switch_yes hfw⟩, by simpa using hmany, ?_, ?_⟩
    · intro i hi
      obtain ⟨r, hr, rfl⟩ := List.mem_map.1 hi
      exact hsh r ((mem_merged r).1 hr)
    · intro k hk
      rw [allBut_merged]
      exact hfin v hv hp k hk
  · rintro g c hc v hv e n t y he ⟨b', wb, fw, hb', hins, ⟨s, hs1, hs2⟩, hy⟩
    obtain rfl := (base_eq hc).1 hb'
    obtain rfl := base_in hins
    rw [(Shipped.said_all hc he _ _ _ _).1 hs1, Shipped.switch_yes hfw] at hs2
    obtain rfl := Shipped.yes_inj hs2
    rw [allBut_merged] at hy
    exact hy

/-- **C149** Arcee fusion of the base model and another one. -/
theorem C149_arcee_fusion (h : Good W line "arcee_fusion" O b es ps f ws own) {o : Ref} (htwo : Two b o es) :
    Leaves W line O f ws (b :: es.map Prod.fst) (fun v y => y.shape = (own b v.name).shape ∧ ∃ th,
      let score := Sphere.score ((own b v.name).shape.getLastD 1) (own b v.name).get (own o v.name).get
      let n := (own b v.name).numel
      (∀ i, y.get i = if th ≤ score i then (own o v.name).get i else (own b v.name).get i) ∧
      (0 < n → n ≤ 1000000 → ∃ q1 q2 q3, Sphere.IsEntry ((List.range n).map score) ((n - 1) / 4) q1 ∧
        Sphere.IsEntry ((List.range n).map score) ((n - 1) / 2) q2 ∧ Sphere.IsEntry ((List.range n).map score) (3 * (n - 1) / 4) q3 ∧
        th = q2 + 3 / 2 * (q3 - q1))) := by
  have hmod := two_merged htwo
  have ho : o ∈ b :: es.map Prod.fst := by
    rw [← mem_merged]
    rcases hmod with h | h <;> simp [h]
  refine good_leaves h (by simp [WholeMerge.guideNames]) _ _ (fun env c s l hl hu huse hh => WholeMerge.C113_arcee_fusion W.chance env c l hl hu s _ huse hh) _ ?_ ?_
  · intro g c hc v hv hp hsh e n t he
    refine ⟨(b, Shipped.listed v), (o, Shipped.listed v), (base_eq hc).2 rfl, ?_, (hsh o ho).symm⟩
    rcases hmod with h | h <;> rw [h]
    · exact Or.inl rfl
    · exact Or.inr rfl
  · rintro g c hc v hv e n t y he ⟨⟨b', wb⟩, ⟨m, wm⟩, th, hb', hins, hy1, hy2⟩
    obtain rfl := (base_eq hc).1 hb'
    obtain ⟨rfl, rfl, rfl⟩ : m = o ∧ wb = Shipped.listed v ∧ wm = Shipped.listed v := by
      rcases hmod with h | h <;> rw [h] at hins <;> rcases hins with h' | h' <;>
        simp only [List.map_cons, List.map_nil, List.cons.injEq, Prod.mk.injEq, and_true] at h'
      · exact ⟨h'.2.1.symm, h'.1.2.symm, h'.2.2.symm⟩
      · exact absurd h'.2.1 htwo.1
      · exact absurd h'.1.1 htwo.1
      · exact ⟨h'.1.1.symm, h'.2.2.symm, h'.1.2.symm⟩
    exact ⟨hy1, th, hy2⟩

theorem weight_is {g : Family ℝ} {c : Config.MergeConfig ℝ} (hc : TaskConf c b es ps) {e : String × Config.OutModule ℝ} (he : e.2.parameters = []) {n : String} {t : ℝ} {r : Ref} {p : List (Str × ℝ)}
    (hin : (r, p) ∈ es) {w : ℝ} (hw : said "weight" p ps = some w) (wi : LoadTask.WeightInfo) (x : ℝ) :
    WeightIs c e.2 (Shipped.whole g c (es.map (fun e => ⟨e.1, numbered e.2⟩)) n) t (r, wi) x ↔ x = w := by
  constructor
  · rintro ⟨src, hs1, hs2, hx⟩
    obtain ⟨p', hp', h⟩ := Shipped.task_sources hc hs1
    have hin' : (r, p') ∈ es := by
      rcases h with h | ⟨h, h'⟩
      · rw [hs2] at h; exact h
      · exact absurd (List.mem_map.2 ⟨_, hin, hs2.symm.trans h⟩) h'
    have hpp : p' = p := by
      have := List.inj_on_of_nodup_map hc.once hin' hin rfl
      exact (Prod.mk.inj this).2
    subst hpp
    have := (Shipped.said_of hc he hp' _ _ _ _).1 hx
    rw [hw] at this
    simpa using this
  · rintro rfl
    refine ⟨⟨r, 0, g.env.numLayers r n, numbered p⟩, ?_, rfl, (Shipped.said_of hc he rfl _ _ _ _).2 (by rw [hw]; rfl)⟩
    unfold Shipped.whole Plan.fullDepth
    refine List.mem_append_left _ ?_
    rw [List.map_map]
    exact List.mem_map.2 ⟨_, hin, rfl⟩

/-- **C149** NuSLERP of the changes of two models from a base model: the base plus the point between the changes given by the share of the second weight. -/
theorem C149_nuslerp (h : Good W line "nuslerp" O b es ps f ws own) {i j : Ref} {wi wj : ℝ} (hthree : Three b i j wi wj es ps) {rowWise flatten : Bool}
    (hrow : Switch "nuslerp_row_wise" false ps rowWise) (hflat : Switch "nuslerp_flatten" true ps flatten) :
    Leaves W line O f ws (b :: es.map Prod.fst) (fun v y => y.shape = (own b v.name).shape ∧ ∀ k, y.get k = (own b v.name).get k +
      Sphere.interpolated flatten rowWise (own b v.name).shape (Sphere.share wi wj) (fun k => (own i v.name).get k - (own b v.name).get k) (fun k => (own j v.name).get k - (own b v.name).get k) k) := by
  obtain ⟨hib, hjb, hij, pi, pj, hwi, hwj, hes⟩ := hthree
  have hmod : merged b es = [b, i, j] ∨ merged b es = [i, b, j] ∨ merged b es = [i, j, b] := by
    rcases hes with ⟨pb, rfl | rfl | rfl⟩ | rfl
    · left; simp [merged]
    · right; left; simp [merged]
    · right; right; simp [merged]
    · right; right; simp [merged, Ne.symm hib, Ne.symm hjb]
  have hi : (i, pi) ∈ es := by rcases hes with ⟨pb, rfl | rfl | rfl⟩ | rfl <;> simp
  have hj : (j, pj) ∈ es := by rcases hes with ⟨pb, rfl | rfl | rfl⟩ | rfl <;> simp
  refine good_leaves h (by simp [WholeMerge.guideNames]) _ _ (fun env c s l hl hu huse hh => WholeMerge.C113_nuslerp_base W.chance env c l hl hu s _ huse hh) _ ?_ ?_
  · intro g c hc v hv hp hsh e n t he
    refine ⟨(b, Shipped.listed v), (i, Shipped.listed v), (j, Shipped.listed v), wi, wj, rowWise, flatten, (base_eq hc).2 rfl, ?_, (weight_is hc he hi hwi _ _).2 rfl,
      (weight_is hc he hj hwj _ _).2 rfl, ?_, ⟨⟨_, (Shipped.said_all hc he _ _ _ _).2 rfl, Shipped.switch_yes hrow⟩, ⟨_, (Shipped.said_all hc he _ _ _ _).2 rfl, Shipped.switch_yes hflat⟩⟩,
      hsh i (List.mem_cons_of_mem _ (List.mem_map.2 ⟨_, hi, rfl⟩)), hsh j (List.mem_cons_of_mem _ (List.mem_map.2 ⟨_, hj, rfl⟩))⟩
    · rcases hmod with h | h | h <;> rw [h]
      · exact Or.inl rfl
      · exact Or.inr (Or.inl rfl)
      · exact Or.inr (Or.inr rfl)
    · intro src hs1 hs2
      obtain ⟨p, hp, -⟩ := Shipped.task_sources hc hs1
      exact ⟨_, (Shipped.said_of hc he hp _ _ _ _).2 rfl⟩
  · rintro g c hc v hv e n t y he ⟨⟨b', wb⟩, ⟨i', wi'⟩, ⟨j', wj'⟩, x, x', row', flat', hb', hins, hx, hx', ⟨⟨s1, r1, r2⟩, ⟨s2, f1, f2⟩⟩, hy⟩
    obtain rfl := (base_eq hc).1 hb'
    obtain rfl := base_in (b := b') (es := es) (v := v) (wb := wb) (by rcases hins with h | h | h <;> rw [h] <;> simp)
    have hnd : (merged b' es).Nodup := by
      rcases hmod with h | h | h <;> rw [h] <;> simp [hib, hjb, hij, Ne.symm hib, Ne.symm hjb]
    have hfst : ((merged b' es).map (fun r => (r, Shipped.listed v))).map Prod.fst = merged b' es := by
      rw [List.map_map]; exact List.map_id _
    have hne : i' ≠ b' ∧ j' ≠ b' := by
      rw [← hfst] at hnd
      rcases hins with h | h | h <;> rw [h] at hnd <;>
        simp only [List.map_cons, List.map_nil, List.nodup_cons, List.mem_cons, List.not_mem_nil, or_false, not_or] at hnd
      · exact ⟨fun h => hnd.1.1 h.symm, fun h => hnd.1.2 h.symm⟩
      · exact ⟨hnd.1.1, fun h => hnd.2.1 h.symm⟩
      · exact ⟨hnd.1.2, hnd.2.1⟩
    have hf1 : ((merged b' es).map (fun r => (r, Shipped.listed v))).filter (fun i => decide (i.1 ≠ b')) = [(i, Shipped.listed v), (j, Shipped.listed v)] := by
      rcases hmod with h | h | h <;> rw [h] <;> simp [hib, hjb]
    have hf2 : ((merged b' es).map (fun r => (r, Shipped.listed v))).filter (fun i => decide (i.1 ≠ b')) = [(i', wi'), (j', wj')] := by
      rcases hins with h | h | h <;> rw [h] <;> simp [hne.1, hne.2]
    have hpair := hf2.symm.trans hf1
    simp only [List.cons.injEq, Prod.mk.injEq, and_true] at hpair
    obtain ⟨⟨rfl, rfl⟩, rfl, rfl⟩ := hpair
    obtain rfl := (weight_is hc he hi hwi _ _).1 hx
    obtain rfl := (weight_is hc he hj hwj _ _).1 hx'
    rw [(Shipped.said_all hc he _ _ _ _).1 r1, Shipped.switch_yes hrow] at r2
    rw [(Shipped.said_all hc he _ _ _ _).1 f1, Shipped.switch_yes hflat] at f2
    obtain rfl := Shipped.yes_inj r2
    obtain rfl := Shipped.yes_inj f2
    exact hy

/-- The weights of the models listed other than the base, with their changes. -/
noncomputable def changes (w : Ref → ℝ) (b : Ref) (es : List (Ref × List (Str × ℝ))) (own : Ref → Str → Tensor ℝ) (name : Str) : List (ℝ × (Nat → ℝ)) :=
  (es.filter (fun e => decide (e.1 ≠ b))).map (fun e => (w e.1, fun k => (own e.1 name).get k - (own b name).get k))

theorem parts_changes {g : Family ℝ} {c : Config.MergeConfig ℝ} (hc : TaskConf c b es ps) {e : String × Config.OutModule ℝ} (he : e.2.parameters = []) {n : String} {t : ℝ} {w : Ref → ℝ}
    (hw : ∀ e ∈ es, e.1 ≠ b → said "weight" e.2 ps = some (w e.1)) (v : Arch.WeightInfo) (parts : List (ℝ × (Nat → ℝ))) :
    WholeMerge.PartsAre c e.2 (Shipped.whole g c (es.map (fun e => ⟨e.1, numbered e.2⟩)) n) t (fun r wi => own r wi.name) (own b v.name).get
      (((merged b es).map (fun r => (r, Shipped.listed v))).filter (fun i => decide (i.1 ≠ b))) parts ↔ parts = changes w b es own v.name := by
  unfold WholeMerge.PartsAre changes merged
  rw [Shipped.filter_base, List.forall₂_map_left_iff]
  have hin : ∀ x ∈ es.filter (fun e => decide (e.1 ≠ b)), x ∈ es ∧ x.1 ≠ b := by
    intro x hx
    have := List.mem_filter.1 hx
    exact ⟨this.1, by simpa using this.2⟩
  generalize es.filter (fun e => decide (e.1 ≠ b)) = l at hin
  induction l generalizing parts with
  | nil => rw [List.forall₂_nil_left_iff]; rfl
  | cons x l ih =>
    obtain ⟨h1, h2⟩ := hin x List.mem_cons_self
    have hx : ∀ y, WeightIs c e.2 (Shipped.whole g c (es.map (fun e => ⟨e.1, numbered e.2⟩)) n) t (x.1, Shipped.listed v) y ↔ y = w x.1 :=
      fun y => weight_is hc he (r := x.1) (p := x.2) h1 (hw x h1 h2) _ y
    rw [List.forall₂_cons_left_iff]
    constructor
    · rintro ⟨p, ps', ⟨p1, p2⟩, h, rfl⟩
      rw [(ih _ (fun y hy => hin y (List.mem_cons_of_mem _ hy))).1 h, List.map_cons]
      congr 1
      exact Prod.ext ((hx _).1 p1) p2
    · rintro rfl
      exact ⟨_, _, ⟨(hx _).2 rfl, rfl⟩, (ih _ (fun y hy => hin y (List.mem_cons_of_mem _ hy))).2 rfl, rfl⟩

/-- **C149** Multi-SLERP of the changes from a base model, with weights `w`, if at least two models have changes, the weights can be normalised and the mean direction is not negligible: the base plus
the normalised weighted sum of the directions, times the weighted mean of the lengths (and the cosine of `eps`). -/
theorem C149_multislerp (horder : ∀ name l, (W.chance.order name l).Perm l) (h : Good W line "multislerp" O b es ps f ws own) {w : Ref → ℝ}
    (hw : ∀ e ∈ es, e.1 ≠ b → said "weight" e.2 ps = some (w e.1)) {normalize : Bool} (hn : Switch "normalize_weights" true ps normalize)
    {eps : ℝ} (heps : eps = (ps.lookup "eps".toList).getD (1 / 100000000)) (hpos : 0 < eps)
    (hfit : ∀ v ∈ ws, Present f (b :: es.map Prod.fst) v → 2 ≤ (changes w b es own v.name).length ∧ (normalize = true → ((changes w b es own v.name).map Prod.fst).sum ≠ 0) ∧
      eps ≤ Sphere.normOn (List.range (own b v.name).numel) (Sphere.direction (own b v.name).numel eps normalize (changes w b es own v.name))) :
    Leaves W line O f ws (b :: es.map Prod.fst) (fun v y => y.shape = (own b v.name).shape ∧ ∀ k, y.get k =
      Real.cos eps * Sphere.meanLength y.numel normalize (changes w b es own v.name) * (Sphere.direction y.numel eps normalize (changes w b es own v.name) k /
        Sphere.normOn (List.range y.numel) (Sphere.direction y.numel eps normalize (changes w b es own v.name))) + (own b v.name).get k) := by
  refine good_leaves h (by simp [WholeMerge.guideNames]) _ _ (fun env c s l hl hu huse hh => WholeMerge.C113_multislerp_base W.chance horder env c l hl hu s _ huse hh) _ ?_ ?_
  · intro g c hc v hv hp hsh e n t he
    obtain ⟨f1, f2, f3⟩ := hfit v hv hp
    refine ⟨b, Shipped.listed v, _, normalize, eps, (base_eq hc).2 rfl, base_mem v, (parts_changes hc he hw v _).2 rfl,
      ⟨⟨_, (Shipped.said_all hc he _ _ _ _).2 rfl, Shipped.switch_yes hn⟩, (counts_number hc he _ _ _ _ _ _).2 heps, hpos, f1, f2, f3⟩, ?_, ?_⟩
    · intro src hs1 hs2
      obtain ⟨p, hp, -⟩ := Shipped.task_sources hc hs1
      exact ⟨_, (Shipped.said_of hc he hp _ _ _ _).2 rfl⟩
    · intro i hi
      obtain ⟨r, hr, rfl⟩ := List.mem_map.1 hi
      exact hsh r ((mem_merged r).1 hr)
  · rintro g c hc v hv e n t y he ⟨b', wb, parts, nz, eps', hb', hins, hparts, ⟨⟨s1, r1, r2⟩, h2, -, -, -, -⟩, hy⟩
    obtain rfl := (base_eq hc).1 hb'
    obtain rfl := base_in hins
    obtain rfl := (parts_changes hc he hw v _).1 hparts
    obtain rfl := ((counts_number hc he _ _ _ _ _ _).1 h2).trans heps.symm
    rw [(Shipped.said_all hc he _ _ _ _).1 r1, Shipped.switch_yes hn] at r2
    obtain rfl := Shipped.yes_inj r2
    exact hy

end

/-! ## Concrete cases: two and three Llama models -/

/-- `merge_method: ...`, `base_model: a`, `models: [{model: b}]` or `models: [{model: b}, {model: c}]`, `parameters: {t: 3}` (or another name). -/
noncomputable def basedDoc (name : Str) (three : Bool) (key : Str := cs!"t") : List (Str × Doc ℝ) :=
  [(cs!"merge_method", .str name), (cs!"base_model", .str cs!"a"),
   (cs!"models", .list (.dict [(cs!"model", .str cs!"b")] :: if three then [.dict [(cs!"model", .str cs!"c")]] else [])),
   (cs!"parameters", .dict [(key, .float 3)])]

/-- All tensors of "a" are (2, 2), of "b" (5, 6), of "c" (6, 5). -/
def basedOwn (m : Ref) : Tensor ℝ := ⟨[2], fun i => if m = a then 2 else if m = b then (if i = 0 then 5 else 6) else if i = 0 then 6 else 5⟩

/-- A world with that file and those models. -/
noncomputable def basedWorld (ch : WholeMerge.Chance) (lib : Lib ℝ) (name : Str) (three : Bool) (key : Str := cs!"t") : World where
  file f := if f = cs!"c" then some cs!"models: ..." else none
  yaml _ := some (.dict (basedDoc name three key))
  lib := lib
  chance := ch
  family _ := some llama
  casts := ⟨fun _ => .float32, fun _ x => x⟩
  loaders m := ⟨Shipped.llamaWeights.map (fun v => String.ofList v.name), fun _ => .ok (basedOwn m), fun _ => .ok none⟩

/-- The models listed. -/
def basedModels (three : Bool) : List (Ref × List (Str × ℝ)) := (b, []) :: if three then [(third, [])] else []

theorem basedDoc_says (lib : Lib ℝ) (name : Str) (three : Bool) (key : Str) : PlainDoc lib (basedDoc name three key) name (some a) (basedModels three) [(key, 3)] none none where
  method := ⟨_, rfl, .mk _⟩
  base := .given (by simp) (.text rfl)
  models := by
    refine ⟨_, rfl, .cons ⟨_, none, rfl, ⟨_, rfl, .text rfl⟩, .missing, rfl⟩ ?_⟩
    cases three
    · exact .nil
    · exact .cons ⟨_, none, rfl, ⟨_, rfl, .text rfl⟩, .missing, rfl⟩ .nil
  parameters := ⟨some _, .given (by simp) (.mk (.cons ⟨rfl, .float _⟩ .nil)), rfl⟩
  dtype := .missing
  outDtype := .missing
  template := ⟨none, .missing⟩
  others := by
    intro k hk
    simp only [List.mem_cons, List.not_mem_nil, or_false] at hk
    rcases hk with rfl | rfl | rfl | rfl <;> rfl

/-- The example command line. -/
def basedLine : List Str := [cs!"-vj4", cs!"c", cs!"--no-cuda", cs!"o", cs!"--device", cs!"cuda:1", cs!"--cuda"]

theorem based_good (ch : WholeMerge.Chance) (lib : Lib ℝ) (name : String) (three : Bool) (key : Str := cs!"t") :
    Good (basedWorld ch lib name.toList three key) basedLine name cs!"o" a (basedModels three) [(key, 3)] llama Shipped.llamaWeights (fun r _ => basedOwn r) where
  command := by
    have hcall : ∃ k, CommandLine.call CommandLine.yaml basedLine = .ok k := ⟨_, rfl⟩
    obtain ⟨k, hk⟩ := hcall
    obtain ⟨h1, h2⟩ := (CommandLine.C128_call (by simp [CommandLine.commands]) CommandLine.exampleLine k).1 hk
    have hforce : ∀ v ∈ Shipped.llamaWeights, v.forceDtype = none ∧ v.name ≠ [] := by decide +kernel
    refine ⟨CommandLine.exampleLine, k, cs!"c", cs!"models: ...", _, none, none, h1, h2, rfl, rfl, rfl, basedDoc_says lib name.toList three key, fun _ _ => rfl, ?_⟩
    intro v hv _
    obtain ⟨hf, hne⟩ := hforce v hv
    refine ⟨?_, Or.inl (by simp [WholeMerge.storedType, Shipped.listed, hf])⟩
    intro r _
    refine ⟨?_, rfl⟩
    have hres : (LoadTask.wanted none (Shipped.listed v)).resolve ((basedWorld ch lib name.toList three key).loaders r) = some (String.ofList v.name) := by
      unfold LoadTask.LoadTensor.resolve
      simp only [LoadTask.wanted, Shipped.listed, List.cons_append, List.find?_cons]
      have : String.ofList v.name ∈ ((basedWorld ch lib name.toList three key).loaders r).names := List.mem_map.2 ⟨v, hv, rfl⟩
      rw [decide_eq_true this]
    have hne' : String.ofList v.name ≠ "" := by
      intro h
      apply hne
      have := congrArg String.toList h
      simpa using this
    unfold LoadTask.LoadTensor.execute LoadTask.LoadTensor.raw
    rw [Option.map_none, hres]
    simp only [if_neg hne']
    simp only [LoadTask.wanted, Shipped.listed, hf, Option.map_none, true_or, if_true, LoadTask.toDtype, basedWorld]
  some_model := by simp [basedModels]
  once := by cases three <;> decide +kernel
  plain := by
    intro r hr
    have : r = a ∨ r = b ∨ r = third := by
      cases three <;> simp [basedModels] at hr <;> tauto
    rcases this with rfl | rfl | rfl
    all_goals exact ⟨⟨by unfold ModelRef.NoSep; decide, (by rintro r hr; cases hr)⟩, (by rintro l hl; cases hl), rfl⟩
  shipped := llama_shipped
  layers := fun _ _ _ _ => rfl
  weights := Shipped.llama_weights

theorem leaves_mono {W : World} {line : List Str} {O : Str} {f : Family ℝ} {ws : List Arch.WeightInfo} {models : List Ref} {right right' : Arch.WeightInfo → Tensor ℝ → Prop}
    (h : Leaves W line O f ws models right) (hr : ∀ v y, right v y → right' v y) : Leaves W line O f ws models right' := by
  obtain ⟨p, q1, q2, q0, q3⟩ := h
  refine ⟨p, q1, q2, q0, ?_⟩
  intro group prio pop conf size hstd
  obtain ⟨mods, h1, trace, h2, fs, h3, h4, idx, h5, h6, h7⟩ := q3 group prio pop conf size hstd
  refine ⟨mods, h1, trace, h2, fs, h3, h4, idx, h5, h6, ?_⟩
  intro v hv hp
  obtain ⟨z, ⟨y, y1, y2⟩, h8⟩ := h7 v hv hp
  exact ⟨z, ⟨y, y1, hr v y y2⟩, h8⟩

theorem based_two : Two a b (basedModels false) := ⟨by decide +kernel, Or.inr (Or.inr rfl)⟩

theorem based_others (name : Str) : others a (basedModels true) (fun r _ => basedOwn r) name = [basedOwn b, basedOwn third] := by
  have hba : b ≠ a := by decide +kernel
  have hca : third ≠ a := by decide +kernel
  simp [others, basedModels, hba, hca]

/-- Nearswap: 5 is within 3 of 2 and is taken, 6 is not. -/
theorem nearswap_case (ch : WholeMerge.Chance) (horder : ∀ name l, (ch.order name l).Perm l) (lib : Lib ℝ) :
    Leaves (basedWorld ch lib "nearswap".toList false) basedLine cs!"o" llama Shipped.llamaWeights [a, b] (fun _ y => y.shape = [2] ∧ y.get 0 = 5 ∧ 2 ≤ y.get 1 ∧ y.get 1 ≤ 5) := by
  have hba : b ≠ a := by decide +kernel
  refine leaves_mono (C149_nearswap horder (based_good ch lib "nearswap" false) based_two (x := 3) rfl (by norm_num)) ?_
  rintro v y ⟨hs, hy⟩
  obtain ⟨-, -, -, h0⟩ := hy 0
  obtain ⟨h1, h2, -, -⟩ := hy 1
  simp only [basedOwn, hba, if_true, if_false, one_ne_zero] at h0 h1 h2
  norm_num at h0 h1 h2
  have := abs_le.1 h1
  exact ⟨hs, h0, h2, by linarith [this.2]⟩

/-- RAM: both models changed both entries. -/
theorem ram_case (ch : WholeMerge.Chance) (horder : ∀ name l, (ch.order name l).Perm l) (lib : Lib ℝ) :
    Leaves (basedWorld ch lib "ram".toList true) basedLine cs!"o" llama Shipped.llamaWeights [a, b, third] (fun _ y => y.shape = [2] ∧ y.get 0 = 11 / 2 ∧ y.get 1 = 11 / 2) := by
  have hba : b ≠ a := by decide +kernel
  have hca : third ≠ a := by decide +kernel
  have hcb : third ≠ b := by decide +kernel
  refine leaves_mono (C149_ram horder (based_good ch lib "ram" true)) ?_
  rintro v y ⟨hs, hy⟩
  have heps : (([(cs!"t", 3)] : List (Str × ℝ)).lookup "epsilon".toList).getD (1 / 100000) = 1 / 100000 := rfl
  have hch : ∀ i, Merge.changedAt (1 / 100000 : ℝ) (basedOwn a) [basedOwn b, basedOwn third] i = [basedOwn b, basedOwn third] := by
    intro i
    unfold Merge.changedAt
    rw [List.filter_eq_self]
    intro t ht
    simp only [List.mem_cons, List.not_mem_nil, or_false] at ht
    rw [decide_eq_true_iff]
    by_cases hi : i = 0 <;> rcases ht with rfl | rfl <;> simp only [basedOwn, hba, hca, hcb, hi, if_true, if_false] <;> norm_num
  have k0 := (hy 0).2.2
  have k1 := (hy 1).2.2
  rw [heps, based_others, hch] at k0 k1
  have k0 := k0 (by simp)
  have k1 := k1 (by simp)
  refine ⟨hs, ?_, ?_⟩
  · rw [k0]; simp only [basedOwn, hba, hca, hcb, List.map_cons, List.map_nil, List.sum_cons, List.sum_nil, if_true, if_false, List.length_cons, List.length_nil]; norm_num
  · rw [k1]; simp only [basedOwn, hba, hca, hcb, List.map_cons, List.map_nil, List.sum_cons, List.sum_nil, if_true, if_false, List.length_cons, List.length_nil, one_ne_zero]; norm_num

/-- RAM+ with one other model: all its changes are its own, none is shared, so that nothing is added to the factor 1. -/
theorem ramplus_case (ch : WholeMerge.Chance) (horder : ∀ name l, (ch.order name l).Perm l) (lib : Lib ℝ) :
    Leaves (basedWorld ch lib "ramplus_tl".toList false) basedLine cs!"o" llama Shipped.llamaWeights [a, b] (fun _ y => y.shape = [2] ∧ y.get 0 = 5 ∧ y.get 1 = 6) := by
  have hba : b ≠ a := by decide +kernel
  have heps : (([(cs!"t", 3)] : List (Str × ℝ)).lookup "epsilon".toList).getD (1 / 100000) = 1 / 100000 := rfl
  have halp : (([(cs!"t", 3)] : List (Str × ℝ)).lookup "alpha".toList).getD (2 / 10) = 2 / 10 := rfl
  refine leaves_mono (C149_ramplus horder (based_good ch lib "ramplus_tl" false) (by rw [heps]; norm_num) (by rw [heps]; norm_num) (by rw [halp]; norm_num)) ?_
  rintro v y ⟨hs, hy⟩
  have hoth : others a (basedModels false) (fun r _ => basedOwn r) v.name = [basedOwn b] := by simp [others, basedModels, hba]
  have hch : ∀ i, Merge.changedAt (1 / 100000 : ℝ) (basedOwn a) [basedOwn b] i = [basedOwn b] := by
    intro i
    unfold Merge.changedAt
    rw [List.filter_eq_self]
    intro t ht
    obtain rfl := List.mem_singleton.1 ht
    rw [decide_eq_true_iff]
    by_cases hi : i = 0 <;> simp only [basedOwn, hba, hi, if_true, if_false] <;> norm_num
  have hsc : Merge.sharedCount (1 / 100000 : ℝ) (basedOwn a) [basedOwn b] (basedOwn b) = 0 := by
    unfold Merge.sharedCount
    simp only [hch]
    simp
  have k0 := (hy 0 (by decide)).2.1
  have k1 := (hy 1 (by decide)).2.1
  rw [heps, halp, hoth] at k0 k1
  have k0 := k0 _ (hch 0)
  have k1 := k1 _ (hch 1)
  rw [hsc, Nat.cast_zero, zero_div, min_eq_left (by norm_num), mul_zero, add_zero, one_mul] at k0 k1
  refine ⟨hs, ?_, ?_⟩
  · rw [k0]; simp [basedOwn, hba]
  · rw [k1]; simp [basedOwn, hba]

/-- SCE: all entries are selected, both models agree and have the same share. -/
theorem sce_case (ch : WholeMerge.Chance) (horder : ∀ name l, (ch.order name l).Perm l) (lib : Lib ℝ) :
    Leaves (basedWorld ch lib "sce".toList true) basedLine cs!"o" llama Shipped.llamaWeights [a, b, third] (fun _ y => y.shape = [2] ∧ y.get 0 = 11 / 2) := by
  have hba : b ≠ a := by decide +kernel
  have hca : third ≠ a := by decide +kernel
  have hcb : third ≠ b := by decide +kernel
  have hsel : (([(cs!"t", 3)] : List (Str × ℝ)).lookup "select_topk".toList).getD 1 = 1 := rfl
  refine leaves_mono (C149_sce horder (based_good ch lib "sce" true) ⟨b, by simp [basedModels], hba⟩ (fun v _ _ => Or.inl (le_of_eq hsel.symm))) ?_
  rintro v y ⟨hs, S, hS, hy⟩
  refine ⟨hs, ?_⟩
  have hall : ∀ i, S i = true := fun i => (hS i).2 (Or.inl (le_of_eq hsel.symm))
  have h0 := hy 0
  rw [based_others] at h0
  have hnum : (basedOwn a).numel = 2 := rfl
  have mb : Merge.meanSquare (basedOwn a) S (basedOwn b) = 25 / 2 := by
    unfold Merge.meanSquare; rw [hnum]; simp [Merge.selectedChange, hall, List.range_succ, basedOwn, hba]; norm_num
  have mc : Merge.meanSquare (basedOwn a) S (basedOwn third) = 25 / 2 := by
    unfold Merge.meanSquare; rw [hnum]; simp [Merge.selectedChange, hall, List.range_succ, basedOwn, hca, hcb]; norm_num
  have cb : Merge.selectedChange (basedOwn a) S (basedOwn b) 0 = 3 := by simp [Merge.selectedChange, hall, basedOwn, hba]; norm_num
  have cc : Merge.selectedChange (basedOwn a) S (basedOwn third) 0 = 4 := by simp [Merge.selectedChange, hall, basedOwn, hca, hcb]; norm_num
  have sb : Merge.sceShare (basedOwn a) S [basedOwn b, basedOwn third] (basedOwn b) = 1 / 2 := by
    simp only [Merge.sceShare, List.map_cons, List.map_nil, List.sum_cons, List.sum_nil, mb, mc]; norm_num [abs_of_pos]
  have sc : Merge.sceShare (basedOwn a) S [basedOwn b, basedOwn third] (basedOwn third) = 1 / 2 := by
    simp only [Merge.sceShare, List.map_cons, List.map_nil, List.sum_cons, List.sum_nil, mb, mc]; norm_num [abs_of_pos]
  have hag : Merge.sceAgree (basedOwn a) S [basedOwn b, basedOwn third] 0 = [basedOwn b, basedOwn third] := by
    unfold Merge.sceAgree
    simp only [List.map_cons, List.map_nil, List.sum_cons, List.sum_nil, cb, cc, List.filter_cons, List.filter_nil]
    norm_num
  rw [h0, hag]
  simp only [List.map_cons, List.map_nil, List.sum_cons, List.sum_nil, sb, sc, cb, cc]
  have : (basedOwn a).get 0 = 2 := by simp [basedOwn]
  rw [this]
  norm_num

/-- Model stock: the changes (3, 4) and (4, 3) have the cosine 24/25, so the ratio is 48/49. -/
theorem stock_case (ch : WholeMerge.Chance) (lib : Lib ℝ) :
    Leaves (basedWorld ch lib "model_stock".toList true) basedLine cs!"o" llama Shipped.llamaWeights [a, b, third] (fun _ y => y.shape = [2] ∧ y.get 0 = 38 / 7 ∧ y.get 1 = 38 / 7) := by
  have hba : b ≠ a := by decide +kernel
  have hca : third ≠ a := by decide +kernel
  have hcb : third ≠ b := by decide +kernel
  have hcos : ∀ k, Sphere.meanCos (compared false (basedOwn a).shape k) ([basedOwn b, basedOwn third].map (fun x => fun j => x.get j - (basedOwn a).get j)) = 24 / 25 := by
    intro k
    have hl : compared false (basedOwn a).shape k = [0, 1] := rfl
    have e5 : Real.sqrt 25 = 5 := by rw [show (25 : ℝ) = 5 ^ 2 by norm_num]; exact Real.sqrt_sq (by norm_num)
    have n1 : Sphere.normOn [0, 1] (fun j => (basedOwn b).get j - (basedOwn a).get j) = 5 := by
      rw [← e5]; unfold Sphere.normOn Sphere.dotOn; congr 1; simp [basedOwn, hba]; norm_num
    have n2 : Sphere.normOn [0, 1] (fun j => (basedOwn third).get j - (basedOwn a).get j) = 5 := by
      rw [← e5]; unfold Sphere.normOn Sphere.dotOn; congr 1; simp [basedOwn, hca, hcb]; norm_num
    have d12 : Sphere.dotOn [0, 1] (fun j => (basedOwn b).get j - (basedOwn a).get j) (fun j => (basedOwn third).get j - (basedOwn a).get j) = 24 := by
      unfold Sphere.dotOn; simp [basedOwn, hba, hca, hcb]; norm_num
    have d21 : Sphere.dotOn [0, 1] (fun j => (basedOwn third).get j - (basedOwn a).get j) (fun j => (basedOwn b).get j - (basedOwn a).get j) = 24 := by
      unfold Sphere.dotOn; simp [basedOwn, hba, hca, hcb]; norm_num
    have hm : max ((5 : ℝ) * 5) (1 / 1000000) = 25 := by norm_num
    have c12 : Sphere.offsetCos [0, 1] (fun j => (basedOwn b).get j - (basedOwn a).get j) (fun j => (basedOwn third).get j - (basedOwn a).get j) = 24 / 25 := by
      unfold Sphere.offsetCos; rw [d12, n1, n2, hm, min_eq_right (by norm_num), max_eq_right (by norm_num)]
    have c21 : Sphere.offsetCos [0, 1] (fun j => (basedOwn third).get j - (basedOwn a).get j) (fun j => (basedOwn b).get j - (basedOwn a).get j) = 24 / 25 := by
      unfold Sphere.offsetCos; rw [d21, n1, n2, hm, min_eq_right (by norm_num), max_eq_right (by norm_num)]
    unfold Sphere.meanCos
    rw [hl]
    simp only [List.map_cons, List.map_nil, List.sum_cons, List.sum_nil, c12, c21, List.length_cons, List.length_nil]
    push_cast
    ring
  refine leaves_mono (C149_model_stock (based_good ch lib "model_stock" true) (filterWise := false) (Or.inl ⟨rfl, rfl⟩) (by decide +kernel) ?_) ?_
  · intro v _ _ k _
    rw [based_others, hcos]
    simp only [List.length_cons, List.length_nil]
    norm_num
  · rintro v y ⟨hs, hy⟩
    have k0 := hy 0
    have k1 := hy 1
    rw [based_others, hcos] at k0 k1
    refine ⟨hs, ?_, ?_⟩
    · rw [k0]; simp [Sphere.ratio, basedOwn, hba, hca, hcb]; norm_num
    · rw [k1]; simp [Sphere.ratio, basedOwn, hba, hca, hcb]; norm_num

/-- NuSLERP with the same weight for both: half way between the changes (3, 4) and (4, 3), where both entries are the same. -/
theorem nuslerp_case (ch : WholeMerge.Chance) (lib : Lib ℝ) :
    Leaves (basedWorld ch lib "nuslerp".toList true cs!"weight") basedLine cs!"o" llama Shipped.llamaWeights [a, b, third] (fun _ y => y.shape = [2] ∧ y.get 0 = y.get 1) := by
  have hba : b ≠ a := by decide +kernel
  have hca : third ≠ a := by decide +kernel
  have hcb : third ≠ b := by decide +kernel
  have hthree : Three a b third 3 3 (basedModels true) [(cs!"weight", 3)] := ⟨hba, hca, Ne.symm hcb, [], [], rfl, rfl, Or.inr rfl⟩
  have hsh : Sphere.share 3 3 = 1 / 2 := by
    unfold Sphere.share
    norm_num [abs_of_pos]
  refine leaves_mono (C149_nuslerp (based_good ch lib "nuslerp" true cs!"weight") hthree (rowWise := false) (flatten := true) (Or.inl ⟨rfl, rfl⟩) (Or.inl ⟨rfl, rfl⟩)) ?_
  rintro v y ⟨hs, hy⟩
  refine ⟨hs, ?_⟩
  have b0 : (basedOwn b).get 0 = 5 := by simp [basedOwn, hba]
  have b1 : (basedOwn b).get 1 = 6 := by simp [basedOwn, hba]
  have c0 : (basedOwn third).get 0 = 6 := by simp [basedOwn, hca, hcb]
  have c1 : (basedOwn third).get 1 = 5 := by simp [basedOwn, hca, hcb]
  have a0 : ∀ k, (basedOwn a).get k = 2 := fun k => by simp [basedOwn]
  have hline : Sphere.nuslerpLine true false (basedOwn a).shape 0 = Sphere.nuslerpLine true false (basedOwn a).shape 1 := rfl
  rw [hy 0, hy 1, hsh]
  simp only [Sphere.interpolated, hline, b0, b1, c0, c1, a0]
  split <;> ring_nf

/-- Multi-SLERP with the same weight for both: in the middle direction between the changes (3, 4) and (4, 3), where both entries are the same. -/
theorem multislerp_case (ch : WholeMerge.Chance) (horder : ∀ name l, (ch.order name l).Perm l) (lib : Lib ℝ) :
    Leaves (basedWorld ch lib "multislerp".toList true cs!"weight") basedLine cs!"o" llama Shipped.llamaWeights [a, b, third] (fun _ y => y.shape = [2] ∧ y.get 0 = y.get 1) := by
  have hba : b ≠ a := by decide +kernel
  have hca : third ≠ a := by decide +kernel
  have hcb : third ≠ b := by decide +kernel
  have b0 : (basedOwn b).get 0 = 5 := by simp [basedOwn, hba]
  have b1 : (basedOwn b).get 1 = 6 := by simp [basedOwn, hba]
  have c0 : (basedOwn third).get 0 = 6 := by simp [basedOwn, hca, hcb]
  have c1 : (basedOwn third).get 1 = 5 := by simp [basedOwn, hca, hcb]
  have a0 : ∀ k, (basedOwn a).get k = 2 := fun k => by simp [basedOwn]
  have hch : ∀ name, changes (fun _ => 3) a (basedModels true) (fun r _ => basedOwn r) name =
      [(3, fun k => (basedOwn b).get k - (basedOwn a).get k), (3, fun k => (basedOwn third).get k - (basedOwn a).get k)] := by
    intro name
    simp [changes, basedModels, hba, hca]
  have e5 : Real.sqrt 25 = 5 := by rw [show (25 : ℝ) = 5 ^ 2 by norm_num]; exact Real.sqrt_sq (by norm_num)
  have hnum : (basedOwn a).numel = 2 := rfl
  have hr : List.range 2 = [0, 1] := rfl
  have n1 : Sphere.normOn (List.range 2) (fun j => (basedOwn b).get j - (basedOwn a).get j) = 5 := by
    rw [← e5, hr]; unfold Sphere.normOn Sphere.dotOn; congr 1; simp [b0, b1, a0]; norm_num
  have n2 : Sphere.normOn (List.range 2) (fun j => (basedOwn third).get j - (basedOwn a).get j) = 5 := by
    rw [← e5, hr]; unfold Sphere.normOn Sphere.dotOn; congr 1; simp [c0, c1, a0]; norm_num
  have hd : ∀ name, ∀ k < 2, Sphere.direction 2 (1 / 100000000) true (changes (fun _ => 3) a (basedModels true) (fun r _ => basedOwn r) name) k = 7 / 2 / (5 + 1 / 100000000) := by
    intro name k hk
    rw [hch]
    unfold Sphere.direction Sphere.usedWeight
    simp only [List.map_cons, List.map_nil, List.sum_cons, List.sum_nil, n1, n2, if_true]
    have : k = 0 ∨ k = 1 := by omega
    rcases this with rfl | rfl
    · rw [b0, c0, a0]; norm_num
    · rw [b1, c1, a0]; norm_num
  refine leaves_mono (C149_multislerp horder (based_good ch lib "multislerp" true cs!"weight") (w := fun _ => 3) ?_ (normalize := true) (Or.inl ⟨rfl, rfl⟩) (eps := 1 / 100000000) rfl (by norm_num) ?_) ?_
  · intro e he _
    simp only [basedModels, if_true, List.mem_cons, List.not_mem_nil, or_false] at he
    rcases he with rfl | rfl <;> rfl
  · intro v _ _
    refine ⟨by rw [hch]; simp, fun _ => by rw [hch]; simp, ?_⟩
    rw [hnum]
    unfold Sphere.normOn Sphere.dotOn
    rw [hr]
    simp only [List.map_cons, List.map_nil, List.sum_cons, List.sum_nil, hd _ 0 (by omega), hd _ 1 (by omega)]
    exact Real.le_sqrt_of_sq_le (by norm_num)
  · rintro v y ⟨hs, hy⟩
    have hn : y.numel = 2 := by unfold Tensor.numel; rw [hs]; rfl
    refine ⟨hs, ?_⟩
    rw [hy 0, hy 1, hn, hd _ 0 (by omega), hd _ 1 (by omega), a0, a0]

/-- Arcee fusion: entries of one of the two models. -/
theorem fusion_case (ch : WholeMerge.Chance) (lib : Lib ℝ) :
    Leaves (basedWorld ch lib "arcee_fusion".toList false) basedLine cs!"o" llama Shipped.llamaWeights [a, b]
      (fun _ y => y.shape = [2] ∧ (y.get 0 = 2 ∨ y.get 0 = 5) ∧ (y.get 1 = 2 ∨ y.get 1 = 6)) := by
  have hba : b ≠ a := by decide +kernel
  refine leaves_mono (C149_arcee_fusion (based_good ch lib "arcee_fusion" false) based_two) ?_
  rintro v y ⟨hs, th, hy, -⟩
  refine ⟨hs, ?_, ?_⟩
  · rw [hy 0]; split
    · right; simp [basedOwn, hba]
    · left; simp [basedOwn]
  · rw [hy 1]; split
    · right; simp [basedOwn, hba]
    · left; simp [basedOwn]

end Verif.Main
