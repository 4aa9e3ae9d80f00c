import Verif.Props.ShippedMerge
import Verif.Props.WholeTask

/-! # C119: task arithmetic and its relatives on shipped architectures -/

set_option linter.unusedSectionVars false

namespace Verif.Shipped

open Verif.ModelRef (Str Ref)
open Verif.LoadTask (WeightInfo typeNames wanted)
open Verif.Plan
open Verif.Config
open Verif.Tensor (Tensor)
open Verif.Pipeline
open Verif.WholeMerge
open Verif.Sparsify (SortsAsc SortsDesc)
open Verif.Merge (diff)
open Verif.Arch (distinctArchs)

section
variable {K : Type} [Field K] [LinearOrder K] [IsStrictOrderedRing K] [FloorRing K]

/-! ## What is claimed -/

/-- Parameters that are numbers. -/
def numbered (p : List (Str × K)) : Params K := p.map (fun x => (x.1, .scalar (.num x.2)))

/-- A configuration that lists models (`es`: the references with their own parameters) and names a base model; `ps` are the parameters for all.  The base model may be
among those listed. -/
structure TaskConf (c : MergeConfig K) (b : Ref) (es : List (Ref × List (Str × K))) (ps : List (Str × K)) : Prop where
  models : c.models = some (es.map (fun e => ⟨e.1, numbered e.2⟩))
  slices : c.slices = none
  base : c.baseModel = some b
  parameters : c.parameters = numbered ps
  some_model : es ≠ []
  once : (es.map Prod.fst).Nodup

/-- What is said for a model: its own, or else that for all. -/
def said (key : String) (own all : List (Str × K)) : Option K := (own.lookup key.toList).or (all.lookup key.toList)

/-- The numbers of a model with the weight `w`. -/
def numbersOf (w : K) (own all : List (Str × K)) : Numbers K where
  weight := w
  density := (said "density" own all).getD 1
  gamma := (said "gamma" own all).getD (1 / 100)
  epsilon := (said "epsilon" own all).getD (15 / 100)

/-- A switch for all models. -/
def Switch (key : String) (default : Bool) (all : List (Str × K)) (on : Bool) : Prop :=
  all.lookup key.toList = none ∧ on = default ∨ all.lookup key.toList = some (if on then 1 else 0)

/-! ## Lemmas -/

theorem get_numbered (p : List (Str × K)) (key : Str) : (numbered p).get key = (p.lookup key).map (fun x => .scalar (.num x)) := by
  unfold numbered Params.get
  induction p with
  | nil => rfl
  | cons e p ih =>
    rw [List.map_cons, List.find?_cons, List.lookup_cons]
    by_cases h : e.1 = key
    · subst h
      simp
    · have h' : (key == e.1) = false := beq_eq_false_iff_ne.2 (fun x => h x.symm)
      rw [h']
      simp only [decide_eq_false h]
      exact ih

theorem reads_numbers (name : Str) (t : K) (a b : Option K) :
    Reads name t [a.map (fun x => .scalar (.num x)), none, none, b.map (fun x => .scalar (.num x))] ((a.or b).map .num) := by
  cases a with
  | some x => exact .found (.scalar _)
  | none =>
    refine .unset (.unset (.unset ?_))
    cases b with
    | some x => exact .found (.scalar _)
    | none => exact .unset .nothing

theorem reads_number (name : Str) (t : K) (b : Option K) :
    Reads name t [none, none, b.map (fun x => .scalar (.num x))] (b.map .num) := by
  refine .unset (.unset ?_)
  cases b with
  | some x => exact .found (.scalar _)
  | none => exact .unset .nothing

theorem reads_cons_none {name : Str} {t : K} {l : List (Option (Setting K))} {v : Option (Scalar K)} (h : Reads name t (none :: l) v) : Reads name t l v := by
  cases h with
  | unset h => exact h

theorem reads_cons_scalar {name : Str} {t : K} {x : Scalar K} {l : List (Option (Setting K))} {v : Option (Scalar K)} (h : Reads name t (some (.scalar x) :: l) v) : v = some x := by
  cases h with
  | unmatched h _ => cases h
  | found h => cases h; rfl

theorem reads_nil {name : Str} {t : K} {v : Option (Scalar K)} (h : Reads name t [] v) : v = none := by
  cases h; rfl

theorem reads_numbers_eq {name : Str} {t : K} {a b : Option K} {v : Option (Scalar K)}
    (h : Reads name t [a.map (fun x => .scalar (.num x)), none, none, b.map (fun x => .scalar (.num x))] v) : v = (a.or b).map .num := by
  cases a with
  | some x => exact reads_cons_scalar h
  | none =>
    have h := reads_cons_none (reads_cons_none (reads_cons_none h))
    cases b with
    | some x => exact reads_cons_scalar h
    | none => exact reads_nil (reads_cons_none h)

theorem reads_number_eq {name : Str} {t : K} {b : Option K} {v : Option (Scalar K)}
    (h : Reads name t [none, none, b.map (fun x => .scalar (.num x))] v) : v = b.map .num := by
  have h := reads_cons_none (reads_cons_none h)
  cases b with
  | some x => exact reads_cons_scalar h
  | none => exact reads_nil (reads_cons_none h)

/-- Only the numbers that a sparsification uses matter. -/
theorem trimmed_congr {sample : (Nat → K) → Nat → Bool} {n n' : Numbers K} {rescale : Bool} {d d' : Tensor K} {kind : Option Sparsify.Method}
    (h : Trimmed sample n rescale d d' kind) (hd : n.density = n'.density) (hg : kind = some .magnitudeOutliers → n.gamma = n'.gamma)
    (he : kind = some .dellaMagprune → n.epsilon = n'.epsilon) : Trimmed sample n' rescale d d' kind := by
  cases h with
  | plain h => exact .plain h
  | dense k h1 h2 => exact .dense k (hd ▸ h1) h2
  | largest kept c h1 h2 h4 h5 h6 h7 h8 =>
    rw [hd] at h1 h6
    exact .largest kept c h1 h2 h4 h5 h6 h7 h8
  | random c h1 h2 h4 h5 =>
    rw [hd] at h1 h5
    exact .random c h1 h2 h4 h5
  | middle small kept big c h1 h2 h4 h5 h6 h7 h8 h9 =>
    rw [hd] at h1 h6 h7
    rw [hg rfl] at h7
    exact .middle small kept big c h1 h2 h4 h5 h6 h7 h8 h9
  | ranked probs c b s h1 h2 h4 h5 h6 h7 =>
    rw [hd] at h1 h6
    rw [he rfl] at h6
    exact .ranked probs c b s h1 h2 h4 h5 h6 h7

theorem merges_congr {T E : Type} {f : Family K} {c : MergeConfig K} {ws : List Arch.WeightInfo} {models models' : List Ref} {s : Setup K T E}
    {right : Arch.WeightInfo → T → Prop} (hm : ∀ r, r ∈ models ↔ r ∈ models') (h : Merges f c ws models s right) : Merges f c ws models' s right := by
  have : Present f models = Present f models' := by
    funext v
    unfold Present
    simp only [hm]
  unfold Merges at h ⊢
  rw [← this]
  exact h

/-- The sources of the one slice: the models listed, and the base model without parameters if it is not among them. -/
theorem task_sources {f : Family K} {c : MergeConfig K} {b : Ref} {es : List (Ref × List (Str × K))} {ps : List (Str × K)} (hc : TaskConf c b es ps) {n : String} {src : InSlice K}
    (h : src ∈ (whole f c (es.map (fun e => ⟨e.1, numbered e.2⟩)) n).sources) :
    ∃ p, src.parameters = numbered p ∧ ((src.model, p) ∈ es ∨ src.model = b ∧ b ∉ es.map Prod.fst) := by
  unfold whole fullDepth at h
  rw [hc.base] at h
  simp only [List.mem_append, List.map_map, List.mem_map, Function.comp_apply] at h
  rcases h with ⟨e, he, rfl⟩ | h
  · exact ⟨e.2, rfl, Or.inl he⟩
  · split at h
    · cases h
    · rename_i hb
      rw [List.mem_singleton] at h
      subst h
      refine ⟨[], rfl, Or.inr ⟨rfl, ?_⟩⟩
      intro hin
      obtain ⟨e, he, hbe⟩ := List.mem_map.1 hin
      exact hb ⟨e, he, hbe⟩

theorem said_of {f : Family K} {c : MergeConfig K} {b : Ref} {es : List (Ref × List (Str × K))} {ps : List (Str × K)} (hc : TaskConf c b es ps) {n : String}
    {d : OutModule K} (hd : d.parameters = []) {src : InSlice K} {p : List (Str × K)} (hp : src.parameters = numbered p) (name : Str) (t : K) (key : String) (v : Option (Scalar K)) :
    SaysOf c d (whole f c (es.map (fun e => ⟨e.1, numbered e.2⟩)) n) src name t key v ↔ v = (said key p ps).map .num := by
  unfold SaysOf said
  rw [hp, hd, hc.parameters, get_numbered, get_numbered]
  constructor
  · exact reads_numbers_eq
  · rintro rfl
    exact reads_numbers name t _ _

theorem said_all {f : Family K} {c : MergeConfig K} {b : Ref} {es : List (Ref × List (Str × K))} {ps : List (Str × K)} (hc : TaskConf c b es ps) {n : String}
    {d : OutModule K} (hd : d.parameters = []) (name : Str) (t : K) (key : String) (v : Option (Scalar K)) :
    Says c d (whole f c (es.map (fun e => ⟨e.1, numbered e.2⟩)) n) name t key v ↔ v = (ps.lookup key.toList).map .num := by
  unfold Says
  rw [hd, hc.parameters, get_numbered]
  constructor
  · exact reads_number_eq
  · rintro rfl
    exact reads_number name t _

theorem switch_yes {key : String} {default on : Bool} {ps : List (Str × K)} (h : Switch key default ps on) : ((ps.lookup key.toList).map Scalar.num).getD (yes default) = yes on := by
  rcases h with ⟨h, rfl⟩ | h
  · rw [h]; rfl
  · rw [h]; rfl

theorem yes_inj {a b : Bool} (h : (yes a : Scalar K) = yes b) : a = b := by
  unfold yes at h
  cases a <;> cases b <;> simp at h <;> rfl

theorem getD_num (o : Option K) (x : K) : (o.map Scalar.num).getD (.num x) = .num (o.getD x) := by cases o <;> rfl

theorem filter_base {b : Ref} {es : List (Ref × List (Str × K))} (w : WeightInfo) :
    ((es.map Prod.fst ++ (if b ∈ es.map Prod.fst then [] else [b])).map (fun r => (r, w))).filter (fun i => decide (i.1 ≠ b)) =
      (es.filter (fun e => decide (e.1 ≠ b))).map (fun e => (e.1, w)) := by
  rw [List.map_append, List.filter_append]
  have h2 : ((if b ∈ es.map Prod.fst then [] else [b]).map (fun r => (r, w))).filter (fun i : Ref × WeightInfo => decide (i.1 ≠ b)) = [] := by
    split <;> simp
  rw [h2, List.append_nil, List.map_map, List.filter_map]
  rfl

/-! ## The claim -/

/-- **C119** Task arithmetic, TIES, DARE, breadcrumbs and DELLA (`g`) on models of an architecture shipped, from the configuration to the files.  The configuration lists
models, all of one size, and names a base model, which may be among them; parameters are numbers, for single models or for all; every weight of the architecture that is
present is there in all of them, in one shape, and the numbers allow the sparsification; the data types exist.  Then the merge succeeds, the output has exactly
the weights of the architecture, and what is read under a name is the base model's tensor plus the combined changes of the other models, each sparsified with its numbers. -/
theorem C119_task_arithmetic (g : GtaVariant) (tools : Tools K) (hdesc : ∀ w n, SortsDesc w n (tools.sortDesc w n)) (hasc : ∀ w n, SortsAsc w n (tools.sortAsc w n))
    (f : Family K) (hs : IsShipped f) (hparams : f.params = g.params) (htparams : f.tensorParams = g.tensorParams)
    (c : MergeConfig K) (b : Ref) (es : List (Ref × List (Str × K))) (ps : List (Str × K)) (hc : TaskConf c b es ps)
    (hplain : ∀ r ∈ b :: es.map Prod.fst, r.Plain) (hlayers : ∀ r ∈ b :: es.map Prod.fst, ∀ n ∈ f.modules.map Prod.fst, f.layers r n = f.outLayers n)
    (ws : List Arch.WeightInfo) (hws : Arch.allWeights f.pairs = .ok ws)
    (s : Setup K (Tensor K) MethodErr) (hmeth : s.method = gtaMethod g tools) (own : Ref → Str → Tensor K)
    (w : Ref → K) (hw : ∀ e ∈ es, e.1 ≠ b → said "weight" e.2 ps = some (w e.1))
    (mask nz rescale : Bool) (hmask : Switch "int8_mask" false ps mask) (hnz : Switch "normalize" g.normalize ps nz) (hres : Switch "rescale" g.rescale ps rescale)
    (hown : ∀ v ∈ ws, Present f (b :: es.map Prod.fst) v →
      (∀ r ∈ b :: es.map Prod.fst, (wanted s.dtype (listed v)).execute s.casts (s.loaders r) = .ok (some (own r v.name)) ∧ (own r v.name).shape = (own b v.name).shape) ∧
      (storedType s.outDtype (listed v) = none ∨ ∃ n d, storedType s.outDtype (listed v) = some n ∧ (n, d) ∈ typeNames) ∧
      ∀ e ∈ es, e.1 ≠ b → Doable (own b v.name).shape (numbersOf (w e.1) e.2 ps) g.sparsification) :
    Merges f c ws (b :: es.map Prod.fst) s (fun v z => ∃ y, Stored s (listed v) y z ∧ y.shape = (own b v.name).shape ∧ ∃ parts : List (K × Tensor K),
      List.Forall₂ (fun e x => x.1 = w e.1 ∧ Trimmed (tools.sample v.name e.1) (numbersOf (w e.1) e.2 ps) rescale (diff (own e.1 v.name) (own b v.name)) x.2 g.sparsification)
        (es.filter (fun e => decide (e.1 ≠ b))) parts ∧
      ∀ k, ∃ delta, Combined nz ((ps.lookup "lambda".toList).getD 1) (parts.map (fun x => (x.1, x.2.get k))) g.consensus delta ∧
        y.get k = (own b v.name).get k + delta) := by
  have hfst : (es.map (fun e => (⟨e.1, numbered e.2⟩ : InModel K))).map (·.model) = es.map Prod.fst := by rw [List.map_map]; rfl
  have hmem : ∀ r, r ∈ es.map Prod.fst ++ (if b ∈ es.map Prod.fst then [] else [b]) ↔ r ∈ b :: es.map Prod.fst := by
    intro r
    by_cases hb : b ∈ es.map Prod.fst
    · rw [if_pos hb, List.append_nil, List.mem_cons]
      exact ⟨Or.inr, fun h => h.elim (fun h => h ▸ hb) id⟩
    · rw [if_neg hb, List.mem_append, List.mem_singleton, List.mem_cons]
      exact or_comm
  have hal : Alike f c (es.map (fun e => ⟨e.1, numbered e.2⟩)) (es.map Prod.fst ++ (if b ∈ es.map Prod.fst then [] else [b])) := by
    refine ⟨hc.models, by simpa using hc.some_model, hc.slices, by rw [hc.base, hfst], by rw [hfst]; exact hc.once, ?_, ?_⟩
    · intro r hr
      exact hplain r ((hmem r).1 hr)
    · intro r hr
      exact hlayers r ((hmem r).1 hr)
  have hne : f.modules ≠ [] := by
    intro h0
    have hd := hs.definition
    rw [h0] at hd
    have : (distinctArchs.all (fun l => !l.isEmpty)) = true := by decide +kernel
    have := List.all_eq_true.1 this _ hd
    simp at this
  have hu := C119_usable_partial f hs _ (alike_fits f hs.names hne hal)
  obtain ⟨_, k2⟩ := allWeights_mem hws
  have hfrom : ∀ e ∈ sections f c (es.map (fun e => ⟨e.1, numbered e.2⟩)), ∀ wt sl t ins, Place f.env e.1 (e.2.slices.getD []) wt sl t ins →
      sl = whole f c (es.map (fun e => ⟨e.1, numbered e.2⟩)) e.1 ∧ e.2.parameters = [] ∧
        ∃ v ∈ ws, listed v = wt ∧ ins = (es.map Prod.fst ++ (if b ∈ es.map Prod.fst then [] else [b])).map (fun r => (r, wt)) := by
    intro e he wt sl t ins hpl
    obtain ⟨n, hn', rfl⟩ := List.mem_map.1 he
    obtain ⟨m, hm⟩ := known_module hn'
    have hmem := place_mem hpl
    simp only [Option.getD_some] at hpl hmem
    rw [env_weights (module_eq hs.names hm)] at hmem
    simp only [List.map_cons, List.map_nil, List.sum_cons, List.sum_nil, Nat.add_zero] at hmem
    rw [whole_len hs.names hal hm] at hmem
    obtain ⟨v, hv, hvw⟩ := k2 (m, f.outLayers n) (List.mem_map.2 ⟨_, hm, rfl⟩) wt hmem
    obtain ⟨p1, p2⟩ := place_same hs.names hal hm hpl
    exact ⟨p1, rfl, v, hv, hvw, p2⟩
  have hpres : ∀ v, Present f (es.map Prod.fst ++ (if b ∈ es.map Prod.fst then [] else [b])) v ↔ Present f (b :: es.map Prod.fst) v := by
    intro v
    unfold Present
    simp only [hmem]
  -- the parameters of a source that is not the base model
  have hsrc : ∀ n, ∀ src ∈ (whole f c (es.map (fun e => ⟨e.1, numbered e.2⟩)) n).sources, src.model ≠ b → ∃ p, src.parameters = numbered p ∧ (src.model, p) ∈ es := by
    intro n src hsrc hb
    obtain ⟨p, hp, h | h⟩ := task_sources hc hsrc
    · exact ⟨p, hp, h⟩
    · exact absurd h.1 hb
  refine merges_congr hmem (C119_models f hs hal hws s _ (delivers_mono (C110_task_arithmetic g tools hdesc hasc f.env hparams htparams c _ (alike_sections hal) hu s hmeth
    (fun r wi => own r wi.name) ?_) ?_))
  · intro e he wt sl t ins hpl hno
    obtain ⟨rfl, hpar, v, hv, rfl, rfl⟩ := hfrom e he wt sl t ins hpl
    obtain ⟨g1, g2, g3⟩ := hown v hv ((hpres v).1 (leftOut_iff.1 hno))
    refine ⟨?_, g2, ?_, ⟨nz, rescale, (ps.lookup "lambda".toList).getD 1, ⟨?_, ?_, ?_, ?_⟩⟩⟩
    · intro i hi
      obtain ⟨r, hr, rfl⟩ := List.mem_map.1 hi
      exact (g1 r ((hmem r).1 hr)).1
    · refine ⟨b, listed v, Or.inr ⟨rfl, hc.base⟩, List.mem_map.2 ⟨b, (hmem b).2 List.mem_cons_self, rfl⟩, ?_, ?_, ?_⟩
      · intro _ i hi _
        obtain ⟨r, hr, rfl⟩ := List.mem_map.1 hi
        exact Or.inl (g1 r ((hmem r).1 hr)).2
      · intro i hi hib src hs1 hs2
        obtain ⟨p, hp, hin⟩ := hsrc _ src hs1 (by rw [hs2]; exact hib)
        refine ⟨numbersOf (w src.model) p ps, ⟨?_, ?_, ?_, ?_⟩, fun _ => g3 _ hin (by rw [hs2]; exact hib)⟩
        · rw [said_of hc hpar hp, hw _ hin (by rw [hs2]; exact hib)]
          rfl
        · exact ⟨_, (said_of hc hpar hp _ _ _ _).2 rfl, getD_num _ _⟩
        · intro _
          exact ⟨_, (said_of hc hpar hp _ _ _ _).2 rfl, getD_num _ _⟩
        · intro _
          exact ⟨_, (said_of hc hpar hp _ _ _ _).2 rfl, getD_num _ _⟩
      · intro src hs1 hs2 key _
        obtain ⟨p, hp, -⟩ := task_sources hc hs1
        exact ⟨_, (said_of hc hpar hp _ _ _ _).2 rfl⟩
    · exact ⟨_, mask, (said_all hc hpar _ _ _ _).2 rfl, switch_yes hmask⟩
    · exact ⟨_, (said_all hc hpar _ _ _ _).2 rfl, switch_yes hnz⟩
    · exact ⟨_, (said_all hc hpar _ _ _ _).2 rfl, switch_yes hres⟩
    · exact ⟨_, (said_all hc hpar _ _ _ _).2 rfl, getD_num _ _⟩
  · rintro e he wt sl t ins z hpl hno ⟨y, b', wb, nz', res', lam', y1, y2, y3, y4, y5, parts, y6, y7⟩ v' hv' hvw
    obtain ⟨rfl, hpar, v, hv, rfl, rfl⟩ := hfrom e he wt sl t ins hpl
    have hname : v'.name = v.name := congrArg WeightInfo.name hvw
    obtain ⟨g1, g2, g3⟩ := hown v hv ((hpres v).1 (leftOut_iff.1 hno))
    have hb' : b' = b := by
      rcases y2 with h | ⟨_, h⟩
      · cases h
      · rw [hc.base] at h
        exact (Option.some.inj h).symm
    subst hb'
    obtain ⟨r, -, hr⟩ := List.mem_map.1 y3
    obtain ⟨-, rfl⟩ := Prod.mk.inj hr
    have hnz' : nz' = nz := by
      obtain ⟨x, hx, hx'⟩ := y4.normalize
      rw [(said_all hc hpar _ _ _ _).1 hx, switch_yes hnz] at hx'
      exact (yes_inj hx').symm
    have hres' : res' = rescale := by
      obtain ⟨x, hx, hx'⟩ := y4.rescale
      rw [(said_all hc hpar _ _ _ _).1 hx, switch_yes hres] at hx'
      exact (yes_inj hx').symm
    have hlam' : lam' = (ps.lookup "lambda".toList).getD 1 := by
      obtain ⟨x, hx, hx'⟩ := y4.lam
      rw [(said_all hc hpar _ _ _ _).1 hx, getD_num] at hx'
      exact (Scalar.num.inj hx').symm
    subst hnz' hres' hlam'
    refine ⟨y, by rw [hvw]; exact y1, by rw [hname]; exact y5, parts, ?_, ?_⟩
    · have hfil : ((es.map Prod.fst ++ (if b' ∈ es.map Prod.fst then [] else [b'])).map (fun r => (r, listed v))).filter
          (fun i => decide (i.1 ≠ b' ∧ ((listed v).isEmbed = true ∨ (own i.1 i.2.name).shape = (own b' (listed v).name).shape))) =
          (es.filter (fun e => decide (e.1 ≠ b'))).map (fun e => (e.1, listed v)) := by
        rw [← filter_base]
        refine List.filter_congr ?_
        intro i hi
        obtain ⟨r, hr, rfl⟩ := List.mem_map.1 hi
        have := (g1 r ((hmem r).1 hr)).2
        simp only [decide_eq_decide]
        exact ⟨fun h => h.1, fun h => ⟨h, Or.inr this⟩⟩
      rw [hfil, List.forall₂_map_left_iff] at y6
      rw [hname]
      have hin : ∀ x ∈ es.filter (fun e => decide (e.1 ≠ b')), x ∈ es ∧ x.1 ≠ b' := by
        intro x hx
        rw [List.mem_filter] at hx
        exact ⟨hx.1, by simpa using hx.2⟩
      generalize es.filter (fun e => decide (e.1 ≠ b')) = l at y6 hin
      clear hfil y7
      induction y6 with
      | nil => exact .nil
      | @cons x q l' ps' hx _ ih =>
        refine .cons ?_ (ih (fun z hz => hin z (List.mem_cons_of_mem _ hz)))
        obtain ⟨src, hs1, hs2, n, hn, hq, a, ha, htr⟩ := hx
        obtain ⟨hxe, hxb⟩ := hin x List.mem_cons_self
        simp only at hs2 ha htr
        obtain ⟨p, hp, hpe⟩ := hsrc _ src hs1 (by rw [hs2]; exact hxb)
        have hpx : (src.model, p) = x := List.inj_on_of_nodup_map hc.once hpe hxe (by simpa using hs2)
        subst hpx
        have hax : a = own src.model v.name := by
          cases ha with
          | same => rfl
          | cut r c r' c' y _ _ _ hne => exact absurd (g1 src.model (List.mem_cons_of_mem _ (List.mem_map.2 ⟨_, hxe, rfl⟩))).2 hne
        subst hax
        have hwt : n.weight = w src.model := by
          have := (said_of hc hpar hp _ _ _ _).1 hn.weight
          rw [hw _ hxe hxb] at this
          exact Scalar.num.inj (Option.some.inj this)
        have hden : n.density = (said "density" p ps).getD 1 := by
          obtain ⟨x, hx, hx'⟩ := hn.density
          rw [(said_of hc hpar hp _ _ _ _).1 hx, getD_num] at hx'
          exact (Scalar.num.inj hx').symm
        refine ⟨by rw [hq, hwt], trimmed_congr htr hden ?_ ?_⟩
        · intro hk
          obtain ⟨x, hx, hx'⟩ := hn.gamma hk
          rw [(said_of hc hpar hp _ _ _ _).1 hx, getD_num] at hx'
          exact (Scalar.num.inj hx').symm
        · intro hk
          obtain ⟨x, hx, hx'⟩ := hn.epsilon hk
          rw [(said_of hc hpar hp _ _ _ _).1 hx, getD_num] at hx'
          exact (Scalar.num.inj hx').symm
    · intro k
      rw [hname]
      exact y7 k

end

end Verif.Shipped
