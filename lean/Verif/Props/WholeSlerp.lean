import Verif.Props.WholeSample
import Verif.Props.Slerp
import Verif.Model.WholeSphere

/-! # C109: spherical interpolation from the configuration to the files -/

set_option linter.unusedSectionVars false

namespace Verif.WholeMerge

open Verif.ModelRef (Str Ref)
open Verif.LoadTask (LoadTensor WeightInfo Casts Loader ownTensors typeNames wanted)
open Verif.Plan
open Verif.Config
open Verif.Tensor (Tensor)
open Verif.Pipeline

noncomputable section

/-- What slerp asks for: a required `t`. -/
structure SlerpEnv (env : Env ℝ) : Prop where
  params : env.params = [⟨"t".toList, true, none⟩]
  tensorParams : env.tensorParams = []

/-- The `t` a configuration gives an output tensor at a depth: of the slice, of the module or of the whole configuration. -/
def FractionIs (c : MergeConfig ℝ) (d : OutModule ℝ) (s : OutSlice ℝ) (name : Str) (t x : ℝ) : Prop :=
  Reads name t [s.parameters.get "t".toList, d.parameters.get "t".toList, c.parameters.get "t".toList] (some (.num x))

/-- `r` is the point at fraction `t` of the arc from `v0` to `v1`: by sines of the parts of the angle, or in a straight line if the cosine of the
angle is within 0.0005 of 1 or -1.  (Vectors no longer than 10⁻⁸ enter the cosine as they are.) -/
def OnArc (n : Nat) (t : ℝ) (v0 v1 r : Nat → ℝ) : Prop :=
  let len := fun v : Nat → ℝ => Real.sqrt ((List.range n).map (fun j => v j * v j)).sum
  let unit := fun v : Nat → ℝ => if 1 / 100000000 < len v then 1 / len v else 1
  let cos := unit v0 * unit v1 * ((List.range n).map (fun j => v0 j * v1 j)).sum
  (9995 / 10000 < |cos| → ∀ i, r i = (1 - t) * v0 i + t * v1 i) ∧
  (|cos| ≤ 9995 / 10000 → 0 < Real.sin (Real.arccos cos) ∧ ∀ i, r i =
    (Real.sin ((1 - t) * Real.arccos cos) * v0 i + Real.sin (t * Real.arccos cos) * v1 i) / Real.sin (Real.arccos cos))

/-- What is right for a place: the own tensor of a single source; of two sources, one of them the base model, the point at fraction `t` of the arc
from the base model's tensor to the other's. -/
def Blended (c : MergeConfig ℝ) (s : Setup ℝ (Tensor ℝ) MethodErr) (own : Ref → WeightInfo → Tensor ℝ) (e : String × OutModule ℝ)
    (w : WeightInfo) (sl : OutSlice ℝ) (t : ℝ) (ins : List (Ref × WeightInfo)) (z : Tensor ℝ) : Prop :=
  ∃ y, Stored s w y z ∧
    ((∃ m wi, ins = [(m, wi)] ∧ y = own m wi) ∨
     ∃ b m wb wm, b ≠ m ∧ BaseIs c sl b ∧ (ins = [(b, wb), (m, wm)] ∨ ins = [(m, wm), (b, wb)]) ∧ y.shape = (own b wb).shape ∧
       ∀ x, FractionIs c e.2 sl w.name t x → OnArc (own b wb).shape.prod x (own b wb).get (own m wm).get y.get)

/-- **C109** Spherical interpolation, from the configuration to the files.  The configuration - slices, models or modules - has a base model; each
slice has one source, or two of which one is the base model; every weight that is not left out is there in its sources, with one shape;
`t` is a number wherever it is needed, and the data types are ones that exist.  Then - whatever order the executor chooses, with or without
writer threads, for any shard size and either format - planning succeeds and the merge ends without an exception; the output lists exactly
the names of the places not left out; and what is read for a place is (in the type asked for) the point at fraction `t` of the arc from
the base model's own tensor to the other model's, in whichever order the two are listed. -/
theorem C109_slerp (env : Env ℝ) (henv : SlerpEnv env) (c : MergeConfig ℝ) (l : List (String × OutModule ℝ))
    (hl : Sections env c l) (hu : Usable env l)
    (hbase : ∀ e ∈ l, ∀ sl ∈ e.2.slices.getD [], ∃ b, BaseIs c sl b ∧
      ((∃ src, sl.sources = [src]) ∨ ∃ src src', sl.sources = [src, src'] ∧ (src.model = b ∨ src'.model = b)))
    (s : Setup ℝ (Tensor ℝ) MethodErr) (hmeth : s.method = slerpMethod)
    (own : Ref → WeightInfo → Tensor ℝ)
    (hown : ∀ e ∈ l, ∀ w sl t ins, Place env e.1 (e.2.slices.getD []) w sl t ins → ¬ LeftOut env w ins →
      (∀ i ∈ ins, (wanted s.dtype i.2).execute s.casts (s.loaders i.1) = .ok (some (own i.1 i.2))) ∧
      (∀ i ∈ ins, ∀ j ∈ ins, (own i.1 i.2).shape = (own j.1 j.2).shape) ∧
      (storedType s.outDtype w = none ∨ ∃ n d, storedType s.outDtype w = some n ∧ (n, d) ∈ typeNames) ∧
      ∃ x, FractionIs c e.2 sl w.name t x) :
    Delivers env c l s (Blended c s own) := by
  refine usable_delivers env c l hl hu s _ ?_
  intro c' hb hpar e he w sl t ins hpl hno hnd
  obtain ⟨hsl, hms⟩ := hpl.models
  obtain ⟨b, hbi, hsrc⟩ := hbase e he sl hsl
  have hrb := base_reader (d := e.2) (t := t) hb hbi
  obtain ⟨h1, h2, h3, x, hx⟩ := hown e he w sl t _ hpl hno
  have hlev := levels_global c' e.2 sl t w.name "t".toList
  rw [hpar] at hlev
  have hrd := reads_parameter (r := (sliceReader c' e.2 sl t).forTensor w.name) hx rfl hlev none true (Or.inl (by simp))
  refine ⟨⟨?_, ?_⟩, ?_⟩
  · rw [henv.params]
    intro d hd
    simp only [List.mem_singleton] at hd
    subst hd
    exact ⟨_, hrd⟩
  · rw [henv.tensorParams]
    intro i hi d hd
    cases hd
  · intro p htp hin hw hpb
    obtain ⟨v, hv1, hv2⟩ := param_value htp (by rw [henv.params]; simp) ⟨"t".toList, true, none⟩ (by rw [henv.params]; simp)
    simp only at hv1 hv2
    rw [hrd, Option.or_none, Except.ok.injEq] at hv2
    subst hv2
    have hfr : fractionOf p = .ok x := by simp only [fractionOf, hv1]
    rw [hrb] at hpb
    have harc : ∀ v0 v1 : Tensor ℝ, OnArc v0.shape.prod x v0.get v1.get (Sphere.slerp v0.numel x v0.get v1.get) :=
      fun v0 v1 => Sphere.C34_formula v0.numel x v0.get v1.get
    rcases hsrc with ⟨src, hsrc⟩ | ⟨src, src', hsrc, hor⟩
    · obtain ⟨m, wi, rfl⟩ : ∃ m wi, ins = [(m, wi)] := by
        rw [hsrc] at hms
        match ins, hms with
        | [(m, wi)], h => exact ⟨m, wi, rfl⟩
      have hts : ownTensors s.casts s.loaders s.dtype p.inputs = .ok [(m, own m wi)] := by
        rw [hin]
        simp [ownTensors, h1 (m, wi) (by simp)]
      have hmeth' : s.method p [(m, own m wi)] = .ok (some (own m wi)) := by
        rw [hmeth]
        simp only [slerpMethod, hpb, hfr, Sphere.slerpTask]
      obtain ⟨z, hz⟩ := exists_stored s w (own m wi) h3
      exact ⟨z, ⟨own m wi, hz, Or.inl ⟨m, wi, rfl, rfl⟩⟩, ⟨_, hts, Or.inl ⟨_, z, hmeth', hw ▸ hz, rfl⟩⟩⟩
    · obtain ⟨m, wm, m', wm', rfl, hm, hm'⟩ : ∃ m wm m' wm', ins = [(m, wm), (m', wm')] ∧ m = src.model ∧ m' = src'.model := by
        rw [hsrc] at hms
        match ins, hms with
        | [(m, wi), (m', wi')], h =>
          simp only [List.map_cons, List.map_nil, List.cons.injEq, and_true] at h
          exact ⟨m, wi, m', wi', rfl, h.1, h.2⟩
      have hne : m ≠ m' := by simpa using hnd
      have hts : ownTensors s.casts s.loaders s.dtype p.inputs = .ok [(m, own m wm), (m', own m' wm')] := by
        rw [hin]
        simp [ownTensors, h1 (m, wm) (by simp), h1 (m', wm') (by simp)]
      have hsh := h2 (m, wm) (by simp) (m', wm') (by simp)
      simp only at hsh
      obtain ⟨y, wb, m1, w1, hne1, hins, hy, hysh, hya⟩ : ∃ y wb m1 w1, b ≠ m1 ∧
          ([(m, wm), (m', wm')] = [(b, wb), (m1, w1)] ∨ [(m, wm), (m', wm')] = [(m1, w1), (b, wb)]) ∧
          s.method p [(m, own m wm), (m', own m' wm')] = .ok (some y) ∧ y.shape = (own b wb).shape ∧
          OnArc (own b wb).shape.prod x (own b wb).get (own m1 w1).get y.get := by
        have key : ∀ (wb : WeightInfo) (m1 : Ref) (w1 : WeightInfo), m1 ≠ b → (own b wb).shape = (own m1 w1).shape →
            ∀ tensors, (tensors = [(b, own b wb), (m1, own m1 w1)] ∨ tensors = [(m1, own m1 w1), (b, own b wb)]) →
            ∃ y, s.method p tensors = .ok (some y) ∧ y.shape = (own b wb).shape ∧
              OnArc (own b wb).shape.prod x (own b wb).get (own m1 w1).get y.get := by
          intro wb m1 w1 hm1 hshape tensors hten
          obtain ⟨r, hr, hrs, hrg⟩ := Sphere.C34_base_first p.weight.isEmbed b m1 hm1 x _ _ hshape tensors hten
          refine ⟨r, by rw [hmeth]; simp only [slerpMethod, hpb, hfr, hr], hrs, ?_⟩
          have : r.get = Sphere.slerp (own b wb).numel x (own b wb).get (own m1 w1).get := funext hrg
          rw [this]
          exact harc _ _
        rcases hor with h | h
        · rw [h] at hm
          subst hm
          obtain ⟨y, h4, h5, h6⟩ := key wm m' wm' (Ne.symm hne) hsh _ (Or.inl rfl)
          exact ⟨y, wm, m', wm', hne, Or.inl rfl, h4, h5, h6⟩
        · rw [h] at hm'
          subst hm'
          obtain ⟨y, h4, h5, h6⟩ := key wm' m wm hne hsh.symm _ (Or.inr rfl)
          exact ⟨y, wm', m, wm, Ne.symm hne, Or.inr rfl, h4, h5, h6⟩
      obtain ⟨z, hz⟩ := exists_stored s w y h3
      refine ⟨z, ⟨y, hz, Or.inr ⟨b, m1, wb, w1, hne1, hbi, hins, hysh, ?_⟩⟩, ⟨_, hts, Or.inl ⟨y, z, hy, hw ▸ hz, rfl⟩⟩⟩
      intro x' hx'
      have := reads_unique hx hx'
      simp only [Option.some.injEq, Scalar.num.injEq] at this
      subst this
      exact hya

/-- **C109** Without a base model nothing is interpolated: if some planned weight has no base model, the merge raises - also where there is one tensor only. -/
theorem C109_no_base (s : Setup ℝ (Tensor ℝ) MethodErr) (hmeth : s.method = slerpMethod) (ps : List (Planned ℝ)) (htold : ∀ p ∈ ps, Told p)
    (hnames : ∀ p ∈ ps, ∀ q ∈ ps, p.weight.name = q.weight.name → p = q) (p : Planned ℝ) (hp : p ∈ ps) (hb : p.baseModel = none)
    (group : Job ℝ → String) (prio : Job ℝ → Int) (pop : ∀ n, Graph.PopOracle n) :
    ∃ trace o, runTasks (jobs ℝ s.dtype) group prio (execJob s) pop (targets ps) = some (trace, o) ∧ o ≠ .finished := by
  obtain ⟨trace, o, h1, h2, _⟩ := C104_merge_to_disk s ps htold hnames group prio pop ⟨1, true, none⟩ rfl (fun _ => 0)
  refine ⟨trace, o, h1, fun ho => ?_⟩
  obtain ⟨r, ts, _, h⟩ := h2.1 ho p hp
  rw [hmeth] at h
  simp [slerpMethod, hb] at h

/-- One weight of "a" alone, and no base model. -/
example (s : Setup ℝ (Tensor ℝ) MethodErr) (hmeth : s.method = slerpMethod) (pop : ∀ n, Graph.PopOracle n) :
    ∃ trace o, runTasks (jobs ℝ s.dtype) (fun _ => "") (fun _ => 0) (execJob s) pop
      (targets [⟨nm 'w' 0, [(refA, nm 'w' 0)], [("t".toList, some (.num 0))], [], none⟩]) = some (trace, o) ∧ o ≠ .finished := by
  refine C109_no_base s hmeth _ ?_ ?_ _ (List.mem_cons_self ..) rfl _ _ pop
  · intro p hp
    rw [List.mem_singleton] at hp
    subst hp
    exact ⟨by simp, by simpa using plainA, by decide⟩
  · intro p hp q hq _
    rw [List.mem_singleton] at hp hq
    rw [hp, hq]

/-! ## A concrete case -/

/-- Three layers of "a", the base model, and of "b", which is listed first; `t` runs from 0 to 1. -/
def arcSlice : OutSlice ℝ := ⟨[⟨refB, 0, 3, []⟩, ⟨refA, 0, 3, []⟩], none, [("t".toList, numbers [0, 1])]⟩

def arcConfig : MergeConfig ℝ := { slices := some [arcSlice], baseModel := some refA }

def arcEnv : Env ℝ := archOf ℝ 3 [⟨"t".toList, true, none⟩] []

/-- All tensors of "a" are (1, 0), all of "b" (0, 1). -/
def arcOwn (m : Ref) : Tensor ℝ := ⟨[2], fun i => if m = refA then (if i = 0 then 1 else 0) else if i = 1 then 1 else 0⟩

def arcSetup : Setup ℝ (Tensor ℝ) MethodErr where
  casts := ⟨fun _ => .float32, fun _ x => x⟩
  loaders := fun m => lettersLoader (Tensor ℝ) (fun _ => arcOwn m)
  dtype := none
  outDtype := none
  method := slerpMethod

theorem arc_usable : Usable arcEnv [("default", ⟨some [arcSlice], none, []⟩)] := by
  refine archOf_usable [] _ _ 3 ?_ ?_ ?_ ?_ ?_
  · intro s hs
    rw [List.mem_singleton] at hs
    subst hs
    exact ⟨by simp [arcSlice], by simp [arcSlice]⟩
  · intro s hs
    rw [List.mem_singleton] at hs
    subst hs
    simp [arcSlice]
  · intro s hs
    rw [List.mem_singleton] at hs
    subst hs
    simp only [arcSlice, List.map_cons, List.map_nil]
    decide
  · intro s hs
    rw [List.mem_singleton] at hs
    subst hs
    simpa [arcSlice] using ⟨plainB, plainA⟩
  · intro a b ha hb
    cases ha; cases hb
    exact le_refl _

/-- The middle layer. -/
theorem arc_place : Place arcEnv "default" [arcSlice] (nm 'w' 1) arcSlice (1 / 2) [(refB, nm 'w' 1), (refA, nm 'w' 1)] := by
  have h := Place.layer (env := arcEnv) (n := "default") (slices := [arcSlice]) 1 arcSlice 1 0 (nm 'w' 1)
    [(refB, nm 'w' 1), (refA, nm 'w' 1)] ⟨[], [], rfl, by decide, by decide⟩ rfl (.cons ⟨rfl, rfl⟩ (.cons ⟨rfl, rfl⟩ .nil))
  have e : (if OutSlice.len arcSlice ≤ 1 then (1 : ℝ) else ((1 : Nat) : ℝ) / ((OutSlice.len arcSlice : ℝ) - 1)) = 1 / 2 := by
    have : OutSlice.len arcSlice = 3 := rfl
    rw [this]
    norm_num
  rw [e] at h
  exact h

theorem arc_fraction (name : Str) (t : ℝ) (h0 : 0 ≤ t) (h1 : t ≤ 1) :
    FractionIs arcConfig ⟨some [arcSlice], none, []⟩ arcSlice name t t := by
  have := along_two t 0 1 h0 h1
  have e : (0 : ℝ) + t * (1 - 0) = t := by ring
  rw [e] at this
  exact .found (.gradient _ _ this)

/-- All hypotheses of C109 are met. -/
theorem arc_delivers : Delivers arcEnv arcConfig [("default", ⟨some [arcSlice], none, []⟩)] arcSetup
    (Blended arcConfig arcSetup (fun m _ => arcOwn m)) := by
  refine C109_slerp arcEnv ⟨rfl, rfl⟩ _ _ (.slices _ _ "default" rfl rfl rfl) arc_usable ?_ arcSetup rfl _ ?_
  · intro e he sl hsl
    rw [List.mem_singleton] at he
    subst he
    simp only [Option.getD_some, List.mem_singleton] at hsl
    subst hsl
    exact ⟨refA, Or.inr ⟨rfl, rfl⟩, Or.inr ⟨_, _, rfl, Or.inr rfl⟩⟩
  · intro e he w sl t ins hpl hno
    rw [List.mem_singleton] at he
    subst he
    obtain ⟨⟨ch, k, rfl⟩, h0, h1, hin⟩ := archOf_inputs (N := 8) (by
      intro s hs
      simp only [Option.getD_some, List.mem_singleton] at hs
      subst hs
      simp [arcSlice]) (by
      intro s hs
      simp only [Option.getD_some, List.mem_singleton] at hs
      subst hs
      simp [arcSlice]) hpl
    have hs := hpl.models.1
    simp only [Option.getD_some, List.mem_singleton] at hs
    subst hs
    exact ⟨fun i hi => letters_load (fun _ => arcOwn i.1) _ _ (hin i hi), fun i _ j _ => rfl, Or.inl rfl, t, arc_fraction _ t h0 h1⟩

/-- The middle layer is read as (√2/2, √2/2). -/
example (pop : ∀ n, Graph.PopOracle n) : ∃ mods trace fs idx, plan arcEnv arcConfig = .ok mods ∧
    runTasks (jobs ℝ arcSetup.dtype) (fun _ => "") (fun _ => 0) (execJob arcSetup) pop (targets (planned mods)) = some (trace, .finished) ∧
    ∃ z : Tensor ℝ, z.get 0 = Real.sqrt 2 / 2 ∧ z.get 1 = Real.sqrt 2 / 2 ∧
      (Writer.getTensor fs idx (Writer.afterHistory fs idx none []) "w|" [] true).1 = .ok (some z) := by
  obtain ⟨mods, hp, trace, h, fs, _, _, idx, _, _, hval⟩ := arc_delivers (fun _ => "") (fun _ => 0) pop ⟨100, true, none⟩ (fun _ => 4)
    (by constructor <;> rfl)
  refine ⟨mods, trace, fs, idx, hp, h, ?_⟩
  obtain ⟨z, ⟨y, hz, hy⟩, hread⟩ := hval _ (List.mem_singleton.2 rfl) _ _ _ _ arc_place (by rintro ⟨h, _⟩; cases h)
  have hyz : z = y := by
    cases hz with
    | unchanged _ => rfl
    | cast n d h => cases h
  subst hyz
  have hne : ¬ refB = refA := by decide
  rcases hy with ⟨m, wi, h, _⟩ | ⟨b, m, wb, wm, _, hb, hins, _, harc⟩
  · cases h
  · have hb : b = refA := by
      rcases hb with h | ⟨_, h⟩
      · cases h
      · cases h; rfl
    subst hb
    obtain ⟨rfl, rfl⟩ : m = refB ∧ wb = nm 'w' 1 := by
      rcases hins with h | h
      · simp only [List.cons.injEq, Prod.mk.injEq, and_true] at h
        exact absurd h.1.1 hne
      · simp only [List.cons.injEq, Prod.mk.injEq, and_true] at h
        exact ⟨h.1.1.symm, h.2.2.symm⟩
    have harc := (harc _ (arc_fraction _ _ (by norm_num) (by norm_num))).2
    have hr : List.range ([2] : List Nat).prod = [0, 1] := rfl
    simp only [arcOwn, hr, List.map_cons, List.map_nil, List.sum_cons, List.sum_nil, if_true, if_neg hne] at harc
    norm_num at harc
    have e : (1 : ℝ) / 2 * (Real.pi / 2) = Real.pi / 4 := by ring
    rw [e, Real.sin_pi_div_four] at harc
    exact ⟨z, by rw [harc 0]; simp, by rw [harc 1]; simp, hread [] [] true⟩

end

end Verif.WholeMerge
