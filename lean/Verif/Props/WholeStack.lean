import Verif.Props.WholeSample

/-! # C108: stacking layers (passthrough) from the configuration to the files -/

set_option linter.unusedSectionVars false

namespace Verif.WholeMerge

open Verif.ModelRef (Str Ref)
open Verif.LoadTask (LoadTensor WeightInfo Casts Loader ownTensors typeNames wanted)
open Verif.Plan
open Verif.Config
open Verif.Tensor (Tensor)
open Verif.Pipeline

section
variable {K : Type} [Field K] [LinearOrder K] [IsStrictOrderedRing K] [FloorRing K]

/-- What the passthrough method asks for: a `scale` for each model, not required, without a default. -/
structure PassthroughEnv (env : Env K) : Prop where
  params : env.params = []
  tensorParams : env.tensorParams = [⟨"scale".toList, false, none⟩]

/-- The scale a configuration gives a source for a tensor of it at a depth: of the source, of the slice, of the module or of the whole
configuration. -/
def Scaled (c : MergeConfig K) (d : OutModule K) (s : OutSlice K) (src : InSlice K) (name : Str) (t : K) (x : Option K) : Prop :=
  Reads name t [src.parameters.get "scale".toList, s.parameters.get "scale".toList, d.parameters.get "scale".toList,
    c.parameters.get "scale".toList] (x.map .num)

/-- `z` is the model's own tensor as stored: times the scale if one is given, unchanged otherwise. -/
def Copied (c : MergeConfig K) (s : Setup K (Tensor K) MethodErr) (own : Ref → WeightInfo → Tensor K) (e : String × OutModule K)
    (w : WeightInfo) (sl : OutSlice K) (t : K) (ins : List (Ref × WeightInfo)) (z : Tensor K) : Prop :=
  ∃ m wi src y, ins = [(m, wi)] ∧ sl.sources = [src] ∧ src.model = m ∧ Stored s w y z ∧
    ∀ x, Scaled c e.2 sl src wi.name t x → y.shape = (own m wi).shape ∧
      (∀ f, x = some f → ∀ i, y.get i = (own m wi).get i * f) ∧ (x = none → y = own m wi)

/-- **C108** Stacking layers, from the configuration to the files.  The configuration - slices, models or modules - has one source in every
slice; every weight that is not left out is there in its source, scales are numbers (or not given), and the data types are ones that
exist.  Then - whatever order the executor chooses, with or without writer threads, for any shard size and either format - planning
succeeds and the merge ends without an exception; the output lists exactly the names of the places not left out; and what is read for a
place is (in the type asked for) the source's own tensor - that of layer "start + offset" of the slice the layer falls in, of the first
slice before the layers, of the last slice after them - times the scale, if one is given, and unchanged otherwise. -/
theorem C108_stack (env : Env K) (henv : PassthroughEnv env) (c : MergeConfig K) (l : List (String × OutModule K))
    (hl : Sections env c l) (hu : Usable env l)
    (hone : ∀ e ∈ l, ∀ sl ∈ e.2.slices.getD [], ∃ src, sl.sources = [src])
    (s : Setup K (Tensor K) MethodErr) (hmeth : s.method = passthroughTask)
    (own : Ref → WeightInfo → Tensor K)
    (hown : ∀ e ∈ l, ∀ w sl t ins, Place env e.1 (e.2.slices.getD []) w sl t ins → ¬ LeftOut env w ins →
      (∀ i ∈ ins, (wanted s.dtype i.2).execute s.casts (s.loaders i.1) = .ok (some (own i.1 i.2))) ∧
      (storedType s.outDtype w = none ∨ ∃ n d, storedType s.outDtype w = some n ∧ (n, d) ∈ typeNames) ∧
      ∀ i ∈ ins, ∀ src ∈ sl.sources, ∃ x, Scaled c e.2 sl src i.2.name t x) :
    Delivers env c l s (Copied c s own) := by
  refine usable_delivers env c l hl hu s _ ?_
  intro c' hb hpar e he w sl t ins hpl hno hnd
  obtain ⟨hsl, hms⟩ := hpl.models
  obtain ⟨src, hsrc⟩ := hone e he sl hsl
  obtain ⟨m, wi, rfl, hm⟩ : ∃ m wi, ins = [(m, wi)] ∧ src.model = m := by
    rw [hsrc] at hms
    match ins, hms with
    | [(m, wi)], h =>
      simp only [List.map_cons, List.map_nil, List.cons.injEq, and_true] at h
      exact ⟨m, wi, rfl, h.symm⟩
  obtain ⟨h1, h3, h4⟩ := hown e he w sl t _ hpl hno
  have h1 := h1 (m, wi) (by simp)
  obtain ⟨x, hx⟩ := h4 (m, wi) (by simp) src (by rw [hsrc]; simp)
  have hlev := levels_source c' e.2 sl t wi.name "scale".toList src (by rw [hsrc]; simp) (by rw [hsrc]; simp)
  rw [hm, hpar] at hlev
  have hrd := reads_parameter (r := (sliceReader c' e.2 sl t).forTensor wi.name) hx rfl hlev none
    (false && !decide (some m = (sliceReader c' e.2 sl t).baseModel)) (Or.inr rfl)
  refine ⟨⟨?_, ?_⟩, ?_⟩
  · rw [henv.params]
    intro d hd
    cases hd
  · rw [henv.tensorParams]
    intro i hi d hd
    simp only [List.mem_singleton] at hi hd
    subst hi hd
    exact ⟨_, hrd⟩
  · intro p htp hin hw _
    obtain ⟨v, hv1, hv2⟩ := tensorParam_value htp (by rw [henv.tensorParams]; simp) hnd (m, wi) (by simp)
      ⟨"scale".toList, false, none⟩ (by rw [henv.tensorParams]; simp)
    simp only at hv1 hv2
    rw [hrd, Option.or_none, Except.ok.injEq] at hv2
    subst hv2
    have hsc : scaleOf p m = .ok x := by
      unfold scaleOf
      cases hl : lookup p.tensorParams m with
      | none => rw [hl] at hv1; cases hv1
      | some dd =>
        rw [hl] at hv1
        simp only [Option.bind_some] at hv1
        simp only [hv1]
        cases x <;> rfl
    have hts : ownTensors s.casts s.loaders s.dtype p.inputs = .ok [(m, own m wi)] := by
      rw [hin]
      simp [ownTensors, h1]
    obtain ⟨y, hy, hy1, hy2, hy3⟩ : ∃ y, s.method p [(m, own m wi)] = .ok (some y) ∧ y.shape = (own m wi).shape ∧
        (∀ f, x = some f → ∀ i, y.get i = (own m wi).get i * f) ∧ (x = none → y = own m wi) := by
      rw [hmeth]
      simp only [passthroughTask, hsc, Merge.passthrough]
      cases x with
      | none => exact ⟨own m wi, rfl, rfl, (by intro f hf; cases hf), fun _ => rfl⟩
      | some f =>
        refine ⟨⟨(own m wi).shape, fun i => (own m wi).get i * f⟩, rfl, rfl, ?_, (by intro h; cases h)⟩
        intro f' hf i
        cases hf
        rfl
    obtain ⟨z, hz⟩ := exists_stored s w y h3
    refine ⟨z, ⟨m, wi, src, y, rfl, hsrc, hm, hz, ?_⟩, ⟨_, hts, Or.inl ⟨y, z, hy, hw ▸ hz, rfl⟩⟩⟩
    intro x' hx'
    have := reads_unique hx hx'
    have hxx : x = x' := by
      cases x <;> cases x' <;> simp_all
    subst hxx
    exact ⟨hy1, hy2, hy3⟩

end

/-! ## A concrete case -/

/-- Layers 1 to 3 of "b", their tensors scaled: twice in the first of them, unchanged in the last. -/
def stackTop : OutSlice ℚ := ⟨[⟨refB, 1, 4, [("scale".toList, numbers [2, 1])]⟩], none, []⟩

/-- Layers 0 and 1 of "a", and these on top. -/
def stackSlices : List (OutSlice ℚ) := [⟨[⟨refA, 0, 2, []⟩], none, []⟩, stackTop]

def stackEnv : Env ℚ := archOf ℚ 4 [] [⟨"scale".toList, false, none⟩]

/-- Tensors that can be told apart: "a" gives the length of the name, "b" a hundred more. -/
def stackOwn (m : Ref) (name : Str) : Tensor ℚ := ⟨[1], fun _ => (if m = refA then 0 else 100) + name.length⟩

def stackSetup : Setup ℚ (Tensor ℚ) MethodErr where
  casts := ⟨fun _ => .float32, fun _ x => x⟩
  loaders := fun m => lettersLoader (Tensor ℚ) (stackOwn m)
  dtype := none
  outDtype := none
  method := passthroughTask

theorem stack_usable : Usable stackEnv [("default", ⟨some stackSlices, none, []⟩)] := by
  refine archOf_usable [] _ _ 4 ?_ ?_ ?_ ?_ ?_
  · intro s hs
    simp only [List.mem_cons, List.not_mem_nil, or_false] at hs
    rcases hs with rfl | rfl
    · exact ⟨by simp, by simp⟩
    · exact ⟨by simp [stackTop], by simp [stackTop]⟩
  · intro s hs
    simp only [List.mem_cons, List.not_mem_nil, or_false] at hs
    rcases hs with rfl | rfl <;> simp [stackTop]
  · intro s hs
    simp only [List.mem_cons, List.not_mem_nil, or_false] at hs
    rcases hs with rfl | rfl <;> simp [stackTop]
  · intro s hs
    simp only [List.mem_cons, List.not_mem_nil, or_false] at hs
    rcases hs with rfl | rfl
    · simpa using plainA
    · simpa [stackTop] using plainB
  · intro a b ha hb
    cases ha; cases hb
    decide

/-- The middle layer of the second slice: layer 3 of the output, layer 2 of "b", at half depth. -/
theorem stack_place : Place stackEnv "default" stackSlices (nm 'w' 3) stackTop (1 / 2) [(refB, nm 'w' 2)] := by
  have h := Place.layer (env := stackEnv) (n := "default") (slices := stackSlices) 3 stackTop 1 0 (nm 'w' 3) [(refB, nm 'w' 2)]
    ⟨[⟨[⟨refA, 0, 2, []⟩], none, []⟩], [], rfl, by decide, by decide⟩ rfl (.cons ⟨rfl, rfl⟩ .nil)
  have e : (if OutSlice.len stackTop ≤ 1 then (1 : ℚ) else ((1 : Nat) : ℚ) / ((OutSlice.len stackTop : ℚ) - 1)) = 1 / 2 := by
    have : OutSlice.len stackTop = 3 := rfl
    rw [this]
    norm_num
  rw [e] at h
  exact h

/-- Its scale is one and a half. -/
theorem stack_scale : Scaled { slices := some stackSlices } ⟨some stackSlices, none, []⟩ stackTop
    ⟨refB, 1, 4, [("scale".toList, numbers [2, 1])]⟩ (nm 'w' 2).name (1 / 2) (some (3 / 2)) := by
  unfold Scaled
  have h : Along (1 / 2 : ℚ) [2, 1] (3 / 2) := by
    have := along_two (1 / 2 : ℚ) 2 1 (by norm_num) (by norm_num)
    have e : (2 : ℚ) + 1 / 2 * (1 - 2) = 3 / 2 := by norm_num
    rwa [e] at this
  exact .found (.gradient _ _ h)

/-- All hypotheses of C108 are met. -/
theorem stack_delivers : Delivers stackEnv { slices := some stackSlices } [("default", ⟨some stackSlices, none, []⟩)] stackSetup
    (Copied { slices := some stackSlices } stackSetup (fun m wi => stackOwn m wi.name)) := by
  refine C108_stack stackEnv ⟨rfl, rfl⟩ _ _ (.slices _ _ "default" rfl rfl rfl) stack_usable ?_ stackSetup rfl _ ?_
  · intro e he sl hsl
    rw [List.mem_singleton] at he
    subst he
    simp only [stackSlices, Option.getD_some, List.mem_cons, List.not_mem_nil, or_false] at hsl
    rcases hsl with rfl | rfl
    · exact ⟨_, rfl⟩
    · exact ⟨_, rfl⟩
  · intro e he w sl t ins hpl hno
    rw [List.mem_singleton] at he
    subst he
    obtain ⟨⟨ch, k, rfl⟩, h0, h1, hin⟩ := archOf_inputs (N := 8) (by
      intro s hs
      simp only [stackSlices, Option.getD_some, List.mem_cons, List.not_mem_nil, or_false] at hs
      rcases hs with rfl | rfl <;> simp [stackTop]) (by
      intro s hs
      simp only [stackSlices, Option.getD_some, List.mem_cons, List.not_mem_nil, or_false] at hs
      rcases hs with rfl | rfl <;> simp [stackTop]) hpl
    refine ⟨fun i hi => letters_load (stackOwn i.1) _ _ (hin i hi), Or.inl rfl, ?_⟩
    intro i hi src hsrc
    have hs := hpl.models.1
    simp only [stackSlices, Option.getD_some, List.mem_cons, List.not_mem_nil, or_false] at hs
    rcases hs with rfl | rfl
    · simp only [List.mem_singleton] at hsrc
      subst hsrc
      exact ⟨none, .unset (.unset (.unset (.unset .nothing)))⟩
    · simp only [stackTop, List.mem_singleton] at hsrc
      subst hsrc
      exact ⟨some _, .found (.gradient _ _ (along_two t 2 1 h0 h1))⟩

/-- That layer is read as one and a half times the tensor of "b" - here 103 * 3/2. -/
example (pop : ∀ n, Graph.PopOracle n) : ∃ mods trace fs idx, plan stackEnv { slices := some stackSlices } = .ok mods ∧
    runTasks (jobs ℚ stackSetup.dtype) (fun _ => "") (fun _ => 0) (execJob stackSetup) pop (targets (planned mods)) = some (trace, .finished) ∧
    ∃ z : Tensor ℚ, z.get 0 = 309 / 2 ∧ (Writer.getTensor fs idx (Writer.afterHistory fs idx none []) "w|||" [] true).1 = .ok (some z) := by
  obtain ⟨mods, hp, trace, h, fs, _, _, idx, _, _, hval⟩ := stack_delivers (fun _ => "") (fun _ => 0) pop ⟨100, true, none⟩ (fun _ => 4)
    (by constructor <;> rfl)
  refine ⟨mods, trace, fs, idx, hp, h, ?_⟩
  obtain ⟨z, ⟨m, wi, src, y, hins, hsrc, _, hz, hy⟩, hread⟩ := hval _ (List.mem_singleton.2 rfl) _ _ _ _ stack_place (by rintro ⟨h, _⟩; cases h)
  simp only [List.cons.injEq, Prod.mk.injEq, and_true] at hins
  obtain ⟨rfl, rfl⟩ := hins
  simp only [stackTop, List.cons.injEq, and_true] at hsrc
  subst hsrc
  obtain ⟨_, hy, _⟩ := hy _ stack_scale
  refine ⟨z, ?_, hread [] [] true⟩
  cases hz with
  | unchanged _ =>
    rw [hy _ rfl]
    have : (nm 'w' 2).name.length = 3 := by decide
    simp only [stackOwn, this]
    rw [if_neg (by decide)]
    norm_num
  | cast n d h => cases h

end Verif.WholeMerge
