import Verif.Props.ShippedTask
import Verif.Props.WholeStack

/-! # C119: stacking layers (passthrough) on shipped architectures -/

set_option linter.unusedSectionVars false

namespace Verif.Shipped

open Verif.ModelRef (Str Ref)
open Verif.LoadTask (WeightInfo typeNames wanted)
open Verif.Plan
open Verif.Config
open Verif.Tensor (Tensor)
open Verif.Pipeline
open Verif.WholeMerge
open Verif.Arch (Module)

section
variable {K : Type} [Field K] [LinearOrder K] [IsStrictOrderedRing K] [FloorRing K]

/-! ## What is claimed -/

/-- Layers `start` to `stop` (not included) of a model, with parameters that are numbers. -/
structure Block (K : Type) where
  model : Ref
  start : Nat
  stop : Nat
  params : List (Str × K)

/-- The layers of the blocks, one after the other: the block each is from, and its number in that model. -/
def layersOf (bs : List (Block K)) : List (Block K × Nat) :=
  bs.flatMap (fun b => (List.range (b.stop - b.start)).map (fun i => (b, b.start + i)))

/-- `v` is the weight that a template of a module stands for, with `n` layers, in layer `i` (or outside of the layers). -/
def Stands (m : Module) (n : Nat) (i : Option Int) (template v : Arch.WeightInfo) : Prop :=
  ∃ x, Arch.substitute template n i = .ok x ∧ v = Arch.prefixWeight x m.weightPrefix

/-- The weight `v` of the stack is from block `b`, where it is called `v'`: what is before the layers is from the first block, what is after them from the last, and
layer `j` is the `j`th of all the layers of the blocks, with its own number in the name. -/
inductive Comes (m : Module) (total : Nat) (layers : Ref → Nat) (bs : List (Block K)) : Arch.WeightInfo → Block K → Arch.WeightInfo → Prop
  | first {b template v} : bs.head? = some b → template ∈ m.pre → Stands m total none template v → Comes m total layers bs v b v
  | layer {j i : Nat} {b template v v'} : (layersOf bs)[j]? = some (b, i) → template ∈ m.layers → Stands m total (some (j : Int)) template v →
      Stands m (layers b.model) (some (i : Int)) template v' → Comes m total layers bs v b v'
  | last {b template v} : bs.getLast? = some b → template ∈ m.post → Stands m total none template v → Comes m total layers bs v b v

/-- A weight that is in the output: it is required, or stored in the model that it is from. -/
def Kept (f : Family K) (v : Arch.WeightInfo) (b : Block K) (v' : Arch.WeightInfo) : Prop := v.optional = true → v'.name ∈ f.stored b.model

/-- A configuration that lists the blocks, each as a slice; `ps` are parameters for all. -/
structure StackConf (c : MergeConfig K) (bs : List (Block K)) (ps : List (Str × K)) : Prop where
  slices : c.slices = some (bs.map (fun b => ⟨[⟨b.model, b.start, b.stop, numbered b.params⟩], none, []⟩))
  models : c.models = none
  parameters : c.parameters = numbered ps
  some_block : bs ≠ []

/-- A merge into a stack succeeds - whatever order the executor chooses, with or without writer threads, for any shard size and either format -, its output lists exactly the
weights kept, and reading one of these (after whatever else was read) gives something that is right for it. -/
def Stacks {T E : Type} (f : Family K) (c : MergeConfig K) (comes : Arch.WeightInfo → Block K → Arch.WeightInfo → Prop) (s : Setup K T E)
    (right : Arch.WeightInfo → Block K → Arch.WeightInfo → T → Prop) : Prop :=
  ∀ (group : Job K → String) (prio : Job K → Int) (pop : ∀ n, Graph.PopOracle n) (conf : Writer.Conf) (size : T → Nat), conf.Standard →
    ∃ mods, plan f.env c = .ok mods ∧
    ∃ trace, runTasks (jobs K s.dtype) group prio (execJob s) pop (targets (planned mods)) = some (trace, .finished) ∧
      let acts := writerRun conf size {} (handed (universeOf (jobs K s.dtype) (targets (planned mods))).1 trace)
      ∃ fs, Writer.applyOps (fun _ => none) (Writer.syncOps acts) = some fs ∧
        (∀ r, Relation.ReflTransGen Writer.Step ⟨fun _ => none, [], acts⟩ r → (∀ r', ¬ Writer.Step r r') → r.fs = fs) ∧
        ∃ idx, Writer.fromDisk fs = .ok idx ∧
          (∀ name, name ∈ idx.tensorPaths.map Prod.fst ↔ ∃ v b v', comes v b v' ∧ Kept f v b v' ∧ name = String.ofList v.name) ∧
          ∀ v b v', comes v b v' → Kept f v b v' → ∃ z, right v b v' z ∧ ∀ hist aliases raise,
            (Writer.getTensor fs idx (Writer.afterHistory fs idx none hist) (String.ofList v.name) aliases raise).1 = .ok (some z)

/-! ## Lemmas -/

/-- The slice of a block. -/
def Block.slice (b : Block K) : OutSlice K := ⟨[⟨b.model, b.start, b.stop, numbered b.params⟩], none, []⟩

theorem slice_len (b : Block K) : OutSlice.len b.slice = b.stop - b.start := by
  simp only [OutSlice.len, Block.slice]
  omega

theorem layersOf_layout (bs : List (Block K)) : (layersOf bs).map (fun x => (x.1.slice, x.2 - x.1.start)) = layout (bs.map Block.slice) := by
  unfold layersOf layout
  induction bs with
  | nil => rfl
  | cons b bs ih =>
    simp only [List.flatMap_cons, List.map_append, List.map_cons, List.map_map, slice_len, ih]
    congr 1
    refine List.map_congr_left ?_
    intro i _
    simp

theorem layersOf_start {bs : List (Block K)} {b : Block K} {i : Nat} (h : (b, i) ∈ layersOf bs) : b.start ≤ i := by
  unfold layersOf at h
  obtain ⟨b', _, h⟩ := List.mem_flatMap.1 h
  obtain ⟨o, _, h⟩ := List.mem_map.1 h
  cases h
  omega

theorem layersOf_isLayer {bs : List (Block K)} {j : Nat} {b : Block K} {i : Nat} (h : (layersOf bs)[j]? = some (b, i)) :
    IsLayer (bs.map Block.slice) j b.slice (i - b.start) := by
  refine layout_isLayer _ _ _ _ ?_
  rw [← layersOf_layout, List.getElem?_map, h]
  rfl

theorem isLayer_layersOf {bs : List (Block K)} {j : Nat} {s : OutSlice K} {o : Nat} (h : IsLayer (bs.map Block.slice) j s o) :
    ∃ b, s = b.slice ∧ (layersOf bs)[j]? = some (b, b.start + o) := by
  have := layout_get _ _ _ _ h
  rw [← layersOf_layout, List.getElem?_map] at this
  cases hx : (layersOf bs)[j]? with
  | none => rw [hx] at this; cases this
  | some x =>
    rw [hx] at this
    simp only [Option.map_some, Option.some.injEq, Prod.mk.injEq] at this
    have hle := layersOf_start (b := x.1) (i := x.2) (List.mem_of_getElem? hx)
    refine ⟨x.1, this.1.symm, ?_⟩
    rw [Option.some.injEq]
    exact Prod.ext rfl (by simp only; omega)

theorem substituteAll_forall {n : Int} {i : Option Int} : ∀ {ws vs : List Arch.WeightInfo}, Arch.substituteAll n i ws = .ok vs →
    List.Forall₂ (fun w v => Arch.substitute w n i = .ok v) ws vs
  | [], vs, h => by cases h; exact .nil
  | w :: ws, vs, h => by
    simp only [Arch.substituteAll] at h
    split at h
    · cases h
    · rename_i a ha
      split at h
      · cases h
      · rename_i b hb
        cases h
        exact .cons ha (substituteAll_forall hb)

/-- The weights the planner knows are those that the templates stand for. -/
theorem configured_stands {m : Module} {n : Nat} {i : Option Int} {ws : List Arch.WeightInfo} (h : List.Forall₂ Keeps ws (configured m n i ws)) :
    List.Forall₂ (fun w c => ∃ v, Stands m n i w v ∧ c = listed v) ws (configured m n i ws) := by
  unfold configured at h ⊢
  cases hs : Arch.substituteAll n i ws with
  | error e =>
    rw [hs] at h
    simp only at h
    cases h
    exact .nil
  | ok vs =>
    simp only
    rw [List.forall₂_map_right_iff]
    refine (substituteAll_forall hs).imp ?_
    intro w v hv
    exact ⟨_, ⟨v, hv, rfl⟩, toPlan_listed _⟩

theorem stands_unique {m : Module} {n : Nat} {i : Option Int} {w v v' : Arch.WeightInfo} (h : Stands m n i w v) (h' : Stands m n i w v') : v = v' := by
  obtain ⟨x, hx, rfl⟩ := h
  obtain ⟨x', hx', rfl⟩ := h'
  rw [hx] at hx'
  cases hx'
  rfl

theorem stands_optional {m : Module} {n : Nat} {i : Option Int} {w v : Arch.WeightInfo} (h : Stands m n i w v) : v.optional = w.optional := by
  obtain ⟨x, hx, rfl⟩ := h
  exact (substitute_keeps hx m.weightPrefix).1

theorem forall₂_getElem {A B : Type} {R : A → B → Prop} {l : List A} {l' : List B} (h : List.Forall₂ R l l') {k : Nat} {b : B} (hb : l'[k]? = some b) :
    ∃ a, l[k]? = some a ∧ R a b := by
  induction h generalizing k with
  | nil => cases hb
  | cons h _ ih =>
    cases k with
    | zero => simp only [List.getElem?_cons_zero, Option.some.injEq] at hb; subst hb; exact ⟨_, rfl, h⟩
    | succ k => simp only [List.getElem?_cons_succ] at hb ⊢; exact ih hb

/-- What is said about planning with one module. -/
structure One (f : Family K) (n : String) (m : Module) : Prop where
  pre : List.Forall₂ (fun w c => ∃ v, Stands m (m.numLayers (f.outLayers n)) none w v ∧ c = listed v) m.pre (f.env.outPre n)
  layer : ∀ j : Nat, List.Forall₂ (fun w c => ∃ v, Stands m (m.numLayers (f.outLayers n)) (some (j : Int)) w v ∧ c = listed v) m.layers (f.env.outLayer n j)
  inLayer : ∀ r, ∀ i : Nat, List.Forall₂ (fun w c => ∃ v, Stands m (m.numLayers (f.layers r n)) (some (i : Int)) w v ∧ c = listed v) m.layers (f.env.inLayer r n i)
  post : List.Forall₂ (fun w c => ∃ v, Stands m (m.numLayers (f.outLayers n)) none w v ∧ c = listed v) m.post (f.env.outPost n)

theorem one_module {f : Family K} (hs : IsShipped f) {n : String} {m : Module} (hm : f.modules = [(n, m)]) : One f n m := by
  have hmem : f.modules.map Prod.snd ∈ Arch.distinctArchs.eraseIdx 6 := by
    have h1 : Arch.distinctArchs = Arch.distinctArchs.take 6 ++ Arch.Data.bert :: Arch.distinctArchs.drop 7 := rfl
    have h2 : Arch.distinctArchs.eraseIdx 6 = Arch.distinctArchs.take 6 ++ Arch.distinctArchs.drop 7 := rfl
    have h := hs.definition
    rw [h1] at h
    rw [h2]
    rcases List.mem_append.1 h with h | h
    · exact List.mem_append_left _ h
    · rcases List.mem_cons.1 h with h | h
      · exact absurd h hs.not_bert
      · exact List.mem_append_right _ h
  obtain ⟨h1, -⟩ := shipped_checked _ hmem
  have hchk : Arch.checkModule m = true := by
    rw [hm] at h1
    simp [Arch.checkArch] at h1
    exact h1.1
  obtain ⟨ts, -, hsnd⟩ := sound_of_check hchk
  have hmod : f.module n = some m := by
    unfold Family.module
    rw [hm]
    simp
  refine ⟨?_, ?_, ?_, ?_⟩
  · simp only [Family.env, hmod]; exact configured_stands (hsnd.pre _)
  · intro j; simp only [Family.env, hmod]; exact configured_stands (hsnd.layers _ j)
  · intro r i; simp only [Family.env, hmod]; exact configured_stands (hsnd.layers _ i)
  · simp only [Family.env, hmod]; exact configured_stands (hsnd.post _)

theorem place_comes {f : Family K} {n : String} {m : Module} (h1 : One f n m) {bs : List (Block K)} {w : WeightInfo} {sl : OutSlice K} {t : K}
    {ins : List (Ref × WeightInfo)} (h : Place f.env n (bs.map Block.slice) w sl t ins) :
    ∃ v b v', Comes m (m.numLayers (f.outLayers n)) (fun r => m.numLayers (f.layers r n)) bs v b v' ∧ w = listed v ∧ sl = b.slice ∧ ins = [(b.model, listed v')] ∧
      v'.optional = v.optional := by
  cases h with
  | pre s w hh hw =>
    rw [List.head?_map] at hh
    cases hb : bs.head? with
    | none => rw [hb] at hh; cases hh
    | some b =>
      rw [hb] at hh
      cases hh
      obtain ⟨k, hk⟩ := List.mem_iff_getElem?.1 hw
      obtain ⟨tm, ht, v, hv, rfl⟩ := forall₂_getElem h1.pre hk
      exact ⟨v, b, v, .first hb (List.mem_of_getElem? ht) hv, rfl, rfl, rfl, rfl⟩
  | layer j s o k w ins hl hw hins =>
    obtain ⟨b, rfl, hb⟩ := isLayer_layersOf hl
    obtain ⟨tm, ht, v, hv, rfl⟩ := forall₂_getElem (h1.layer j) hw
    simp only [Block.slice] at hins
    obtain ⟨i, rest, ⟨hi1, hi2⟩, hrest, rfl⟩ := List.forall₂_cons_left_iff.1 hins
    cases hrest
    have hcast : ((b.start : Int) + (o : Int)) = ((b.start + o : Nat) : Int) := by push_cast; rfl
    simp only [hcast] at hi2
    obtain ⟨tm', ht', v', hv', hvi⟩ := forall₂_getElem (h1.inLayer b.model (b.start + o)) hi2
    rw [ht] at ht'
    cases ht'
    exact ⟨v, b, v', .layer hb (List.mem_of_getElem? ht) hv hv', rfl, rfl, by rw [← hvi, ← show i.1 = b.model from hi1],
      by rw [stands_optional hv, stands_optional hv']⟩
  | post s w hh hw =>
    rw [List.getLast?_map] at hh
    cases hb : bs.getLast? with
    | none => rw [hb] at hh; cases hh
    | some b =>
      rw [hb] at hh
      cases hh
      obtain ⟨k, hk⟩ := List.mem_iff_getElem?.1 hw
      obtain ⟨tm, ht, v, hv, rfl⟩ := forall₂_getElem h1.post hk
      exact ⟨v, b, v, .last hb (List.mem_of_getElem? ht) hv, rfl, rfl, rfl, rfl⟩

theorem comes_place {f : Family K} {n : String} {m : Module} (h1 : One f n m) {bs : List (Block K)} {v : Arch.WeightInfo} {b : Block K} {v' : Arch.WeightInfo}
    (h : Comes m (m.numLayers (f.outLayers n)) (fun r => m.numLayers (f.layers r n)) bs v b v') :
    ∃ t, Place f.env n (bs.map Block.slice) (listed v) b.slice t [(b.model, listed v')] := by
  have find : ∀ {N : Nat} {i : Option Int} {ws : List Arch.WeightInfo} {cs : List WeightInfo},
      List.Forall₂ (fun w c => ∃ v, Stands m N i w v ∧ c = listed v) ws cs → ∀ {k : Nat} {tm x : Arch.WeightInfo}, ws[k]? = some tm → Stands m N i tm x → cs[k]? = some (listed x) := by
    intro N i ws cs hf k tm x hk hx
    obtain ⟨c, hc, y, hy, rfl⟩ := forall₂_get' hf hk
    rw [hc, stands_unique hx hy]
  cases h with
  | first hb ht hv =>
    obtain ⟨k, hk⟩ := List.mem_iff_getElem?.1 ht
    exact ⟨0, Place.pre b.slice _ (by rw [List.head?_map, hb]; rfl) (List.mem_of_getElem? (find h1.pre hk hv))⟩
  | @layer j i b tm v v' hj ht hv hv' =>
    obtain ⟨k, hk⟩ := List.mem_iff_getElem?.1 ht
    have hle := layersOf_start (List.mem_of_getElem? hj)
    refine ⟨_, Place.layer j b.slice (i - b.start) k _ _ (layersOf_isLayer hj) (find (h1.layer j) hk hv) (.cons ⟨rfl, ?_⟩ .nil)⟩
    have hcast : ((b.start : Int) + ((i - b.start : Nat) : Int)) = ((i : Nat) : Int) := by omega
    simp only [hcast]
    exact find (h1.inLayer b.model i) hk hv'
  | last hb ht hv =>
    obtain ⟨k, hk⟩ := List.mem_iff_getElem?.1 ht
    exact ⟨0, Place.post b.slice _ (by rw [List.getLast?_map, hb]; rfl) (List.mem_of_getElem? (find h1.post hk hv))⟩

theorem leftOut_kept {f : Family K} {v v' : Arch.WeightInfo} {b : Block K} : ¬ LeftOut f.env (listed v) [(b.model, listed v')] ↔ Kept f v b v' := by
  unfold LeftOut Kept
  constructor
  · intro h ho
    by_contra hc
    refine h ⟨ho, ?_⟩
    intro i hi
    rw [List.mem_singleton] at hi
    subst hi
    exact hc
  · rintro h ⟨ho, hno⟩
    exact hno (b.model, listed v') (List.mem_singleton.2 rfl) (h ho)

/-! ## The claim -/

/-- **C119** Stacking layers of models of an architecture shipped (one of a single module), from the configuration to the files.  The configuration lists blocks of layers of models, with
scales or without; the output's configuration has (at least) as many layers as the blocks together (C27: it does); every weight kept can be read, and the data types exist.
Then the merge succeeds; the output has exactly the weights of an architecture with as many layers as that; what is before the layers is the first model's, what is after
them the last one's, each layer is the one at its place in the blocks, renumbered - all times the scale where one is given, and unchanged otherwise. -/
theorem C119_stack (f : Family K) (hs : IsShipped f) {n : String} {m : Module} (hm : f.modules = [(n, m)])
    (hparams : f.params = []) (htparams : f.tensorParams = [⟨"scale".toList, false, none⟩])
    (c : MergeConfig K) (bs : List (Block K)) (ps : List (Str × K)) (hc : StackConf c bs ps)
    (hplain : ∀ b ∈ bs, b.model.Plain) (hdepth : (bs.map (fun b => b.stop - b.start)).sum ≤ m.numLayers (f.outLayers n))
    (s : Setup K (Tensor K) MethodErr) (hmeth : s.method = passthroughTask) (own : Ref → Str → Tensor K)
    (hown : ∀ v b v', Comes m (m.numLayers (f.outLayers n)) (fun r => m.numLayers (f.layers r n)) bs v b v' → Kept f v b v' →
      (wanted s.dtype (listed v')).execute s.casts (s.loaders b.model) = .ok (some (own b.model v'.name)) ∧
      (storedType s.outDtype (listed v) = none ∨ ∃ x d, storedType s.outDtype (listed v) = some x ∧ (x, d) ∈ typeNames)) :
    Stacks f c (Comes m (m.numLayers (f.outLayers n)) (fun r => m.numLayers (f.layers r n)) bs) s (fun v b v' z => ∃ y, Stored s (listed v) y z ∧
      y.shape = (own b.model v'.name).shape ∧
      ∀ i, y.get i = (own b.model v'.name).get i * (said "scale" b.params ps).getD 1) := by
  have h1 := one_module hs hm
  have hsl : c.slices = some (bs.map Block.slice) := hc.slices
  obtain ⟨b0, bs0, hb0⟩ := List.exists_cons_of_ne_nil hc.some_block
  have hsec : Sections f.env c [(n, ⟨some (bs.map Block.slice), none, []⟩)] := by
    rw [hb0, List.map_cons] at hsl ⊢
    exact .slices _ _ n hsl hc.models (by simp [Family.env, hm])
  have hin : ∀ sl ∈ bs.map Block.slice, ∃ b ∈ bs, sl = b.slice := by
    intro sl hsl
    obtain ⟨b, hb, rfl⟩ := List.mem_map.1 hsl
    exact ⟨b, hb, rfl⟩
  have hfits : Fits f [(n, ⟨some (bs.map Block.slice), none, []⟩)] := by
    refine ⟨by simp, ?_, by simp, ?_, ?_, ?_, ?_, ?_, ?_, ?_⟩
    all_goals simp only [List.mem_singleton, forall_eq, Option.getD_some]
    · rw [hm]; simp
    · rw [hb0]; exact ⟨_, _, rfl⟩
    · intro sl hsl
      obtain ⟨b, -, rfl⟩ := hin sl hsl
      simp [Block.slice]
    · intro sl hsl
      obtain ⟨b, -, rfl⟩ := hin sl hsl
      simp [Block.slice]
    · intro sl hsl src hsrc
      obtain ⟨b, hb, rfl⟩ := hin sl hsl
      simp only [Block.slice, List.mem_singleton] at hsrc
      subst hsrc
      exact hplain b hb
    · intro x y hx hy
      obtain ⟨b, -, rfl⟩ := hin x (List.mem_of_mem_head? (Option.mem_def.2 hx))
      obtain ⟨b', -, rfl⟩ := hin y (List.mem_of_getLast? hy)
      simp [Block.slice]
    · intro sl hsl src hsrc
      obtain ⟨b, hb, rfl⟩ := hin sl hsl
      simp only [Block.slice, List.mem_singleton] at hsrc
      subst hsrc
      simp
    · intro m' hm'
      rw [hm, List.mem_singleton] at hm'
      cases hm'
      rw [List.map_map]
      have : (OutSlice.len ∘ Block.slice : Block K → Nat) = fun b => b.stop - b.start := by
        funext b
        exact slice_len b
      rw [this]
      exact hdepth
  have hu := C119_usable_partial f hs _ hfits
  have hscale : ∀ (b : Block K) (name : Str) (t : K) (x : Option K),
      Scaled c ⟨some (bs.map Block.slice), none, []⟩ b.slice ⟨b.model, b.start, b.stop, numbered b.params⟩ name t x ↔ x = said "scale" b.params ps := by
    intro b name t x
    unfold Scaled said
    simp only [Block.slice]
    rw [hc.parameters, get_numbered, get_numbered]
    constructor
    · intro h
      have := reads_numbers_eq h
      cases x <;> cases hh : (b.params.lookup "scale".toList).or (ps.lookup "scale".toList) <;> rw [hh] at this <;> simp_all
    · rintro rfl
      exact reads_numbers name t _ _
  have key := C108_stack f.env ⟨hparams, htparams⟩ c _ hsec hu
    (by
      simp only [List.mem_singleton, forall_eq, Option.getD_some]
      intro sl hsl
      obtain ⟨b, -, rfl⟩ := hin sl hsl
      exact ⟨_, rfl⟩)
    s hmeth (fun r wi => own r wi.name)
    (by
      simp only [List.mem_singleton, forall_eq, Option.getD_some]
      intro w sl t ins hpl hno
      obtain ⟨v, b, v', hcm, rfl, rfl, rfl, -⟩ := place_comes h1 hpl
      obtain ⟨g1, g2⟩ := hown v b v' hcm (leftOut_kept.1 hno)
      refine ⟨?_, g2, ?_⟩
      · simp only [List.mem_singleton, forall_eq]
        exact g1
      · simp only [List.mem_singleton, forall_eq]
        intro src hsrc
        simp only [Block.slice, List.mem_singleton] at hsrc
        subst hsrc
        exact ⟨_, (hscale b _ t _).2 rfl⟩)
  intro group prio pop conf size hstd
  obtain ⟨mods, p1, trace, p2, fs, p3, p4, idx, p5, p6, p7⟩ := key group prio pop conf size hstd
  simp only [List.mem_singleton, forall_eq, exists_eq_left, Option.getD_some] at p6 p7
  refine ⟨mods, p1, trace, p2, fs, p3, p4, idx, p5, ?_, ?_⟩
  · intro name
    rw [p6 name]
    constructor
    · rintro ⟨w, sl, t, ins, hpl, hno, rfl⟩
      obtain ⟨v, b, v', hcm, rfl, rfl, rfl, -⟩ := place_comes h1 hpl
      exact ⟨v, b, v', hcm, leftOut_kept.1 hno, rfl⟩
    · rintro ⟨v, b, v', hcm, hk, rfl⟩
      obtain ⟨t, hpl⟩ := comes_place h1 hcm
      exact ⟨listed v, _, t, _, hpl, leftOut_kept.2 hk, rfl⟩
  · intro v b v' hcm hk
    obtain ⟨t, hpl⟩ := comes_place h1 hcm
    obtain ⟨z, ⟨r, wi, src, y, e1, e2, e3, e4, e5⟩, hz⟩ := p7 _ _ _ _ hpl (leftOut_kept.2 hk)
    refine ⟨z, ⟨y, e4, ?_⟩, hz⟩
    simp only [List.cons.injEq, Prod.mk.injEq, and_true] at e1
    obtain ⟨rfl, rfl⟩ := e1
    simp only [Block.slice, List.cons.injEq, and_true] at e2
    subst e2
    obtain ⟨q1, q2, q3⟩ := e5 _ ((hscale b _ t _).2 rfl)
    refine ⟨q1, ?_⟩
    intro i
    cases hsd : said "scale" b.params ps with
    | none => rw [q3 hsd]; simp [listed]
    | some x => rw [q2 x hsd i]; simp [listed]

end

end Verif.Shipped
