import Verif.Props.ShippedStack

/-! # C119: slices of several models on shipped architectures -/

set_option linter.unusedSectionVars false

namespace Verif.Shipped

open Verif.ModelRef (Str Ref)
open Verif.LoadTask (WeightInfo typeNames wanted)
open Verif.Plan
open Verif.Config
open Verif.Tensor (Tensor)
open Verif.Pipeline
open Verif.WholeMerge
open Verif.Arch (Module)

section
variable {K : Type} [Field K] [LinearOrder K] [IsStrictOrderedRing K] [FloorRing K]

/-! ## What is claimed -/

/-- A slice: from each of some models `len` layers, beginning with a certain one. -/
structure Part where
  sources : List (Ref × Nat)
  len : Nat

/-- The layers of the parts, one after the other: the part each is in, and its number there. -/
def places (ps : List Part) : List (Part × Nat) := ps.flatMap (fun p => (List.range p.len).map (fun o => (p, o)))

/-- The weight `v` of the result is merged from the weights `ins` of the models of part `p`, at depth `t` of it: what is before the layers with the first part, what is after
them with the last, both at depth 0, and layer `j` with the part it falls in, from the layers at the same place of its models; depth there goes from 0 to 1. -/
inductive MergedFrom (m : Module) (total : Nat) (layers : Ref → Nat) (ps : List Part) : Arch.WeightInfo → Part → K → List (Ref × Arch.WeightInfo) → Prop
  | first {p template v} : ps.head? = some p → template ∈ m.pre → Stands m total none template v → MergedFrom m total layers ps v p 0 (p.sources.map (fun x => (x.1, v)))
  | layer {j o : Nat} {p template v ins} : (places ps)[j]? = some (p, o) → template ∈ m.layers → Stands m total (some (j : Int)) template v →
      List.Forall₂ (fun (x : Ref × Nat) (i : Ref × Arch.WeightInfo) => i.1 = x.1 ∧ Stands m (layers x.1) (some ((x.2 + o : Nat) : Int)) template i.2) p.sources ins →
      MergedFrom m total layers ps v p (if p.len ≤ 1 then 1 else (o : K) / ((p.len : K) - 1)) ins
  | last {p template v} : ps.getLast? = some p → template ∈ m.post → Stands m total none template v → MergedFrom m total layers ps v p 0 (p.sources.map (fun x => (x.1, v)))

/-- A weight that is in the output: it is required, or stored in one of the models that it is from. -/
def Stored' (f : Family K) (v : Arch.WeightInfo) (ins : List (Ref × Arch.WeightInfo)) : Prop := v.optional = true → ∃ i ∈ ins, i.2.name ∈ f.stored i.1

/-- A configuration that lists the parts, without parameters of their own. -/
structure PartConf (c : MergeConfig K) (ps : List Part) : Prop where
  slices : c.slices = some (ps.map (fun p => ⟨p.sources.map (fun x => ⟨x.1, x.2, x.2 + p.len, []⟩), none, []⟩))
  models : c.models = none
  some_part : ps ≠ []
  some_source : ∀ p ∈ ps, p.sources ≠ []
  once : ∀ p ∈ ps, (p.sources.map Prod.fst).Nodup
  plain : ∀ p ∈ ps, ∀ x ∈ p.sources, x.1.Plain
  ends : ∀ p q, ps.head? = some p → ps.getLast? = some q → q.sources.length ≤ p.sources.length

/-- A merge of slices succeeds - whatever order the executor chooses, with or without writer threads, for any shard size and either format -, its output lists exactly the
weights stored, and reading one of these (after whatever else was read) gives something that is right for it. -/
def Assembles {T E : Type} (f : Family K) (c : MergeConfig K) (merged : Arch.WeightInfo → Part → K → List (Ref × Arch.WeightInfo) → Prop) (s : Setup K T E)
    (right : Arch.WeightInfo → Part → K → List (Ref × Arch.WeightInfo) → T → Prop) : Prop :=
  ∀ (group : Job K → String) (prio : Job K → Int) (pop : ∀ n, Graph.PopOracle n) (conf : Writer.Conf) (size : T → Nat), conf.Standard →
    ∃ mods, plan f.env c = .ok mods ∧
    ∃ trace, runTasks (jobs K s.dtype) group prio (execJob s) pop (targets (planned mods)) = some (trace, .finished) ∧
      let acts := writerRun conf size {} (handed (universeOf (jobs K s.dtype) (targets (planned mods))).1 trace)
      ∃ fs, Writer.applyOps (fun _ => none) (Writer.syncOps acts) = some fs ∧
        (∀ r, Relation.ReflTransGen Writer.Step ⟨fun _ => none, [], acts⟩ r → (∀ r', ¬ Writer.Step r r') → r.fs = fs) ∧
        ∃ idx, Writer.fromDisk fs = .ok idx ∧
          (∀ name, name ∈ idx.tensorPaths.map Prod.fst ↔ ∃ v p t ins, merged v p t ins ∧ Stored' f v ins ∧ name = String.ofList v.name) ∧
          ∀ v p t ins, merged v p t ins → Stored' f v ins → ∃ z, right v p t ins z ∧ ∀ hist aliases raise,
            (Writer.getTensor fs idx (Writer.afterHistory fs idx none hist) (String.ofList v.name) aliases raise).1 = .ok (some z)

/-! ## Lemmas -/

/-- The slice of a part. -/
def Part.slice (K : Type) (p : Part) : OutSlice K := ⟨p.sources.map (fun x => ⟨x.1, x.2, x.2 + p.len, []⟩), none, []⟩

theorem part_len {p : Part} (h : p.sources ≠ []) : OutSlice.len (p.slice K) = p.len := by
  obtain ⟨x, xs, hx⟩ := List.exists_cons_of_ne_nil h
  simp only [OutSlice.len, Part.slice, hx, List.map_cons]
  omega

theorem places_layout {ps : List Part} (h : ∀ p ∈ ps, p.sources ≠ []) : (places ps).map (fun x => (x.1.slice K, x.2)) = layout (ps.map (Part.slice K)) := by
  unfold places layout
  induction ps with
  | nil => rfl
  | cons p ps ih =>
    simp only [List.flatMap_cons, List.map_append, List.map_cons, List.map_map]
    rw [ih (fun q hq => h q (List.mem_cons_of_mem _ hq)), part_len (h p List.mem_cons_self)]
    rfl

theorem places_isLayer {ps : List Part} (hne : ∀ p ∈ ps, p.sources ≠ []) {j : Nat} {p : Part} {o : Nat} (h : (places ps)[j]? = some (p, o)) :
    IsLayer (ps.map (Part.slice K)) j (p.slice K) o := by
  refine layout_isLayer _ _ _ _ ?_
  rw [← places_layout hne, List.getElem?_map, h]
  rfl

theorem isLayer_places {ps : List Part} (hne : ∀ p ∈ ps, p.sources ≠ []) {j : Nat} {s : OutSlice K} {o : Nat} (h : IsLayer (ps.map (Part.slice K)) j s o) :
    ∃ p, s = p.slice K ∧ (places ps)[j]? = some (p, o) := by
  have := layout_get _ _ _ _ h
  rw [← places_layout hne, List.getElem?_map] at this
  cases hx : (places ps)[j]? with
  | none => rw [hx] at this; cases this
  | some x =>
    rw [hx] at this
    simp only [Option.map_some, Option.some.injEq, Prod.mk.injEq] at this
    exact ⟨x.1, this.1.symm, by rw [← this.2]⟩

theorem mem_places {ps : List Part} {p : Part} {o : Nat} (h : (p, o) ∈ places ps) : p ∈ ps ∧ o < p.len := by
  unfold places at h
  obtain ⟨q, hq, h⟩ := List.mem_flatMap.1 h
  obtain ⟨o', ho, h⟩ := List.mem_map.1 h
  cases h
  exact ⟨hq, List.mem_range.1 ho⟩

theorem forall₂_right {A B C : Type} {R : A → B → Prop} {S : A → C → Prop} {g : C → B} (hRS : ∀ a b, R a b → ∃ c, b = g c ∧ S a c) {l : List A} {l' : List B}
    (h : List.Forall₂ R l l') : ∃ cs, l' = cs.map g ∧ List.Forall₂ S l cs := by
  induction h with
  | nil => exact ⟨[], rfl, .nil⟩
  | cons h _ ih =>
    obtain ⟨cs, rfl, hcs⟩ := ih
    obtain ⟨c, rfl, hc⟩ := hRS _ _ h
    exact ⟨c :: cs, rfl, .cons hc hcs⟩

theorem map_pair (xs : List (Ref × Nat)) (v : Arch.WeightInfo) (l : Nat) :
    (xs.map (fun x => (⟨x.1, x.2, x.2 + l, []⟩ : InSlice K))).map (fun src => (src.model, listed v)) = (xs.map (fun x => (x.1, v))).map (fun i => (i.1, listed i.2)) := by
  simp only [List.map_map, Function.comp_def]

theorem place_merged {f : Family K} {n : String} {m : Module} (h1 : One f n m) {ps : List Part} (hne : ∀ p ∈ ps, p.sources ≠ []) {w : WeightInfo} {sl : OutSlice K} {t : K}
    {ins : List (Ref × WeightInfo)} (h : Place f.env n (ps.map (Part.slice K)) w sl t ins) :
    ∃ v p ins', MergedFrom m (m.numLayers (f.outLayers n)) (fun r => m.numLayers (f.layers r n)) ps v p t ins' ∧ w = listed v ∧ sl = p.slice K ∧
      ins = ins'.map (fun i => (i.1, listed i.2)) := by
  cases h with
  | pre s w hh hw =>
    rw [List.head?_map] at hh
    cases hb : ps.head? with
    | none => rw [hb] at hh; cases hh
    | some p =>
      rw [hb] at hh
      cases hh
      obtain ⟨k, hk⟩ := List.mem_iff_getElem?.1 hw
      obtain ⟨tm, ht, v, hv, rfl⟩ := forall₂_getElem h1.pre hk
      exact ⟨v, p, _, .first hb (List.mem_of_getElem? ht) hv, rfl, rfl, map_pair _ _ _⟩
  | layer j s o k w ins hl hw hins =>
    obtain ⟨p, rfl, hp⟩ := isLayer_places hne hl
    obtain ⟨tm, ht, v, hv, rfl⟩ := forall₂_getElem (h1.layer j) hw
    simp only [Part.slice] at hins
    rw [List.forall₂_map_left_iff] at hins
    obtain ⟨ins', rfl, hins'⟩ := forall₂_right (g := fun i : Ref × Arch.WeightInfo => (i.1, listed i.2))
      (S := fun (x : Ref × Nat) (i : Ref × Arch.WeightInfo) => i.1 = x.1 ∧ Stands m (m.numLayers (f.layers x.1 n)) (some ((x.2 + o : Nat) : Int)) tm i.2)
      (by
        rintro x i ⟨hi1, hi2⟩
        have hcast : ((x.2 : Int) + (o : Int)) = ((x.2 + o : Nat) : Int) := by push_cast; rfl
        simp only [hcast] at hi1 hi2
        obtain ⟨tm', ht', v', hv', hvi⟩ := forall₂_getElem (h1.inLayer x.1 (x.2 + o)) hi2
        rw [ht] at ht'
        cases ht'
        exact ⟨(x.1, v'), Prod.ext hi1 hvi, rfl, hv'⟩) hins
    have hd := part_len (K := K) (hne p (mem_places (List.mem_of_getElem? hp)).1)
    refine ⟨v, p, ins', ?_, rfl, rfl, rfl⟩
    rw [hd]
    exact .layer hp (List.mem_of_getElem? ht) hv hins'
  | post s w hh hw =>
    rw [List.getLast?_map] at hh
    cases hb : ps.getLast? with
    | none => rw [hb] at hh; cases hh
    | some p =>
      rw [hb] at hh
      cases hh
      obtain ⟨k, hk⟩ := List.mem_iff_getElem?.1 hw
      obtain ⟨tm, ht, v, hv, rfl⟩ := forall₂_getElem h1.post hk
      exact ⟨v, p, _, .last hb (List.mem_of_getElem? ht) hv, rfl, rfl, map_pair _ _ _⟩

theorem merged_place {f : Family K} {n : String} {m : Module} (h1 : One f n m) {ps : List Part} (hne : ∀ p ∈ ps, p.sources ≠ []) {v : Arch.WeightInfo} {p : Part} {t : K}
    {ins : List (Ref × Arch.WeightInfo)} (h : MergedFrom m (m.numLayers (f.outLayers n)) (fun r => m.numLayers (f.layers r n)) ps v p t ins) :
    Place f.env n (ps.map (Part.slice K)) (listed v) (p.slice K) t (ins.map (fun i => (i.1, listed i.2))) := by
  have find : ∀ {N : Nat} {i : Option Int} {ws : List Arch.WeightInfo} {cs : List WeightInfo},
      List.Forall₂ (fun w c => ∃ v, Stands m N i w v ∧ c = listed v) ws cs → ∀ {k : Nat} {tm x : Arch.WeightInfo}, ws[k]? = some tm → Stands m N i tm x → cs[k]? = some (listed x) := by
    intro N i ws cs hf k tm x hk hx
    obtain ⟨c, hc, y, hy, rfl⟩ := forall₂_get' hf hk
    rw [hc, stands_unique hx hy]
  cases h with
  | first hb ht hv =>
    obtain ⟨k, hk⟩ := List.mem_iff_getElem?.1 ht
    rw [← map_pair (K := K) p.sources v p.len]
    exact Place.pre (p.slice K) _ (by rw [List.head?_map, hb]; rfl) (List.mem_of_getElem? (find h1.pre hk hv))
  | @layer j o p tm v ins hj ht hv hins =>
    obtain ⟨k, hk⟩ := List.mem_iff_getElem?.1 ht
    have hd := part_len (K := K) (hne p (mem_places (List.mem_of_getElem? hj)).1)
    rw [← hd]
    refine Place.layer j (p.slice K) o k _ _ (places_isLayer hne hj) (find (h1.layer j) hk hv) ?_
    simp only [Part.slice]
    rw [List.forall₂_map_left_iff, List.forall₂_map_right_iff]
    refine hins.imp ?_
    rintro x i ⟨hi1, hi2⟩
    have hcast : ((x.2 : Int) + (o : Int)) = ((x.2 + o : Nat) : Int) := by push_cast; rfl
    simp only [hcast]
    exact ⟨hi1, find (h1.inLayer x.1 (x.2 + o)) hk hi2⟩
  | last hb ht hv =>
    obtain ⟨k, hk⟩ := List.mem_iff_getElem?.1 ht
    rw [← map_pair (K := K) p.sources v p.len]
    exact Place.post (p.slice K) _ (by rw [List.getLast?_map, hb]; rfl) (List.mem_of_getElem? (find h1.post hk hv))

theorem leftOut_stored {f : Family K} {v : Arch.WeightInfo} {ins : List (Ref × Arch.WeightInfo)} :
    ¬ LeftOut f.env (listed v) (ins.map (fun i => (i.1, listed i.2))) ↔ Stored' f v ins := by
  unfold LeftOut Stored'
  constructor
  · intro h ho
    by_contra hc
    refine h ⟨ho, ?_⟩
    intro i hi hin
    obtain ⟨j, hj, rfl⟩ := List.mem_map.1 hi
    exact hc ⟨j, hj, hin⟩
  · rintro h ⟨ho, hno⟩
    obtain ⟨i, hi, hin⟩ := h ho
    exact hno _ (List.mem_map.2 ⟨i, hi, rfl⟩) hin

/-- The one module of the configuration. -/
def partSections (n : String) (ps : List Part) : List (String × OutModule K) := [(n, ⟨some (ps.map (Part.slice K)), none, []⟩)]

theorem parts_sections {f : Family K} {n : String} {m : Module} (hm : f.modules = [(n, m)]) {c : MergeConfig K} {ps : List Part} (hc : PartConf c ps) :
    Sections f.env c (partSections n ps) := by
  have hsl : c.slices = some (ps.map (Part.slice K)) := hc.slices
  obtain ⟨p0, ps0, hp0⟩ := List.exists_cons_of_ne_nil hc.some_part
  unfold partSections
  rw [hp0, List.map_cons] at hsl ⊢
  exact .slices _ _ n hsl hc.models (by simp [Family.env, hm])

/-- **C119** Slices of any models of an architecture shipped (of a single module) can be merged: planning meets no obstacle. -/
theorem C119_slices_usable (f : Family K) (hs : IsShipped f) {n : String} {m : Module} (hm : f.modules = [(n, m)]) {c : MergeConfig K} {ps : List Part} (hc : PartConf c ps)
    (hdepth : (ps.map Part.len).sum ≤ m.numLayers (f.outLayers n)) : Usable f.env (partSections n ps) := by
  refine C119_usable_partial f hs _ ?_
  have hin : ∀ sl ∈ ps.map (Part.slice K), ∃ p ∈ ps, sl = p.slice K := by
    intro sl hsl
    obtain ⟨p, hp, rfl⟩ := List.mem_map.1 hsl
    exact ⟨p, hp, rfl⟩
  refine ⟨by simp [partSections], ?_, by simp [partSections], ?_, ?_, ?_, ?_, ?_, ?_, ?_⟩
  all_goals simp only [partSections, List.mem_singleton, forall_eq, Option.getD_some]
  · rw [hm]; simp
  · obtain ⟨p0, ps0, hp0⟩ := List.exists_cons_of_ne_nil hc.some_part
    rw [hp0]; exact ⟨_, _, rfl⟩
  · intro sl hsl
    obtain ⟨p, hp, rfl⟩ := hin sl hsl
    refine ⟨by simpa [Part.slice] using hc.some_source p hp, ?_⟩
    intro a ha b hb
    obtain ⟨x, _, rfl⟩ := List.mem_map.1 ha
    obtain ⟨y, _, rfl⟩ := List.mem_map.1 hb
    simp
  · intro sl hsl
    obtain ⟨p, hp, rfl⟩ := hin sl hsl
    simp only [Part.slice, List.map_map]
    exact hc.once p hp
  · intro sl hsl src hsrc
    obtain ⟨p, hp, rfl⟩ := hin sl hsl
    obtain ⟨x, hx, rfl⟩ := List.mem_map.1 hsrc
    exact hc.plain p hp x hx
  · intro x y hx hy
    rw [List.head?_map] at hx
    rw [List.getLast?_map] at hy
    obtain ⟨p, hp, rfl⟩ := Option.map_eq_some_iff.1 hx
    obtain ⟨q, hq, rfl⟩ := Option.map_eq_some_iff.1 hy
    simpa [Part.slice] using hc.ends p q hp hq
  · intro sl hsl src hsrc
    obtain ⟨p, hp, rfl⟩ := hin sl hsl
    obtain ⟨x, hx, rfl⟩ := List.mem_map.1 hsrc
    simp
  · intro m' hm'
    rw [hm, List.mem_singleton] at hm'
    cases hm'
    rw [List.map_map]
    have : ps.map (OutSlice.len ∘ Part.slice K) = ps.map Part.len := List.map_congr_left (fun p hp => part_len (hc.some_source p hp))
    rw [this]
    exact hdepth

/-- **C119** For slices, what the end-to-end theorems say about places holds for the weights of the architecture, each by its name and with the weights of the models by theirs. -/
theorem C119_slices {T E : Type} (f : Family K) (hs : IsShipped f) {n : String} {m : Module} (hm : f.modules = [(n, m)]) {c : MergeConfig K} {ps : List Part} (hc : PartConf c ps)
    (s : Setup K T E) (right : Arch.WeightInfo → Part → K → List (Ref × Arch.WeightInfo) → T → Prop)
    (hd : Delivers f.env c (partSections n ps) s (fun _ w sl t ins z => ∀ v p ins', w = listed v → sl = p.slice K → ins = ins'.map (fun i => (i.1, listed i.2)) →
      MergedFrom m (m.numLayers (f.outLayers n)) (fun r => m.numLayers (f.layers r n)) ps v p t ins' → right v p t ins' z)) :
    Assembles f c (MergedFrom m (m.numLayers (f.outLayers n)) (fun r => m.numLayers (f.layers r n)) ps) s right := by
  have h1 := one_module hs hm
  intro group prio pop conf size hstd
  obtain ⟨mods, p1, trace, p2, fs, p3, p4, idx, p5, p6, p7⟩ := hd group prio pop conf size hstd
  simp only [partSections, List.mem_singleton, forall_eq, exists_eq_left, Option.getD_some] at p6 p7
  refine ⟨mods, p1, trace, p2, fs, p3, p4, idx, p5, ?_, ?_⟩
  · intro name
    rw [p6 name]
    constructor
    · rintro ⟨w, sl, t, ins, hpl, hno, rfl⟩
      obtain ⟨v, p, ins', hmf, rfl, rfl, rfl⟩ := place_merged h1 hc.some_source hpl
      exact ⟨v, p, t, ins', hmf, leftOut_stored.1 hno, rfl⟩
    · rintro ⟨v, p, t, ins, hmf, hk, rfl⟩
      exact ⟨listed v, _, t, _, merged_place h1 hc.some_source hmf, leftOut_stored.2 hk, rfl⟩
  · intro v p t ins hmf hk
    obtain ⟨z, hz, hr⟩ := p7 _ _ _ _ (merged_place h1 hc.some_source hmf) (leftOut_stored.2 hk)
    exact ⟨z, hz v p ins rfl rfl rfl hmf, hr⟩

end

end Verif.Shipped
