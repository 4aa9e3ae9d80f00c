import Verif.Props.Registry

/-! # Merges with every registered method on a small architecture: the hypotheses of C112 and C113 are met -/

set_option linter.unusedSectionVars false

namespace Verif.WholeMerge

open Verif.ModelRef (Str Ref)
open Verif.LoadTask (LoadTensor WeightInfo Casts Loader ownTensors typeNames wanted)
open Verif.Plan
open Verif.Config
open Verif.Pipeline
open Verif.Tensor (Tensor)

def refC : Ref := ⟨⟨"c".toList, none⟩, none, none⟩

theorem plainC : refC.Plain := ⟨⟨by unfold ModelRef.NoSep; decide, (by rintro r hr; cases hr)⟩, (by rintro l hl; cases hl), rfl⟩

/-- Three layers of some models. -/
def showSlice (rs : List (Ref × Params ℝ)) : OutSlice ℝ := ⟨rs.map (fun r => ⟨r.1, 0, 3, r.2⟩), none, []⟩

def showConfig (rs : List (Ref × Params ℝ)) (base : Option Ref) (ps : Params ℝ) : MergeConfig ℝ :=
  { slices := some [showSlice rs], baseModel := base, parameters := ps }

def showModules (rs : List (Ref × Params ℝ)) : List (String × OutModule ℝ) := [("default", ⟨some [showSlice rs], none, []⟩)]

/-- The architecture of the examples before, with the parameters of a method. -/
def showEnv (m : Method) : Env ℝ := archOf ℝ 3 m.params m.tensorParams

/-- Every tensor of a model is `own` of it. -/
noncomputable def showSetup (m : Method) (own : Ref → Tensor ℝ) : Setup ℝ (Tensor ℝ) MethodErr where
  casts := ⟨fun _ => .float32, fun _ x => x⟩
  loaders := fun r => lettersLoader (Tensor ℝ) (fun _ => own r)
  dtype := none
  outDtype := none
  method := m.task

theorem show_uses (ch : Chance) (name : String) (m : Method) (hm : m ∈ registry ch) (hn : m.name = name.toList) (own : Ref → Tensor ℝ) :
    Uses ch name (showEnv m) (showSetup m own) := ⟨m, by rw [← hn]; exact getMethod_mem ch m hm, rfl, rfl, rfl⟩

theorem show_sections (m : Method) (rs : List (Ref × Params ℝ)) (base : Option Ref) (ps : Params ℝ) :
    Sections (showEnv m) (showConfig rs base ps) (showModules rs) := .slices _ _ "default" rfl rfl rfl

theorem show_usable (m : Method) (rs : List (Ref × Params ℝ)) (hne : rs ≠ []) (hnd : (rs.map Prod.fst).Nodup) (hplain : ∀ r ∈ rs, r.1.Plain) :
    Usable (showEnv m) (showModules rs) := by
  refine archOf_usable [] _ _ 3 ?_ ?_ ?_ ?_ ?_
  · intro s hs
    rw [List.mem_singleton] at hs
    subst hs
    refine ⟨by simpa [showSlice] using hne, ?_⟩
    intro a ha b hb
    obtain ⟨_, _, rfl⟩ := List.mem_map.1 ha
    obtain ⟨_, _, rfl⟩ := List.mem_map.1 hb
    rfl
  · intro s hs
    rw [List.mem_singleton] at hs
    subst hs
    intro a ha
    obtain ⟨_, _, rfl⟩ := List.mem_map.1 ha
    exact ⟨le_refl _, le_refl _⟩
  · intro s hs
    rw [List.mem_singleton] at hs
    subst hs
    simp only [showSlice, List.map_map]
    exact hnd
  · intro s hs
    rw [List.mem_singleton] at hs
    subst hs
    intro a ha
    obtain ⟨r, hr, rfl⟩ := List.mem_map.1 ha
    exact hplain r hr
  · intro a b ha hb
    cases ha; cases hb
    exact le_refl _

/-- What the places of these merges have in common. -/
theorem show_place (m : Method) (rs : List (Ref × Params ℝ)) (own : Ref → Tensor ℝ) (e : String × OutModule ℝ) (he : e ∈ showModules rs)
    (w : WeightInfo) (sl : OutSlice ℝ) (t : ℝ) (ins : List (Ref × WeightInfo)) (hp : Place (showEnv m) e.1 (e.2.slices.getD []) w sl t ins) :
    e.2 = ⟨some [showSlice rs], none, []⟩ ∧ sl = showSlice rs ∧ 0 ≤ t ∧ t ≤ 1 ∧ ins.map Prod.fst = rs.map Prod.fst ∧
      Fed (showSetup m own) (fun r _ => own r) w ins := by
  simp only [showModules, List.mem_singleton] at he
  subst he
  obtain ⟨⟨ch, k, rfl⟩, h0, h1, hin⟩ := archOf_inputs (N := 8) (by
    intro s hs
    simp only [Option.getD_some, List.mem_singleton] at hs
    subst hs
    intro a ha b hb
    obtain ⟨_, _, rfl⟩ := List.mem_map.1 ha
    obtain ⟨_, _, rfl⟩ := List.mem_map.1 hb
    rfl) (by
    intro s hs
    simp only [Option.getD_some, List.mem_singleton] at hs
    subst hs
    intro a ha
    obtain ⟨_, _, rfl⟩ := List.mem_map.1 ha
    exact ⟨le_refl _, by norm_num⟩) hp
  obtain ⟨hs, hms⟩ := hp.models
  simp only [Option.getD_some, List.mem_singleton] at hs
  subst hs
  refine ⟨rfl, rfl, h0, h1, ?_, fun i hi => letters_load (fun _ => own i.1) _ _ (hin i hi), Or.inl rfl⟩
  rw [hms]
  simp [showSlice, Function.comp_def]

/-- The middle layer. -/
theorem show_middle (m : Method) (rs : List (Ref × Params ℝ)) (hne : rs ≠ []) :
    Place (showEnv m) "default" [showSlice rs] (nm 'w' 1) (showSlice rs) (1 / 2) (rs.map (fun r => (r.1, nm 'w' 1))) := by
  have hlen : OutSlice.len (showSlice rs) = 3 := by
    cases rs with
    | nil => exact absurd rfl hne
    | cons r rs => rfl
  have h := Place.layer (env := showEnv m) (n := "default") (slices := [showSlice rs]) 1 (showSlice rs) 1 0 (nm 'w' 1)
    (rs.map (fun r => (r.1, nm 'w' 1))) ⟨[], [], rfl, by rw [hlen]; decide, rfl⟩ rfl (by
      simp only [showSlice]
      rw [List.forall₂_map_left_iff, List.forall₂_map_right_iff, List.forall₂_same]
      exact fun r _ => ⟨rfl, rfl⟩)
  rw [hlen] at h
  have e : (if 3 ≤ 1 then (1 : ℝ) else ((1 : Nat) : ℝ) / (((3 : Nat) : ℝ) - 1)) = 1 / 2 := by norm_num
  rw [e] at h
  exact h

/-- A registered method with this name. -/
theorem show_method (ch : Chance) (name : String) (h : name ∈ guideNames) : ∃ m ∈ registry ch, m.name = name.toList := by
  obtain ⟨m, h1, h2⟩ := (C113_names ch name.toList).1.2 ⟨name, h, rfl⟩
  exact ⟨m, (getMethod_name ch _ m h1).1, h2⟩

/-- Something for all that is left to chance. -/
noncomputable def someChance : Chance :=
  ⟨⟨Real.sqrt, fun _ n => List.range n, fun _ n => List.range n, fun _ _ _ _ => true⟩, fun _ l => l.reverse, fun _ l => l, fun _ l => l,
    fun _ _ n => List.range n⟩

theorem someChance_order (name : Str) (l : List Ref) : (someChance.order name l).Perm l := List.reverse_perm l

theorem three_inputs {ins : List (Ref × WeightInfo)} {x y z : Ref} (h : ins.map Prod.fst = [x, y, z]) :
    ∃ a b c, ins = [(x, a), (y, b), (z, c)] := by
  match ins, h with
  | [i, j, k], h =>
    simp only [List.map_cons, List.map_nil, List.cons.injEq, and_true] at h
    obtain ⟨rfl, rfl, rfl⟩ := h
    exact ⟨_, _, _, rfl⟩

theorem two_inputs {ins : List (Ref × WeightInfo)} {x y : Ref} (h : ins.map Prod.fst = [x, y]) : ∃ a b, ins = [(x, a), (y, b)] := by
  match ins, h with
  | [i, j], h =>
    simp only [List.map_cons, List.map_nil, List.cons.injEq, and_true] at h
    obtain ⟨rfl, rfl⟩ := h
    exact ⟨_, _, rfl⟩

/-- "a", "b", "c" without settings of their own. -/
def abc : List (Ref × Params ℝ) := [(refA, []), (refB, []), (refC, [])]
/-- "a" and "b". -/
def ab : List (Ref × Params ℝ) := [(refA, []), (refB, [])]
/-- "b" with weight 2 and "c" with weight 1. -/
def pair : List (Ref × Params ℝ) := [(refB, [("weight".toList, .scalar (.num 2))]), (refC, [("weight".toList, .scalar (.num 1))])]
/-- These, and "a". -/
def triple : List (Ref × Params ℝ) := [(refB, [("weight".toList, .scalar (.num 2))]), (refA, []), (refC, [("weight".toList, .scalar (.num 1))])]

theorem abc_usable (m : Method) : Usable (showEnv m) (showModules abc) :=
  show_usable m abc (by simp [abc]) (by simp only [abc, List.map_cons, List.map_nil]; decide) (by simpa [abc] using ⟨plainA, plainB, plainC⟩)

theorem ab_usable (m : Method) : Usable (showEnv m) (showModules ab) :=
  show_usable m ab (by simp [ab]) (by simp only [ab, List.map_cons, List.map_nil]; decide) (by simpa [ab] using ⟨plainA, plainB⟩)

theorem pair_usable (m : Method) : Usable (showEnv m) (showModules pair) :=
  show_usable m pair (by simp [pair]) (by simp only [pair, List.map_cons, List.map_nil]; decide) (by simpa [pair] using ⟨plainB, plainC⟩)

theorem triple_usable (m : Method) : Usable (showEnv m) (showModules triple) :=
  show_usable m triple (by simp [triple]) (by simp only [triple, List.map_cons, List.map_nil]; decide)
    (by simpa [triple] using ⟨plainB, plainA, plainC⟩)

/-- All tensors of "a" are (10, 10, 10), of "b" (13, 10, 14), of "c" (10, 9, 12). -/
noncomputable def showOwn (m : Ref) : Tensor ℝ :=
  ⟨[3], fun i => if m = refA then 10 else if m = refB then (if i = 0 then 13 else if i = 1 then 10 else 14) else
    (if i = 0 then 10 else if i = 1 then 9 else 12)⟩

/-- A setting that is nowhere has its default. -/
theorem counts_default {rs : List (Ref × Params ℝ)} {base : Option Ref} (name : Str) (t : ℝ) (key : String) (d : Scalar ℝ) :
    Counts (showConfig rs base []) ⟨some [showSlice rs], none, []⟩ (showSlice rs) name t key d d :=
  ⟨none, .unset (.unset (.unset .nothing)), rfl⟩

theorem base_here (rs : List (Ref × Params ℝ)) (ps : Params ℝ) (b : Ref) : BaseIs (showConfig rs (some b) ps) (showSlice rs) b := Or.inr ⟨rfl, rfl⟩

theorem no_base (rs : List (Ref × Params ℝ)) (ps : Params ℝ) (b : Ref) : ¬ BaseIs (showConfig rs none ps) (showSlice rs) b := by
  rintro (h | ⟨_, h⟩) <;> cases h

/-- RAM of "a", "b" and "c". -/
theorem show_ram (m : Method) (hm : m ∈ registry someChance) (hn : m.name = "ram".toList) :
    Delivers (showEnv m) (showConfig abc (some refA) []) (showModules abc) (showSetup m showOwn) (fun e w sl t ins z => ∃ y, (∃ b wb epsilon,
      BaseIs (showConfig abc (some refA) []) sl b ∧ (b, wb) ∈ ins ∧
      Counts (showConfig abc (some refA) []) e.2 sl w.name t "epsilon" (.num (1 / 100000)) (.num epsilon) ∧
      Reinforced (showOwn b) (allBut b (fun r _ => showOwn r) ins) epsilon y) ∧ Stored (showSetup m showOwn) w y z) := by
  refine C113_ram someChance someChance_order _ _ _ (show_sections m abc (some refA) []) (abc_usable m) _ (fun r _ => showOwn r)
    (show_uses someChance "ram" m hm hn showOwn) ?_
  intro e he w sl t ins hp _
  obtain ⟨hd, rfl, h0, h1, hms, hfed⟩ := show_place m abc showOwn e he w sl t ins hp
  obtain ⟨wa, wb, wc, rfl⟩ := three_inputs hms
  rw [hd]
  exact ⟨hfed, refA, wa, 1 / 100000, base_here _ _ _, by simp, counts_default _ _ _ _, by simp [showOwn]⟩

/-- In the middle layer: where only "b" changed "a", its value; where only "c" did, its value; where both did, the mean. -/
example (pop : ∀ n, Graph.PopOracle n) (m : Method) (hm : m ∈ registry someChance) (hn : m.name = "ram".toList) :
    ∃ mods trace fs idx, plan (showEnv m) (showConfig abc (some refA) []) = .ok mods ∧
    runTasks (jobs ℝ (showSetup m showOwn).dtype) (fun _ => "") (fun _ => 0) (execJob (showSetup m showOwn)) pop (targets (planned mods)) =
      some (trace, .finished) ∧
    ∃ z : Tensor ℝ, z.get 0 = 13 ∧ z.get 1 = 9 ∧ z.get 2 = 13 ∧
      (Writer.getTensor fs idx (Writer.afterHistory fs idx none []) (String.ofList (nm 'w' 1).name) [] true).1 = .ok (some z) := by
  obtain ⟨mods, hp, trace, h, fs, _, _, idx, _, _, hval⟩ := show_ram m hm hn (fun _ => "") (fun _ => 0) pop ⟨100, true, none⟩ (fun _ => 4)
    (by constructor <;> rfl)
  refine ⟨mods, trace, fs, idx, hp, h, ?_⟩
  obtain ⟨z, ⟨y, ⟨b, wb, eps, hb, hbin, heps, hs, hy⟩, hz⟩, hread⟩ :=
    hval _ (List.mem_singleton.2 rfl) _ _ _ _ (show_middle m abc (by simp [abc])) (by rintro ⟨h, _⟩; cases h)
  have hyz : z = y := by
    cases hz with
    | unchanged _ => rfl
    | cast n d h => cases h
  subst hyz
  have hb : b = refA := base_unique hb (base_here _ _ _)
  subst hb
  have heps : eps = 1 / 100000 := by
    obtain ⟨v, hv, e⟩ := heps
    have := reads_unique hv (.unset (.unset (.unset .nothing)))
    subst this
    simpa using e.symm
  subst heps
  have hba : ¬ refB = refA := by decide
  have hca : ¬ refC = refA := by decide
  have hcb : ¬ refC = refB := by decide
  have hall : allBut refA (fun r _ => showOwn r) (abc.map (fun r => (r.1, nm 'w' 1))) = [showOwn refB, showOwn refC] := by
    simp [allBut, abc, hba, hca]
  rw [hall] at hy
  refine ⟨z, ?_, ?_, ?_, hread _ _ _⟩
  · rw [(hy 0).2.1 (showOwn refB) (by simp [Merge.changedAt, showOwn, hba, hca, hcb]; norm_num)]
    simp [showOwn, hba]
  · rw [(hy 1).2.1 (showOwn refC) (by simp [Merge.changedAt, showOwn, hba, hca, hcb]; norm_num)]
    simp [showOwn, hca, hcb]
  · have : Merge.changedAt (1 / 100000) (showOwn refA) [showOwn refB, showOwn refC] 2 = [showOwn refB, showOwn refC] := by
      simp [Merge.changedAt, showOwn, hba, hca, hcb]; norm_num
    rw [(hy 2).2.2 (by rw [this]; simp), this]
    simp [showOwn, hba, hca, hcb]
    norm_num

/-- "a" has `a` everywhere, "b" one more at the first position, "c" at the second. -/
noncomputable def cornerOwn (a : ℝ) (m : Ref) : Tensor ℝ :=
  ⟨[2], fun i => if m = refA then a else if m = refB then (if i = 0 then a + 1 else a) else (if i = 1 then a + 1 else a)⟩

example (m : Method) (hm : m ∈ registry someChance) (hn : m.name = "ramplus_tl".toList) := by
  refine C113_ramplus someChance someChance_order _ _ _ (show_sections m abc (some refA) []) (abc_usable m) _ (fun r _ => showOwn r)
    (show_uses someChance "ramplus_tl" m hm hn showOwn) ?_
  intro e he w sl t ins hp _
  obtain ⟨hd, rfl, h0, h1, hms, hfed⟩ := show_place m abc showOwn e he w sl t ins hp
  obtain ⟨wa, wb, wc, rfl⟩ := three_inputs hms
  rw [hd]
  exact ⟨hfed, refA, wa, 1 / 10, 2 / 10, 1 / 100000, ⟨base_here _ _ _, by simp, counts_default _ _ _ _, counts_default _ _ _ _, counts_default _ _ _ _⟩,
    by norm_num, by norm_num, by norm_num, by simp [showOwn]⟩

/-- The positions with the greatest half of the variances; `select_topk` is set to a half. -/
example (m : Method) (hm : m ∈ registry someChance) (hn : m.name = "sce".toList) := by
  refine C113_sce someChance someChance_order _ _ _ (show_sections m abc (some refA) [("select_topk".toList, .scalar (.num (1 / 2)))]) (abc_usable m) _
    (fun r _ => showOwn r) (show_uses someChance "sce" m hm hn showOwn) ?_
  intro e he w sl t ins hp _
  obtain ⟨hd, rfl, h0, h1, hms, hfed⟩ := show_place m abc showOwn e he w sl t ins hp
  obtain ⟨wa, wb, wc, rfl⟩ := three_inputs hms
  rw [hd]
  have hba : ¬ refB = refA := by decide
  have hca : ¬ refC = refA := by decide
  have hcb : ¬ refC = refB := by decide
  have hall : allBut refA (fun r _ => showOwn r) [(refA, wa), (refB, wb), (refC, wc)] = [showOwn refB, showOwn refC] := by
    simp [allBut, hba, hca]
  refine ⟨hfed, refA, wa, 1 / 2, base_here _ _ _, by simp, ⟨_, none, .unset (.unset (.unset .nothing)), rfl⟩,
    ⟨_, .unset (.unset (.found (.scalar _))), rfl⟩, by rw [hall]; simp, Or.inr ⟨by norm_num, ?_⟩, by simp [showOwn]⟩
  rw [hall]
  have : Merge.varyingCount (showOwn refA) [showOwn refB, showOwn refC] = 3 := by
    simp [Merge.varyingCount, Merge.spread, showOwn, hba, hca, hcb, Tensor.numel, List.range_succ]
    norm_num
  rw [this]
  norm_num

example (m : Method) (hm : m ∈ registry someChance) (hn : m.name = "nearswap".toList) := by
  refine C113_nearswap someChance someChance_order _ _ _ (show_sections m ab (some refA) [("t".toList, .scalar (.num 3))]) (ab_usable m) _
    (fun r _ => showOwn r) (show_uses someChance "nearswap" m hm hn showOwn) ?_
  intro e he w sl t ins hp _
  obtain ⟨hd, rfl, h0, h1, hms, hfed⟩ := show_place m ab showOwn e he w sl t ins hp
  obtain ⟨wa, wb, rfl⟩ := two_inputs hms
  rw [hd]
  exact ⟨hfed, refA, wa, refB, wb, 3, base_here _ _ _, List.Perm.refl _, .unset (.unset (.found (.scalar _))), by norm_num, rfl⟩

example (m : Method) (hm : m ∈ registry someChance) (hn : m.name = "nuslerp".toList) := by
  refine C113_nuslerp someChance _ _ _ (show_sections m pair none []) (pair_usable m) _
    (fun r _ => showOwn r) (show_uses someChance "nuslerp" m hm hn showOwn) ?_
  intro e he w sl t ins hp _
  obtain ⟨hd, rfl, h0, h1, hms, hfed⟩ := show_place m pair showOwn e he w sl t ins hp
  obtain ⟨wb, wc, rfl⟩ := two_inputs hms
  rw [hd]
  exact ⟨hfed, no_base _ _, _, _, 2, 1, false, true, rfl, ⟨⟨refB, 0, 3, [("weight".toList, .scalar (.num 2))]⟩, by simp [showSlice, pair], rfl, .found (.scalar _)⟩,
    ⟨⟨refC, 0, 3, [("weight".toList, .scalar (.num 1))]⟩, by simp [showSlice, pair], rfl, .found (.scalar _)⟩,
    ⟨counts_default _ _ _ _, counts_default _ _ _ _⟩, rfl⟩

/-- The weights of "b" and "c" in the merge with "a". -/
theorem triple_weight_b {base : Option Ref} {ps : Params ℝ} (t : ℝ) (w : WeightInfo) :
    WeightIs (showConfig triple base ps) ⟨some [showSlice triple], none, []⟩ (showSlice triple) t (refB, w) 2 :=
  ⟨⟨refB, 0, 3, [("weight".toList, .scalar (.num 2))]⟩, by simp [showSlice, triple], rfl, .found (.scalar _)⟩

theorem triple_weight_c {base : Option Ref} {ps : Params ℝ} (t : ℝ) (w : WeightInfo) :
    WeightIs (showConfig triple base ps) ⟨some [showSlice triple], none, []⟩ (showSlice triple) t (refC, w) 1 :=
  ⟨⟨refC, 0, 3, [("weight".toList, .scalar (.num 1))]⟩, by simp [showSlice, triple], rfl, .found (.scalar _)⟩

theorem triple_weight_a {base : Option Ref} (t : ℝ) (w : WeightInfo) : ∀ src ∈ (showSlice triple).sources, src.model = refA →
    ∃ x, SaysOf (showConfig triple base []) ⟨some [showSlice triple], none, []⟩ (showSlice triple) src w.name t "weight" x := by
  intro src hsrc hm
  simp only [showSlice, triple, List.map_cons, List.map_nil, List.mem_cons, List.not_mem_nil, or_false] at hsrc
  rcases hsrc with rfl | rfl | rfl
  · exact absurd hm (by decide)
  · exact ⟨none, .unset (.unset (.unset (.unset .nothing)))⟩
  · exact absurd hm (by decide)

example (m : Method) (hm : m ∈ registry someChance) (hn : m.name = "nuslerp".toList) := by
  refine C113_nuslerp_base someChance _ _ _ (show_sections m triple (some refA) []) (triple_usable m) _
    (fun r _ => showOwn r) (show_uses someChance "nuslerp" m hm hn showOwn) ?_
  intro e he w sl t ins hp _
  obtain ⟨hd, rfl, h0, h1, hms, hfed⟩ := show_place m triple showOwn e he w sl t ins hp
  obtain ⟨wb, wa, wc, rfl⟩ := three_inputs hms
  rw [hd]
  exact ⟨hfed, (refA, wa), (refB, wb), (refC, wc), 2, 1, false, true, base_here _ _ _, Or.inr (Or.inl rfl), triple_weight_b _ _, triple_weight_c _ _,
    triple_weight_a _ _, ⟨counts_default _ _ _ _, counts_default _ _ _ _⟩, rfl, rfl⟩

theorem corner_offset_b (a : ℝ) : (fun j => (cornerOwn a refB).get j - (cornerOwn a refA).get j) = fun j => if j = 0 then (1 : ℝ) else 0 := by
  have hba : ¬ refB = refA := by decide
  funext j
  by_cases hj : j = 0 <;> simp [cornerOwn, hba, hj]

theorem corner_offset_c (a : ℝ) : (fun j => (cornerOwn a refC).get j - (cornerOwn a refA).get j) = fun j => if j = 1 then (1 : ℝ) else 0 := by
  have hca : ¬ refC = refA := by decide
  have hcb : ¬ refC = refB := by decide
  funext j
  by_cases hj : j = 1 <;> simp [cornerOwn, hca, hcb, hj]

example (m : Method) (hm : m ∈ registry someChance) (hn : m.name = "model_stock".toList) := by
  refine C113_model_stock someChance _ _ _ (show_sections m abc (some refA) []) (abc_usable m) _
    (fun r _ => cornerOwn 5 r) (show_uses someChance "model_stock" m hm hn (cornerOwn 5)) ?_
  intro e he w sl t ins hp _
  obtain ⟨hd, rfl, h0, h1, hms, hfed⟩ := show_place m abc (cornerOwn 5) e he w sl t ins hp
  obtain ⟨wa, wb, wc, rfl⟩ := three_inputs hms
  rw [hd]
  refine ⟨hfed, refA, wa, false, base_here _ _ _, by simp, counts_default _ _ _ _, by simp, by simp [cornerOwn], ?_⟩
  intro k hk
  have hall : allBut refA (fun r _ => cornerOwn 5 r) [(refA, wa), (refB, wb), (refC, wc)] = [cornerOwn 5 refB, cornerOwn 5 refC] := by
    simp [allBut, show ¬ refB = refA by decide, show ¬ refC = refA by decide]
  rw [hall]
  have h : Sphere.meanCos (Sphere.stockLine false (cornerOwn 5 refA).shape k)
      ([cornerOwn 5 refB, cornerOwn 5 refC].map (fun x => fun j => x.get j - (cornerOwn 5 refA).get j)) = 0 := by
    simp only [List.map_cons, List.map_nil, corner_offset_b, corner_offset_c]
    norm_num [Sphere.meanCos, Sphere.offsetCos, Sphere.dotOn, Sphere.normOn, List.range_succ, Sphere.stockLine, cornerOwn]
  rw [h]
  norm_num

example (m : Method) (hm : m ∈ registry someChance) (hn : m.name = "arcee_fusion".toList) := by
  refine C113_arcee_fusion someChance _ _ _ (show_sections m ab (some refA) []) (ab_usable m) _
    (fun r _ => showOwn r) (show_uses someChance "arcee_fusion" m hm hn showOwn) ?_
  intro e he w sl t ins hp _
  obtain ⟨hd, rfl, h0, h1, hms, hfed⟩ := show_place m ab showOwn e he w sl t ins hp
  obtain ⟨wa, wb, rfl⟩ := two_inputs hms
  exact ⟨hfed, (refA, wa), (refB, wb), base_here _ _ _, Or.inl rfl, rfl⟩

theorem corner_norm : Sphere.normOn (List.range 2) (fun j => if j = 0 then (1 : ℝ) else 0) = 1 := by
  norm_num [Sphere.normOn, Sphere.dotOn, List.range_succ]

theorem corner_norm' : Sphere.normOn (List.range 2) (fun j => if j = 1 then (1 : ℝ) else 0) = 1 := by
  norm_num [Sphere.normOn, Sphere.dotOn, List.range_succ]

/-- Without iterations the normalised sum of the directions. -/
example (m : Method) (hm : m ∈ registry someChance) (hn : m.name = "karcher".toList) := by
  refine C113_karcher someChance _ _ _ (show_sections m ab none [("max_iter".toList, .scalar (.num ((0 : Nat) : ℝ)))]) (ab_usable m) _
    (fun r _ => showOwn r) (show_uses someChance "karcher" m hm hn showOwn) ?_
  intro e he w sl t ins hp _
  obtain ⟨hd, rfl, h0, h1, hms, hfed⟩ := show_place m ab showOwn e he w sl t ins hp
  obtain ⟨wa, wb, rfl⟩ := two_inputs hms
  rw [hd]
  have hlong : ∀ x : Ref, x = refA ∨ x = refB → 1 / 100000 < Sphere.normOn (List.range 3) (showOwn x).get := by
    rintro x (rfl | rfl)
    · unfold Sphere.normOn
      refine Real.lt_sqrt_of_sq_lt ?_
      norm_num [Sphere.dotOn, List.range_succ, showOwn]
    · unfold Sphere.normOn
      refine Real.lt_sqrt_of_sq_lt ?_
      norm_num [Sphere.dotOn, List.range_succ, showOwn, show ¬ refB = refA by decide]
  refine ⟨hfed, 0, 1 / 100000, [3], ⟨_, .unset (.unset (.found (.scalar _))), rfl⟩, ⟨none, .unset (.unset (.unset .nothing)), rfl⟩, by norm_num, by norm_num,
    by simp, by simp [showOwn], ⟨_, List.mem_cons_self, by simpa using hlong refA (Or.inl rfl)⟩, ?_⟩
  have ha := hlong refA (Or.inl rfl)
  have hb := hlong refB (Or.inr rfl)
  have hn : (showOwn refA).numel = 3 := by simp [showOwn, Tensor.numel]
  have hs : (showOwn refB).shape = (showOwn refA).shape := rfl
  have hr : Tensor.karcherRectify w.isEmbed [showOwn refA, showOwn refB] = [showOwn refA, showOwn refB] := rfl
  simp only [Sphere.karcherTask, List.map_cons, List.map_nil, hr, List.all_cons, hs, decide_true, List.all_nil, Bool.and_self, if_true, hn,
    Sphere.karcherMerge, List.filter_cons, gt_iff_lt, ha, hb, List.filter_nil, Sphere.karcherValid]
  norm_num [Sphere.karcherLoop, Except.map]

theorem corner_clear (n : Nat) (hn : n = 2) : (1 / 100000000 : ℝ) ≤ Sphere.normOn (List.range n) (Sphere.direction n (1 / 100000000) true
    [(2, fun j => if j = 0 then (1 : ℝ) else 0), (1, fun j => if j = 1 then (1 : ℝ) else 0)]) := by
  subst hn
  unfold Sphere.normOn
  refine Real.le_sqrt_of_sq_le ?_
  simp only [Sphere.dotOn, Sphere.direction, List.map_cons, List.map_nil, corner_norm, corner_norm', Sphere.usedWeight]
  norm_num [List.range_succ]

example (m : Method) (hm : m ∈ registry someChance) (hn : m.name = "multislerp".toList) := by
  refine C113_multislerp_base someChance someChance_order _ _ _ (show_sections m triple (some refA) []) (triple_usable m) _
    (fun r _ => cornerOwn 5 r) (show_uses someChance "multislerp" m hm hn (cornerOwn 5)) ?_
  intro e he w sl t ins hp _
  obtain ⟨hd, rfl, h0, h1, hms, hfed⟩ := show_place m triple (cornerOwn 5) e he w sl t ins hp
  obtain ⟨wb, wa, wc, rfl⟩ := three_inputs hms
  rw [hd]
  refine ⟨hfed, refA, wa, [(2, fun j => if j = 0 then (1 : ℝ) else 0), (1, fun j => if j = 1 then (1 : ℝ) else 0)], true, 1 / 100000000, base_here _ _ _, by simp, ?_,
    ⟨counts_default _ _ _ _, counts_default _ _ _ _, by norm_num, by simp, fun _ => by norm_num, corner_clear _ (by simp [Tensor.numel, cornerOwn])⟩,
    triple_weight_a _ _, by simp [cornerOwn]⟩
  have hall : [(refB, wb), (refA, wa), (refC, wc)].filter (fun i => decide (i.1 ≠ refA)) = [(refB, wb), (refC, wc)] := by
    simp [show ¬ refB = refA by decide, show ¬ refC = refA by decide]
  rw [hall]
  exact .cons ⟨triple_weight_b _ _, (corner_offset_b 5).symm⟩ (.cons ⟨triple_weight_c _ _, (corner_offset_c 5).symm⟩ .nil)

example (m : Method) (hm : m ∈ registry someChance) (hn : m.name = "multislerp".toList) := by
  refine C113_multislerp someChance someChance_order _ _ _ (show_sections m pair none []) (pair_usable m) _
    (fun r _ => cornerOwn 0 r) (show_uses someChance "multislerp" m hm hn (cornerOwn 0)) ?_
  intro e he w sl t ins hp _
  obtain ⟨hd, rfl, h0, h1, hms, hfed⟩ := show_place m pair (cornerOwn 0) e he w sl t ins hp
  obtain ⟨wb, wc, rfl⟩ := two_inputs hms
  rw [hd]
  have hba : ¬ refB = refA := by decide
  have hca : ¬ refC = refA := by decide
  have hcb : ¬ refC = refB := by decide
  refine ⟨hfed, no_base _ _, [2], [(2, fun j => if j = 0 then (1 : ℝ) else 0), (1, fun j => if j = 1 then (1 : ℝ) else 0)], true, 1 / 100000000, ?_,
    ⟨counts_default _ _ _ _, counts_default _ _ _ _, by norm_num, by simp, fun _ => by norm_num, corner_clear _ (by simp)⟩, by simp [cornerOwn]⟩
  exact .cons ⟨⟨⟨refB, 0, 3, [("weight".toList, .scalar (.num 2))]⟩, by simp [showSlice, pair], rfl, .found (.scalar _)⟩,
      by funext j; simp [cornerOwn, hba]⟩
    (.cons ⟨⟨⟨refC, 0, 3, [("weight".toList, .scalar (.num 1))]⟩, by simp [showSlice, pair], rfl, .found (.scalar _)⟩,
      by funext j; simp [cornerOwn, hca, hcb]⟩ .nil)

/-- All these methods exist. -/
example (name : String) (h : name ∈ guideNames) : ∃ m ∈ registry someChance, m.name = name.toList := show_method someChance name h
example : "ram" ∈ guideNames := by decide

end Verif.WholeMerge
