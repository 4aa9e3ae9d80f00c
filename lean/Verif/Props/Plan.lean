import Verif.Proof.Plan
import Verif.Props.Graph
import Verif.Props.Writer
import Mathlib.Tactic.Linarith
import Mathlib.Tactic.FieldSimp
import Mathlib.Data.Rat.Floor
import Mathlib.Data.List.Nodup

/-! # C27 - C32 -/

set_option linter.unusedSectionVars false

namespace Verif.Plan

open Verif.ModelRef (Str Ref)
open Verif.Config
open Verif.LoadTask (WeightInfo resultSet)

theorem dictOf_nodup {V : Type} (es : List (Ref × V)) (h : (es.map Prod.fst).Nodup) : dictOf es = es := by
  unfold dictOf
  suffices hs : ∀ (es d : List (Ref × V)), ((d ++ es).map Prod.fst).Nodup →
      es.foldl (fun d e => resultSet d e.1 e.2) d = d ++ es by
    simpa using hs es [] (by simpa using h)
  intro es
  induction es with
  | nil => intro d _; simp
  | cons e es ih =>
    intro d hd
    have hne : e.1 ∉ d.map Prod.fst := by
      intro hin
      rw [List.map_append, List.nodup_append] at hd
      exact hd.2.2 _ hin _ (by simp) rfl
    simp only [List.foldl_cons]
    rw [show resultSet d e.1 e.2 = d ++ [e] by
      unfold resultSet
      rw [if_neg (by simpa using hne)]]
    rw [ih (d ++ [e]) (by simpa using hd)]
    simp

theorem forall₂_mem_right {α β : Type} {R : α → β → Prop} {l : List α} {l' : List β} (h : List.Forall₂ R l l') :
    ∀ b ∈ l', ∃ a ∈ l, R a b := by
  induction h with
  | nil => simp
  | cons h1 _ ih =>
    intro b hb
    rcases List.mem_cons.1 hb with rfl | hb
    · exact ⟨_, by simp, h1⟩
    · obtain ⟨a, ha, hr⟩ := ih b hb
      exact ⟨a, by simp [ha], hr⟩

theorem forall₂_mem_left {α β : Type} {R : α → β → Prop} {l : List α} {l' : List β} (h : List.Forall₂ R l l') :
    ∀ a ∈ l, ∃ b ∈ l', R a b := by
  induction h with
  | nil => simp
  | cons h1 _ ih =>
    intro b hb
    rcases List.mem_cons.1 hb with rfl | hb
    · exact ⟨_, by simp, h1⟩
    · obtain ⟨a, ha, hr⟩ := ih b hb
      exact ⟨a, by simp [ha], hr⟩

section
variable {K : Type} [Field K] [LinearOrder K] [FloorRing K]

/-! ## C27 -/

theorem layout_length (slices : List (OutSlice K)) : (layout slices).length = (slices.map OutSlice.len).sum := by
  induction slices with
  | nil => rfl
  | cons s ss ih =>
    have : layout (s :: ss) = (List.range (OutSlice.len s)).map (fun o => (s, o)) ++ layout ss := by simp [layout]
    rw [this]
    simp [ih]

/-- Position `j` of the output is offset `o` of slice number `i`: the slices before it fill up the positions before (specification). -/
def IsLayer (slices : List (OutSlice K)) (j : Nat) (s : OutSlice K) (o : Nat) : Prop :=
  ∃ before after, slices = before ++ s :: after ∧ o < OutSlice.len s ∧ j = (before.map OutSlice.len).sum + o

theorem layout_get (slices : List (OutSlice K)) (j : Nat) (s : OutSlice K) (o : Nat) (h : IsLayer slices j s o) :
    (layout slices)[j]? = some (s, o) := by
  obtain ⟨b, a, rfl, ho, rfl⟩ := h
  have : layout (b ++ s :: a) = layout b ++ ((List.range (OutSlice.len s)).map (fun o => (s, o)) ++ layout a) := by
    simp [layout]
  rw [this, List.getElem?_append_right (by rw [layout_length]; omega), layout_length,
    Nat.add_sub_cancel_left, List.getElem?_append_left (by simpa using ho)]
  simp [ho]

/-- **C27** The module gets exactly as many layers as its slices are long together, one after the other; and the tensors of
layer `j`, at offset `o` of slice `s`, are those of the output architecture's layer `j`, each merged from the
corresponding tensor of layer "start + `o`" of every source of `s`.  Missing from the full claim: slices that name
a model twice (`C27_repeated_model_dropped`). -/
theorem C27_layers_partial (env : Env K) (c : MergeConfig K) (module : String) (d : OutModule K) (mp : ModulePlan K)
    (h : planModule env c module d = .ok mp) :
    ∃ slices, d.slices = some slices ∧ mp.layers.length = (slices.map OutSlice.len).sum ∧
      ∀ j s o, IsLayer slices j s o → ∃ l, mp.layers[j]? = some l ∧
        l.length = (env.outLayer module j).length ∧
        ∀ (k : Nat) (p : Planned K), l[k]? = some (some p) → (env.outLayer module j)[k]? = some p.weight ∧
          ((s.sources.map (·.model)).Nodup → ∀ m wi, (m, wi) ∈ p.inputs ↔
            ∃ src ∈ s.sources, src.model = m ∧ (env.inLayer m module (src.start + o))[k]? = some wi) := by
  obtain ⟨s0, ss, hd, g⟩ := planModule_ok env c module d mp h
  refine ⟨s0 :: ss, hd, by rw [g.count, layout_length], ?_⟩
  intro j s o hl
  have hlay := layout_get _ _ _ _ hl
  have hj : j < mp.layers.length := by
    rw [g.count]
    exact (List.getElem?_eq_some_iff.1 hlay).1
  refine ⟨mp.layers[j], List.getElem?_eq_getElem hj, ?_⟩
  obtain ⟨h1, h2⟩ := g.layer j _ s o (List.getElem?_eq_getElem hj) hlay
  refine ⟨h1, ?_⟩
  intro k p hk
  have hkl : k < (env.outLayer module j).length := by
    rw [← h1]; exact (List.getElem?_eq_some_iff.1 hk).1
  obtain ⟨ins, hins, htp⟩ := h2 k _ _ (List.getElem?_eq_getElem hkl) hk
  have hmodels : ins.map Prod.fst = s.sources.map (·.model) := by
    clear htp
    generalize s.sources = srcs at hins
    induction hins with
    | nil => rfl
    | cons h1 _ ih => rw [List.map_cons, List.map_cons, ih, h1.1]
  cases htp with
  | planned _ hw _ hin _ _ _ =>
    refine ⟨by rw [hw]; exact List.getElem?_eq_getElem hkl, ?_⟩
    intro hnd m wi
    rw [hin, dictOf_nodup ins (by rw [hmodels]; exact hnd)]
    constructor
    · intro hm
      obtain ⟨src, hs, e1, e2⟩ := forall₂_mem_right hins _ hm
      simp only at e1 e2
      exact ⟨src, hs, e1.symm, by rw [e1]; exact e2⟩
    · rintro ⟨src, hs, rfl, e2⟩
      obtain ⟨⟨m', wi'⟩, hmem, e1, e3⟩ := forall₂_mem_left hins _ hs
      simp only at e1 e3
      subst e1
      rw [e2] at e3
      cases e3
      exact hmem

/-- **C27** The layer count written to the output configuration is the number of layers planned, provided no range runs
backwards (see `C27_reversed_range_count`). -/
theorem C27_config_count_partial (env : Env K) (c : MergeConfig K) (module : String) (d : OutModule K)
    (mp : ModulePlan K) (h : planModule env c module d = .ok mp) (slices : List (OutSlice K))
    (hd : d.slices = some slices) (hfwd : ∀ s ∈ slices, ∀ src ∈ s.sources, src.start ≤ src.stop) :
    countLayers slices = some (mp.layers.length : Int) := by
  obtain ⟨s0, ss, hd', g⟩ := planModule_ok env c module d mp h
  rw [hd] at hd'
  cases hd'
  rw [g.count, layout_length]
  have heven := g.even
  generalize s0 :: ss = slices at *
  clear g h hd
  induction slices with
  | nil => rfl
  | cons s rest ih =>
    obtain ⟨hne, _⟩ := heven s (by simp)
    have ih := ih (fun s hs => hfwd s (by simp [hs])) (fun s hs => heven s (by simp [hs]))
    unfold countLayers
    cases hsrc : s.sources with
    | nil => exact absurd hsrc hne
    | cons src _ =>
      have := hfwd s (by simp) src (by simp [hsrc])
      simp only [ih, Option.map_some, List.map_cons, List.sum_cons, OutSlice.len, hsrc, Option.some.injEq]
      push_cast
      rw [Int.toNat_of_nonneg (by omega)]

/-! ## C28 -/

/-- **C28** A slice is refused with the length error exactly if two of its sources cover different numbers of layers, and a slice
without sources is refused as well. -/
theorem C28_unequal_rejected (env : Env K) (c : MergeConfig K) (module : String) (d : OutModule K) (s : OutSlice K)
    (current : Nat) :
    (planSlice env c module d s current = .error .unequalSlices ↔
      ∃ a ∈ s.sources, ∃ b ∈ s.sources, a.stop - a.start ≠ b.stop - b.start) ∧
    (s.sources = [] → planSlice env c module d s current = .error .noSources) := by
  have noUneq : ∀ n r todo idx cur, planLayers env module s.sources n r todo idx cur ≠ .error .unequalSlices := by
    have t1 : ∀ ins, anyWeight env ins ≠ .error .unequalSlices := by
      intro ins
      induction ins with
      | nil => simp [anyWeight]
      | cons e rest ih => unfold anyWeight; split <;> [simp; (split <;> [simp; exact ih])]
    have t2 : ∀ r m b ds, readParams (K := K) r m b ds ≠ .error .unequalSlices := by
      intro r m b ds
      induction ds with
      | nil => simp [readParams]
      | cons e rest ih =>
        unfold readParams
        split
        · simp
        · split
          · rename_i hh; intro hc; rw [Except.error.injEq] at hc; subst hc; exact ih hh
          · simp
    have t3 : ∀ r b ins, readTensorParams env r b ins ≠ .error .unequalSlices := by
      intro r b ins
      induction ins with
      | nil => simp [readTensorParams]
      | cons e rest ih =>
        unfold readTensorParams
        split
        · rename_i hh; intro hc; rw [Except.error.injEq] at hc; subst hc; exact t2 _ _ _ _ hh
        · split
          · rename_i hh; intro hc; rw [Except.error.injEq] at hc; subst hc; exact ih hh
          · simp
    have t4 : ∀ w ins r, planPresent env w ins r ≠ .error .unequalSlices := by
      intro w ins r
      unfold planPresent
      split
      · rename_i hh; intro hc; rw [Except.error.injEq] at hc; subst hc; exact t2 _ _ _ _ hh
      · split
        · rename_i hh; intro hc; rw [Except.error.injEq] at hc; subst hc; exact t3 _ _ _ hh
        · simp
    have t5 : ∀ w wi ms r, planTensor env w wi ms r ≠ .error .unequalSlices := by
      intro w wi ms r
      unfold planTensor
      split
      · split
        · rename_i hh; intro hc; rw [Except.error.injEq] at hc; subst hc; exact t1 _ hh
        · simp
        · exact t4 _ _ _
      · exact t4 _ _ _
    have t6 : ∀ ws ms r idx os, planWeights env ws ms r idx os ≠ .error .unequalSlices := by
      intro ws ms r idx os
      induction os generalizing idx with
      | nil => simp [planWeights]
      | cons w rest ih =>
        unfold planWeights
        split
        · simp
        · split
          · rename_i hh; intro hc; rw [Except.error.injEq] at hc; subst hc; exact t5 _ _ _ _ hh
          · split
            · rename_i hh; intro hc; rw [Except.error.injEq] at hc; subst hc; exact ih _ hh
            · simp
    intro n r todo
    induction todo with
    | zero => intro idx cur; simp [planLayers]
    | succ todo ih =>
      intro idx cur
      unfold planLayers
      split
      · rename_i hh; intro hc; rw [Except.error.injEq] at hc; subst hc; exact t6 _ _ _ _ _ hh
      · split
        · rename_i hh; intro hc; rw [Except.error.injEq] at hc; subst hc; exact ih _ _ hh
        · simp
  constructor
  · unfold planSlice
    cases hs : s.sources with
    | nil => simp
    | cons a as =>
      simp only [List.map_cons]
      split
      · rename_i hall
        constructor
        · intro h; rw [← hs] at h; exact absurd h (noUneq _ _ _ _ _)
        · rintro ⟨x, hx, y, hy, hne⟩
          rw [List.all_eq_true] at hall
          have hlen : ∀ z ∈ a :: as, z.stop - z.start = a.stop - a.start := by
            intro z hz
            have := hall (z.stop - z.start) (by
              rcases List.mem_cons.1 hz with rfl | hz
              · simp
              · exact List.mem_cons_of_mem _ (List.mem_map.2 ⟨z, hz, rfl⟩))
            simpa using this
          exact absurd ((hlen x hx).trans (hlen y hy).symm) hne
      · rename_i hall
        refine ⟨fun _ => ?_, fun _ => rfl⟩
        by_contra hno
        push Not at hno
        apply hall
        rw [List.all_eq_true]
        intro z hz
        rcases List.mem_cons.1 hz with rfl | hz
        · simp
        · obtain ⟨x, hx, rfl⟩ := List.mem_map.1 hz
          simpa using hno x (by simp [hx]) a (by simp)
  · intro hs
    unfold planSlice
    simp [hs]

/-- **C28** A plan is only made if in every slice all sources cover the same number of layers: none is cut short. -/
theorem C28_never_truncated (env : Env K) (c : MergeConfig K) (module : String) (d : OutModule K) (mp : ModulePlan K)
    (h : planModule env c module d = .ok mp) (slices : List (OutSlice K)) (hd : d.slices = some slices)
    (s : OutSlice K) (hs : s ∈ slices) :
    s.sources ≠ [] ∧ ∀ a ∈ s.sources, ∀ b ∈ s.sources, a.stop - a.start = b.stop - b.start := by
  obtain ⟨s0, ss, hd', g⟩ := planModule_ok env c module d mp h
  rw [hd] at hd'
  cases hd'
  exact g.even s hs

/-! ## C29 -/

/-- The sources a list of models stands for (specification): each model in full depth with its parameters, then the base model
if it is not listed. -/
def fullDepth (env : Env K) (base : Option Ref) (module : String) (ms : List (InModel K)) : List (InSlice K) :=
  ms.map (fun m => ⟨m.model, 0, env.numLayers m.model module, m.parameters⟩) ++
    (match base with
      | some b => if b ∈ ms.map (·.model) then [] else [⟨b, 0, env.numLayers b module, []⟩]
      | none => [])

theorem normalizeModule_models (env : Env K) (base : Option Ref) (module : String) (d : OutModule K)
    (m : InModel K) (ms : List (InModel K)) (hm : d.models = some (m :: ms)) :
    normalizeModule env base module d =
      { slices := some [{ sources := fullDepth env base module (m :: ms) }], models := none,
        parameters := d.parameters } := by
  unfold normalizeModule fullDepth
  simp only [hm, truthy, if_true, Option.getD_some]
  cases base with
  | none => rfl
  | some b =>
    have : ((m :: ms).any (fun x => decide (x.model = b)) = true) ↔ b ∈ (m :: ms).map (·.model) := by
      rw [List.any_eq_true, List.mem_map]
      simp only [decide_eq_true_eq]
    by_cases hb : b ∈ (m :: ms).map (·.model)
    · simp only [this.2 hb, if_true, hb]
      rfl
    · have h2 : ¬ ((m :: ms).any (fun x => decide (x.model = b)) = true) := fun h => hb (this.1 h)
      simp only [h2, hb]
      rfl

/-- **C29** A configuration given as a list of models is planned as: for every module of the architecture one slice, with every
model in full depth, parameters kept, and the base model added once if not listed. -/
theorem C29_models (env : Env K) (c : MergeConfig K) (m : InModel K) (ms : List (InModel K))
    (hm : c.models = some (m :: ms)) (hs : c.slices = none) :
    ∃ c', normalizeConfig env c = .ok c' ∧ c'.baseModel = c.baseModel ∧ c'.parameters = c.parameters ∧
      c'.models = none ∧ c'.slices = none ∧
      c'.modules = some (env.moduleNames.map (fun n => (n, (⟨some [⟨fullDepth env c.baseModel n (m :: ms), none, []⟩],
        none, []⟩ : OutModule K)))) := by
  unfold normalizeConfig modelsToModules slicesToModules
  simp only [hm, truthy, if_true, hs]
  simp only [Bool.false_eq_true, if_false, Option.getD_some]
  have : ∀ names : List String, (∀ n ∈ names, n ∈ env.moduleNames) → normalizeModules env c.baseModel
      (names.map (fun n => (n, ({ models := some (m :: ms) } : OutModule K)))) =
      .ok (names.map (fun n => (n, (⟨some [⟨fullDepth env c.baseModel n (m :: ms), none, []⟩], none, []⟩ :
        OutModule K)))) := by
    intro names
    induction names with
    | nil => intro _; rfl
    | cons n names ih =>
      intro hin
      simp only [List.map_cons, normalizeModules, hin n (by simp), if_true]
      rw [ih (fun x hx => hin x (by simp [hx]))]
      simp only
      rw [normalizeModule_models env c.baseModel n _ m ms rfl]
  rw [this _ (fun n hn => hn)]
  exact ⟨_, rfl, rfl, rfl, rfl, rfl, rfl⟩

/-- **C29** The base model is a source exactly once. -/
theorem C29_base_once (env : Env K) (b : Ref) (module : String) (ms : List (InModel K))
    (hn : (ms.map (·.model)).Nodup) : ((fullDepth env (some b) module ms).map (·.model)).count b = 1 := by
  unfold fullDepth
  simp only
  split
  · rename_i h
    rw [List.append_nil, List.map_map]
    have : (ms.map ((·.model) ∘ fun m => (⟨m.model, 0, env.numLayers m.model module, m.parameters⟩ : InSlice K))) =
        ms.map (·.model) := by simp [Function.comp_def]
    rw [this]
    exact List.count_eq_one_of_mem hn h
  · rename_i h
    rw [List.map_append, List.map_map, List.count_append]
    have : (ms.map ((·.model) ∘ fun m => (⟨m.model, 0, env.numLayers m.model module, m.parameters⟩ : InSlice K))) =
        ms.map (·.model) := by simp [Function.comp_def]
    rw [this, List.count_eq_zero_of_not_mem h]
    simp

/-- **C29** A configuration given as slices becomes the one module with those slices; with several modules it is refused. -/
theorem C29_slices (env : Env K) (c : MergeConfig K) (s : OutSlice K) (ss : List (OutSlice K))
    (hs : c.slices = some (s :: ss)) (hm : c.models = none) :
    (∀ n, env.moduleNames = [n] → ∃ c', normalizeConfig env c = .ok c' ∧ c'.baseModel = c.baseModel ∧
      c'.modules = some [(n, ⟨some (s :: ss), none, []⟩)]) ∧
    (env.moduleNames.length ≠ 1 → normalizeConfig env c = .error .needModules) := by
  constructor
  · intro n hn
    unfold normalizeConfig modelsToModules slicesToModules
    simp only [hm, truthy, hs, hn, if_true, Bool.false_eq_true, if_false]
    simp only [Option.getD_some, normalizeModules, hn, List.mem_singleton, if_true]
    exact ⟨_, rfl, rfl, by simp [normalizeModule, truthy]⟩
  · intro hn
    unfold normalizeConfig modelsToModules slicesToModules
    simp only [hm, truthy, hs, if_true, Bool.false_eq_true, if_false]
    match hnames : env.moduleNames with
    | [] => rfl
    | [x] => rw [hnames] at hn; simp at hn
    | _ :: _ :: _ => rfl

variable [IsStrictOrderedRing K]

/-! ## C30 -/

/-- **C30** In a slice of `n` layers, the parameters of layer `o` are evaluated at a depth that is `o/(n-1)`, hence within [0,1],
0 at the first layer and 1 at the last (and 1 for a single layer), and strictly increasing. -/
theorem C30_depth (env : Env K) (c : MergeConfig K) (module : String) (d : OutModule K) (mp : ModulePlan K)
    (h : planModule env c module d = .ok mp) :
    ∃ t : Nat → Nat → K,
      (∀ n o, 2 ≤ n → t n o = (o : K) / ((n : K) - 1)) ∧ (∀ o, t 1 o = 1) ∧
      (∀ n o, o < n → 0 ≤ t n o ∧ t n o ≤ 1) ∧ (∀ n, 2 ≤ n → t n 0 = 0 ∧ t n (n - 1) = 1) ∧
      (∀ n o o', 2 ≤ n → o < o' → t n o < t n o') ∧
      ∃ slices, d.slices = some slices ∧ ∀ j s o, IsLayer slices j s o → ∀ (l : List (Option (Planned K))) (p : Planned K),
        mp.layers[j]? = some l → some p ∈ l →
          List.Forall₂ (fun (pd : ParamDef K) e => e.1 = pd.name ∧
            (⟨c, t (OutSlice.len s) o, some p.weight.name, some s, some d⟩ : Reader K).parameter
              pd.name none pd.default pd.required = .ok e.2) env.params p.params := by
  have hpos : ∀ n : Nat, 2 ≤ n → (0 : K) < (n : K) - 1 := by
    intro n hn
    have : (1 : K) < (n : K) := by exact_mod_cast (by omega : 1 < n)
    linarith
  refine ⟨fun n o => depth (n : Int) o, ?_, ?_, ?_, ?_, ?_, ?_⟩
  · intro n o hn
    simp only [depth]
    rw [if_pos (by omega)]
    simp
  · intro o
    simp [depth]
  · intro n o ho
    simp only [depth]
    split
    · rename_i hn
      have hp := hpos n (by omega)
      have : (o : K) ≤ (n : K) - 1 := by
        have : ((o + 1 : Nat) : K) ≤ (n : K) := by exact_mod_cast ho
        push_cast at this
        linarith
      simp only [Int.cast_natCast]
      exact ⟨div_nonneg (Nat.cast_nonneg o) hp.le, by rw [div_le_one hp]; exact this⟩
    · exact ⟨zero_le_one, le_refl _⟩
  · intro n hn
    have hp := hpos n hn
    simp only [depth]
    rw [if_pos (by omega), if_pos (by omega)]
    refine ⟨by simp, ?_⟩
    rw [Nat.cast_sub (by omega)]
    simp only [Int.cast_natCast, Nat.cast_one]
    exact div_self hp.ne'
  · intro n o o' hn hlt
    have hp := hpos n hn
    simp only [depth]
    rw [if_pos (by omega), if_pos (by omega)]
    simp only [Int.cast_natCast]
    exact div_lt_div_of_pos_right (by exact_mod_cast hlt) hp
  · obtain ⟨s0, ss, hd, g⟩ := planModule_ok env c module d mp h
    refine ⟨s0 :: ss, hd, ?_⟩
    intro j s o hl l p hj hp
    obtain ⟨h1, h2⟩ := g.layer j l s o hj (layout_get _ _ _ _ hl)
    obtain ⟨k, hk, hget⟩ := List.getElem_of_mem hp
    obtain ⟨ins, _, htp⟩ := h2 k _ (some p) (List.getElem?_eq_getElem (by omega)) (by
      rw [List.getElem?_eq_getElem hk, hget])
    cases htp with
    | planned _ hw _ _ hparams _ _ =>
      rw [hw]
      exact hparams

end

section
variable {K : Type} [Field K] [LinearOrder K] [FloorRing K]

/-! ## C31 -/

/-- Merged from all sources of a slice: the inputs are the weight taken from every model of it. -/
def FromAll (s : OutSlice K) (w : WeightInfo) (p : Planned K) : Prop :=
  ∀ m wi, (m, wi) ∈ p.inputs ↔ wi = w ∧ m ∈ s.sources.map (·.model)

theorem mem_resultSet {V : Type} (d : List (Ref × V)) (k m : Ref) (v x : V) :
    (m, x) ∈ resultSet d k v ↔ (m = k ∧ x = v) ∨ (m ≠ k ∧ (m, x) ∈ d) := by
  unfold resultSet
  split
  · rename_i hin
    simp only [List.mem_map]
    constructor
    · rintro ⟨e, he, heq⟩
      split at heq
      · cases heq; left; exact ⟨rfl, rfl⟩
      · rename_i hne
        subst heq
        right; exact ⟨hne, he⟩
    · rintro (⟨rfl, rfl⟩ | ⟨hne, he⟩)
      · have hin : m ∈ d.map Prod.fst := by simpa using hin
        obtain ⟨e, he, hk⟩ := List.mem_map.1 hin
        exact ⟨e, he, by rw [if_pos hk]⟩
      · exact ⟨(m, x), he, by rw [if_neg hne]⟩
  · rename_i hin
    have hin : k ∉ d.map Prod.fst := by simpa using hin
    rw [List.mem_append, List.mem_singleton]
    constructor
    · rintro (he | heq)
      · by_cases hk : m = k
        · subst hk; exact absurd (List.mem_map.2 ⟨_, he, rfl⟩) hin
        · exact Or.inr ⟨hk, he⟩
      · cases heq; left; exact ⟨rfl, rfl⟩
    · rintro (⟨rfl, rfl⟩ | ⟨_, he⟩)
      · right; rfl
      · left; exact he

theorem mem_dictOf_same (ms : List Ref) (w : WeightInfo) (m : Ref) (wi : WeightInfo) :
    (m, wi) ∈ dictOf (ms.map (fun m => (m, w))) ↔ wi = w ∧ m ∈ ms := by
  unfold dictOf
  suffices h : ∀ (ms : List Ref) (d : List (Ref × WeightInfo)), (∀ m wi, (m, wi) ∈ d → wi = w) →
      ((m, wi) ∈ (ms.map (fun m => (m, w))).foldl (fun d e => resultSet d e.1 e.2) d ↔
        (m, wi) ∈ d ∨ (wi = w ∧ m ∈ ms)) by
    have := h ms [] (by simp)
    simpa using this
  intro ms
  induction ms with
  | nil => intro d _; simp
  | cons a ms ih =>
    intro d hd
    simp only [List.map_cons, List.foldl_cons]
    rw [ih _ (by
      intro m' wi' hm'
      rw [mem_resultSet] at hm'
      rcases hm' with ⟨_, rfl⟩ | ⟨_, hm'⟩
      · rfl
      · exact hd _ _ hm')]
    rw [mem_resultSet]
    constructor
    · rintro ((⟨rfl, rfl⟩ | ⟨_, h⟩) | ⟨rfl, h⟩)
      · right; simp
      · left; exact h
      · right; simp [h]
    · rintro (h | ⟨rfl, h⟩)
      · by_cases hk : m = a
        · have := hd _ _ h; subst this hk; left; left; exact ⟨rfl, rfl⟩
        · left; right; exact ⟨hk, h⟩
      · rcases List.mem_cons.1 h with rfl | h
        · left; left; exact ⟨rfl, rfl⟩
        · right; exact ⟨rfl, h⟩

theorem zip_replicate_of_le (ms : List Ref) (w : WeightInfo) (n : Nat) (h : ms.length ≤ n) :
    ms.zip (List.replicate n w) = ms.map (fun m => (m, w)) := by
  induction ms generalizing n with
  | nil => simp
  | cons m ms ih =>
    cases n with
    | zero => simp at h
    | succ n => simp [List.replicate_succ, ih n (by simpa using h)]

/-- **C31**, weights before the first layer: each is merged from every model of the first slice. -/
theorem C31_pre_weights (env : Env K) (c : MergeConfig K) (module : String) (d : OutModule K) (mp : ModulePlan K)
    (h : planModule env c module d = .ok mp) :
    ∃ s ss, d.slices = some (s :: ss) ∧ List.Forall₂ (fun w o => ∀ p, o = some p → p.weight = w ∧ FromAll s w p)
      (env.outPre module) mp.pre := by
  obtain ⟨s0, ss, hd, g⟩ := planModule_ok env c module d mp h
  refine ⟨s0, ss, hd, g.pre.imp ?_⟩
  rintro w o htp p rfl
  cases htp with
  | planned _ hw _ hin _ _ _ =>
    refine ⟨hw, ?_⟩
    intro m wi
    rw [hin, zip_replicate_of_le _ _ _ (by simp), mem_dictOf_same]

/-- **C31**, weights after the last layer: each is merged from every model of the last slice - if the first slice has at least as
many sources as the last.  Without that condition the claim is false, see `C31_sources_dropped`. -/
theorem C31_post_weights_partial (env : Env K) (c : MergeConfig K) (module : String) (d : OutModule K)
    (mp : ModulePlan K) (h : planModule env c module d = .ok mp) :
    ∃ s ss, d.slices = some (s :: ss) ∧ ∀ last, (s :: ss).getLast? = some last →
      last.sources.length ≤ s.sources.length →
      List.Forall₂ (fun w o => ∀ p, o = some p → p.weight = w ∧ FromAll last w p) (env.outPost module) mp.post := by
  obtain ⟨s0, ss, hd, g⟩ := planModule_ok env c module d mp h
  refine ⟨s0, ss, hd, ?_⟩
  intro last hlast hle
  rw [List.getLast?_eq_some_getLast (by simp)] at hlast
  simp only [Option.some.injEq] at hlast
  have hpost := g.post
  rw [hlast] at hpost
  refine hpost.imp ?_
  rintro w o htp p rfl
  cases htp with
  | planned _ hw _ hin _ _ _ =>
    refine ⟨hw, ?_⟩
    intro m wi
    rw [hin, zip_replicate_of_le _ _ _ (by simpa using hle), mem_dictOf_same]

/-! ## C32 -/

/-- All weights of the output module with `n` layers, in order. -/
def outWeights (env : Env K) (module : String) (n : Nat) : List WeightInfo :=
  env.outPre module ++ (List.range n).flatMap (env.outLayer module) ++ env.outPost module

/-- Every planned tensor is one of the weights in this position, and the missing ones are optional. -/
def CoversList (ws : List WeightInfo) (os : List (Option (Planned K))) : Prop :=
  List.Forall₂ (fun w o => match o with
    | some p => p.weight = w
    | none => w.optional = true) ws os

omit [Field K] [LinearOrder K] [FloorRing K] in
theorem CoversList.append {a b : List WeightInfo} {x y : List (Option (Planned K))} (h1 : CoversList a x)
    (h2 : CoversList b y) : CoversList (a ++ b) (x ++ y) := List.rel_append h1 h2

theorem coversList_of_tensorPlan {env : Env K} {ws : List WeightInfo} {os : List (Option (Planned K))}
    {r : Reader K} {ins : WeightInfo → List (Ref × WeightInfo)}
    (h : List.Forall₂ (fun w o => TensorPlan env r w (ins w) o) ws os) : CoversList ws os := by
  refine h.imp ?_
  intro w o htp
  cases htp with
  | skipped h1 _ => exact h1
  | planned p hw _ _ _ _ _ => exact hw

/-- **C32**, what is planned: going through the weights of the output architecture in order, each is planned exactly once, or it
is optional. -/
theorem C32_every_weight (env : Env K) (c : MergeConfig K) (module : String) (d : OutModule K) (mp : ModulePlan K)
    (h : planModule env c module d = .ok mp) :
    CoversList (outWeights env module mp.layers.length) (mp.pre ++ mp.layers.flatten ++ mp.post) ∧
      (mp.tensors.map (·.weight)).Sublist (outWeights env module mp.layers.length) := by
  obtain ⟨s0, ss, hd, g⟩ := planModule_ok env c module d mp h
  have hcov : CoversList (outWeights env module mp.layers.length) (mp.pre ++ mp.layers.flatten ++ mp.post) := by
    unfold outWeights
    refine ((coversList_of_tensorPlan g.pre).append ?_).append (coversList_of_tensorPlan g.post)
    have hl : ∀ (j : Nat) (l : List (Option (Planned K))), mp.layers[j]? = some l →
        CoversList (env.outLayer module j) l := by
      intro j l hj
      have hlt : j < (layout (s0 :: ss)).length := by
        rw [← g.count]; exact (List.getElem?_eq_some_iff.1 hj).1
      obtain ⟨h1, h2⟩ := g.layer j l _ _ hj (List.getElem?_eq_getElem hlt)
      unfold CoversList
      rw [List.forall₂_iff_get]
      refine ⟨h1.symm, ?_⟩
      intro k hk1 hk2
      obtain ⟨ins, _, htp⟩ := h2 k _ _ (List.getElem?_eq_getElem hk1) (List.getElem?_eq_getElem hk2)
      simp only [List.get_eq_getElem]
      cases hll : l[k] with
      | none =>
        rw [hll] at htp
        cases htp with
        | skipped h1 _ => exact h1
      | some p =>
        rw [hll] at htp
        cases htp with
        | planned _ hw _ _ _ _ _ => exact hw
    clear h g hd
    generalize mp.layers = ls at hl
    suffices hs : ∀ (ls : List (List (Option (Planned K)))) (a : Nat),
        (∀ (j : Nat) (l : List (Option (Planned K))), ls[j]? = some l → CoversList (env.outLayer module (a + j)) l) →
        CoversList ((List.range' a ls.length).flatMap (env.outLayer module)) ls.flatten by
      have := hs ls 0 (by simpa using hl)
      rwa [← List.range_eq_range'] at this
    intro ls
    induction ls with
    | nil => intro a _; exact .nil
    | cons l ls ih =>
      intro a hall
      simp only [List.length_cons, List.range'_succ, List.flatMap_cons, List.flatten_cons]
      refine CoversList.append (by simpa using hall 0 l rfl) (ih (a + 1) ?_)
      intro j l' hj
      have := hall (j + 1) l' (by simpa using hj)
      rwa [show a + (j + 1) = a + 1 + j by omega] at this
  refine ⟨hcov, ?_⟩
  unfold ModulePlan.tensors
  generalize outWeights env module mp.layers.length = ws at hcov
  generalize mp.pre ++ mp.layers.flatten ++ mp.post = os at hcov
  unfold CoversList at hcov
  induction hcov with
  | nil => exact List.Sublist.refl _
  | @cons w o _ _ h1 _ ih =>
    cases o with
    | none => simp only [List.filterMap_cons, id]; exact ih.cons _
    | some p =>
      simp only [List.filterMap_cons, id, List.map_cons]
      rw [h1]
      exact ih.cons_cons _

end

/-! ## C68 -/

section
variable {K : Type} [Field K] [LinearOrder K] [FloorRing K]

/-- Stored in the model under its name or an alternative name (specification). -/
def Stored (env : Env K) (m : Ref) (w : WeightInfo) : Prop := ∃ n ∈ w.name :: w.aliases.map String.toList, n ∈ env.indexNames m

/-- **C68** An optional weight is skipped if no input stores it, and otherwise is treated like one that is not optional - if none of the input
weights has alternative names.  For others see `C68_aliases_crash`. -/
theorem C68_optional_partial (env : Env K) (w : WeightInfo) (weightsIn : List WeightInfo) (models : List Ref) (r : Reader K)
    (hopt : w.optional = true) (hal : ∀ wi ∈ weightsIn, wi.aliases = []) :
    ((∀ m wi, (m, wi) ∈ models.zip weightsIn → ¬ Stored env m wi) → planTensor env w weightsIn models r = .ok none) ∧
    ((∃ m wi, (m, wi) ∈ models.zip weightsIn ∧ Stored env m wi) →
      ∀ p, planTensor env w weightsIn models r = .ok (some p) ↔
        ∃ p', planTensor env { w with optional := false } weightsIn models r = .ok (some p') ∧
          p = { p' with weight := w }) := by
  have key : ∀ ins : List (Ref × WeightInfo), (∀ e ∈ ins, e.2.aliases = []) →
      ((∀ m wi, (m, wi) ∈ ins → ¬ Stored env m wi) → anyWeight env ins = .ok false) ∧
      ((∃ m wi, (m, wi) ∈ ins ∧ Stored env m wi) → anyWeight env ins = .ok true) := by
    intro ins
    induction ins with
    | nil => intro _; simp [anyWeight]
    | cons e rest ih =>
      intro hal
      obtain ⟨m, wi⟩ := e
      have ha : wi.aliases = [] := hal (m, wi) (by simp)
      have hst : Stored env m wi ↔ wi.name ∈ env.indexNames m := by simp [Stored, ha]
      obtain ⟨i1, i2⟩ := ih (fun e he => hal e (by simp [he]))
      unfold anyWeight
      rw [if_neg (by simp [ha])]
      constructor
      · intro h
        rw [if_neg (by rw [← hst]; exact h m wi (by simp))]
        exact i1 (fun m' wi' h' => h m' wi' (by simp [h']))
      · rintro ⟨m', wi', hm, hs⟩
        split
        · rfl
        · rename_i hn
          rcases List.mem_cons.1 hm with heq | hm
          · cases heq; exact absurd (hst.1 hs) hn
          · exact i2 ⟨m', wi', hm, hs⟩
  obtain ⟨k1, k2⟩ := key (models.zip weightsIn) (fun e he => hal _ (List.of_mem_zip he).2)
  constructor
  · intro h
    unfold planTensor
    rw [if_pos hopt, k1 h]
  · intro h p
    unfold planTensor
    rw [if_pos hopt, k2 h]
    simp only [Bool.false_eq_true, if_false]
    unfold planPresent
    simp only
    cases readParams (r.forTensor w.name) none false env.params with
    | error e => simp
    | ok gp =>
      simp only
      cases readTensorParams env r r.baseModel (models.zip weightsIn) with
      | error e => simp
      | ok tp =>
        simp only [Except.ok.injEq, Option.some.injEq]
        constructor
        · rintro rfl; exact ⟨_, rfl, rfl⟩
        · rintro ⟨p', rfl, rfl⟩; rfl

/-- **C68** is not met for weights with alternative names (as in the BERT definition): planning fails with a type error, whatever the
inputs store. -/
theorem C68_aliases_crash (env : Env K) (w wi : WeightInfo) (ws : List WeightInfo) (m : Ref) (ms : List Ref) (r : Reader K)
    (hopt : w.optional = true) (hal : wi.aliases ≠ []) :
    planTensor env w (wi :: ws) (m :: ms) r = .error .aliasTuple := by
  unfold planTensor
  rw [if_pos hopt]
  simp only [List.zip_cons_cons, anyWeight]
  rw [if_pos hal]

end

/-! ### Execution -/

open Verif.Graph

/-- The task graph consists of the tasks `plan_to_disk` creates: the handles' arguments are the tasks' arguments. -/
structure Represents {n : Nat} (G : TaskGraph n) (task : Fin n → DiskTask) (count : Nat)
    (others : DiskTask → List (String × DiskTask)) : Prop where
  inj : Function.Injective task
  args : ∀ i, (G.args i).map (fun a => (a.1, task a.2)) = diskArguments count others (task i)

/-- **C32**, order: in every run (every schedule, every graph the merge tasks hang off), whenever the checkpoint is finalized
all saves were done before, each exactly once; and a run that finishes has done all of it. -/
theorem C32_finalized_last {n : Nat} {V E : Type} [Nonempty V] (G : TaskGraph n) (task : Fin n → DiskTask) (count : Nat)
    (others : DiskTask → List (String × DiskTask)) (tok : Bool) (hrep : Represents G task count others)
    (exec : Fin n → List (String × V) → Except E V) (pop : PopOracle n) (targets : List (Fin n))
    (ht : targets.map task = diskTargets count tok) (hacyc : Acyclic G (fun _ => (none : Option V)) targets) :
    ∃ trace o, Executor.run G exec pop targets (fun _ => none) = some (trace, o) ∧
      ((execs trace).map task).Nodup ∧
      (∀ p q, (execs trace).map task = p ++ .finalize :: q → ∀ i, i < count → .save i ∈ p) ∧
      (o = .finished → .finalize ∈ (execs trace).map task ∧ ∀ i, i < count → .save i ∈ (execs trace).map task) := by
  obtain ⟨s, ⟨trace, o⟩, hr, hsch, g⟩ := run_exists G exec pop targets (fun _ => none) hacyc
  refine ⟨trace, o, hr, ?_, ?_, ?_⟩
  · exact (hsch.nodup.sublist g.execs_prefix.sublist).map hrep.inj
  · intro p q hpq i hi
    obtain ⟨p', tq, h1, h2, h3⟩ := List.map_eq_append_iff.1 hpq
    obtain ⟨f, q', h4, h5, h6⟩ := List.map_eq_cons_iff.1 h3
    obtain ⟨rest, hrest⟩ := g.execs_prefix
    have hs : s = p' ++ f :: (q' ++ rest) := by rw [← hrest, h1, h4]; simp
    have hord := hsch.ordered p' f (q' ++ rest) hs
    have hdep : ∃ dd ∈ G.deps f, task dd = .save i := by
      have := hrep.args f
      rw [h5] at this
      have hmem : ("_unused_" ++ i.repr, DiskTask.save i) ∈ diskArguments count others .finalize := by
        simp only [diskArguments]
        exact List.mem_cons_of_mem _ (List.mem_map.2 ⟨i, List.mem_range.2 hi, rfl⟩)
      rw [← this] at hmem
      obtain ⟨a, ha, hae⟩ := List.mem_map.1 hmem
      exact ⟨a.2, List.mem_map.2 ⟨a, ha, rfl⟩, (Prod.mk.inj hae).2⟩
    obtain ⟨dd, hd1, hd2⟩ := hdep
    rcases hord dd hd1 with hin | hc
    · rw [← h2, ← hd2]
      exact List.mem_map.2 ⟨dd, hin, rfl⟩
    · simp at hc
  · intro ho
    rcases g.outcome with ⟨_, h⟩ | ⟨_, _, _, _, h, _⟩
    · simp only at h
      have key : ∀ x ∈ diskTargets count tok, x ∈ (execs trace).map task := by
        intro x hx
        rw [← ht] at hx
        obtain ⟨t, htt, rfl⟩ := List.mem_map.1 hx
        refine List.mem_map.2 ⟨t, ?_, rfl⟩
        rw [h]
        exact (hsch.mem t).2 (.target htt (by simp))
      refine ⟨key _ (by simp [diskTargets]), fun i hi => key _ ?_⟩
      simp only [diskTargets, List.mem_append, List.mem_map, List.mem_range]
      exact Or.inl (Or.inl ⟨i, hi, rfl⟩)
    · simp only at h; rw [ho] at h; cases h

/-- The tensors handed to the writer, in the order the saves were executed. -/
def savesInOrder {T : Type} (handed : Nat → Option (String × T)) (order : List DiskTask) : List (String × T) :=
  order.filterMap (fun t => match t with
    | .save i => handed i
    | _ => none)

/-- **C32**, the finished checkpoint: after a run that finishes - in whatever order - reading the output directory gives back
exactly what the saves handed to the writer (weights whose save had nothing to hand over are optional ones). -/
theorem C32_checkpoint_complete {n : Nat} {V E T : Type} [Nonempty V] (G : TaskGraph n) (task : Fin n → DiskTask)
    (count : Nat) (others : DiskTask → List (String × DiskTask)) (tok : Bool) (hrep : Represents G task count others)
    (exec : Fin n → List (String × V) → Except E V) (pop : PopOracle n) (targets : List (Fin n))
    (ht : targets.map task = diskTargets count tok) (hacyc : Acyclic G (fun _ => (none : Option V)) targets)
    (conf : Writer.Conf) (hstd : conf.Standard) (size : T → Nat) (handed : Nat → Option (String × T))
    (hnames : ∀ i j a b, handed i = some a → handed j = some b → a.1 = b.1 → i = j)
    (hsome : ∃ i, i < count ∧ (handed i).isSome = true) :
    ∃ trace o, Executor.run G exec pop targets (fun _ => none) = some (trace, o) ∧
      (o = .finished → ∃ fs, Writer.applyOps (fun _ => none) (Writer.syncOps (Writer.session conf size
          (savesInOrder handed ((execs trace).map task)))) = some fs ∧
        ∃ idx, Writer.fromDisk fs = .ok idx ∧
          ∀ i a, i < count → handed i = some a → ∀ hist aliases r,
            (Writer.getTensor fs idx (Writer.afterHistory fs idx none hist) a.1 aliases r).1 = .ok (some a.2)) := by
  obtain ⟨trace, o, hr, hnd, _, hfin⟩ := C32_finalized_last G task count others tok hrep exec pop targets ht hacyc
  refine ⟨trace, o, hr, fun ho => ?_⟩
  obtain ⟨_, hall⟩ := hfin ho
  have hmem : ∀ i a, i < count → handed i = some a → a ∈ savesInOrder handed ((execs trace).map task) := by
    intro i a hi ha
    exact List.mem_filterMap.2 ⟨.save i, hall i hi, ha⟩
  have hnodup : ((savesInOrder handed ((execs trace).map task)).map Prod.fst).Nodup := by
    have aux : ∀ l : List DiskTask, l.Nodup → ((savesInOrder handed l).map Prod.fst).Nodup := by
      intro l
      induction l with
      | nil => intro _; simp [savesInOrder]
      | cons t l ih =>
        intro hl
        rw [List.nodup_cons] at hl
        have ih := ih hl.2
        unfold savesInOrder at ih ⊢
        rw [List.filterMap_cons]
        split
        · exact ih
        · rename_i b hb
          rw [List.map_cons, List.nodup_cons]
          refine ⟨?_, ih⟩
          intro hin
          obtain ⟨b', hb', hbe⟩ := List.mem_map.1 hin
          obtain ⟨t', ht', hb''⟩ := List.mem_filterMap.1 hb'
          cases t with
          | save i =>
            cases t' with
            | save j =>
              simp only at hb hb''
              have := hnames i j b b' hb hb'' hbe.symm
              subst this
              exact hl.1 ht'
            | _ => simp at hb''
          | _ => simp at hb
    exact aux _ hnd
  have hne : savesInOrder handed ((execs trace).map task) ≠ [] := by
    obtain ⟨i, hi, hs⟩ := hsome
    obtain ⟨a, ha⟩ := Option.isSome_iff_exists.1 hs
    exact List.ne_nil_of_mem (hmem i a hi ha)
  obtain ⟨fs, h1, idx, h2, _, h4⟩ := Writer.C10_read_back conf hstd size _ hnodup hne
  refine ⟨fs, h1, idx, h2, ?_⟩
  intro i a hi ha hist aliases r
  exact h4 hist a.1 a.2 aliases r (hmem i a hi ha)

/-! ## Concrete cases -/

/-- Weights named by a letter and a number of strokes. -/
def nm (c : Char) (i : Nat) : WeightInfo := { name := c :: List.replicate i '|' }

/-- An architecture with one module: an embedding, one tensor per layer, a norm. -/
def sampleEnv : Env ℚ where
  moduleNames := ["default"]
  outPre := fun _ => [nm 'e' 0]
  outLayer := fun _ i => [nm 'w' i]
  outPost := fun _ => [nm 'n' 0]
  inLayer := fun _ _ i => [nm 'w' i.toNat]
  numLayers := fun _ _ => 4
  indexNames := fun _ => []
  params := []
  tensorParams := []

/-- Models "a" and "b". -/
def refA : Ref := ⟨⟨"a".toList, none⟩, none, none⟩
def refB : Ref := ⟨⟨"b".toList, none⟩, none, none⟩

/-- A first slice from one model, a second one from two. -/
def sampleModule : OutModule ℚ :=
  { slices := some [⟨[⟨refA, 0, 2, []⟩], none, []⟩, ⟨[⟨refA, 1, 3, []⟩, ⟨refB, 2, 4, []⟩], none, []⟩] }

/-- The plan for it. -/
theorem sample_plan : ∃ mp, planModule sampleEnv {} "default" sampleModule = .ok mp ∧ mp.layers.length = 4 ∧
    mp.layers.map (·.map (·.map (fun p => (p.weight.name.length - 1, p.inputs.map (fun i => (i.1, i.2.name.length - 1)))))) =
      [[some (0, [(refA, 0)])], [some (1, [(refA, 1)])],
       [some (2, [(refA, 1), (refB, 2)])], [some (3, [(refA, 2), (refB, 3)])]] :=
  ⟨_, rfl, rfl, rfl⟩

example : IsLayer [(⟨[⟨refA, 0, 2, []⟩], none, []⟩ : OutSlice ℚ), ⟨[⟨refA, 1, 3, []⟩, ⟨refB, 2, 4, []⟩], none, []⟩] 3
    ⟨[⟨refA, 1, 3, []⟩, ⟨refB, 2, 4, []⟩], none, []⟩ 1 :=
  ⟨[⟨[⟨refA, 0, 2, []⟩], none, []⟩], [], rfl, by decide, by decide⟩

/-- **C31** is not met: with one source in the first slice and two in the last, the weights after the last layer are merged from one model
only. -/
theorem C31_sources_dropped : ∃ (env : Env ℚ) (d : OutModule ℚ) (mp : ModulePlan ℚ) (last : OutSlice ℚ) (p : Planned ℚ),
    planModule env {} "default" d = .ok mp ∧ (d.slices.getD []).getLast? = some last ∧
    last.sources.map (·.model) = [refA, refB] ∧ some p ∈ mp.post ∧ p.inputs.map Prod.fst = [refA] :=
  ⟨sampleEnv, sampleModule, _, _, _, rfl, rfl, rfl, List.mem_singleton.2 rfl, rfl⟩

/-- **C27** is not met for a slice that names a model twice, e.g. to merge two parts of the same model: only the last one is used. -/
theorem C27_repeated_model_dropped : ∃ (d : OutModule ℚ) (mp : ModulePlan ℚ) (s : OutSlice ℚ) (p : Planned ℚ),
    d.slices = some [s] ∧ s.sources.map (fun x => (x.model, x.start)) = [(refA, 0), (refA, 2)] ∧
    planModule sampleEnv {} "default" d = .ok mp ∧ mp.layers = [[some p]] ∧
    p.inputs.map (fun i => (i.1, i.2.name.length - 1)) = [(refA, 2)] :=
  ⟨{ slices := some [⟨[⟨refA, 0, 1, []⟩, ⟨refA, 2, 3, []⟩], none, []⟩] }, _, _, _, rfl, rfl, rfl, rfl, rfl⟩

/-- **C27** is not met for a range that runs backwards: it yields no layers, but is subtracted from the count in the configuration. -/
theorem C27_reversed_range_count : ∃ (slices : List (OutSlice ℚ)) (mp : ModulePlan ℚ),
    planModule sampleEnv {} "default" { slices := some slices } = .ok mp ∧ mp.layers.length = 3 ∧
    countLayers slices = some 2 :=
  ⟨[⟨[⟨refA, 0, 3, []⟩], none, []⟩, ⟨[⟨refA, 2, 1, []⟩], none, []⟩], _, rfl, rfl, rfl⟩

example : ∃ w : WeightInfo, w.optional = true ∧ w.aliases ≠ [] :=
  ⟨{ name := ['x'], optional := true, aliases := ["y"] }, rfl, by decide⟩

/-- The sample environment with model "b" storing an optional tensor "o". -/
def optEnv : Env ℚ := { sampleEnv with indexNames := fun m => if m = refB then [['o']] else [] }

example : ∃ p, planTensor optEnv { name := ['o'], optional := true } [{ name := ['o'], optional := true }, { name := ['o'], optional := true }]
    [refA, refB] { config := {}, t := 0 } = .ok (some p) := ⟨_, rfl⟩

/-- A graph with two saves, for the hypotheses of C32. -/
def diskGraph : TaskGraph 6 where
  args := fun t => match t with
    | 0 => []
    | 1 => []
    | 2 => []
    | 3 => [("writer", 0), ("tensor", 1)]
    | 4 => [("writer", 0), ("tensor", 2)]
    | 5 => [("writer", 0), ("_unused_0", 3), ("_unused_1", 4)]
  group := fun _ => ""
  prio := fun _ => 0

/-- Its tasks. -/
def diskTask : Fin 6 → DiskTask
  | 0 => .writer
  | 1 => .merge 0
  | 2 => .merge 1
  | 3 => .save 0
  | 4 => .save 1
  | 5 => .finalize

example : Represents diskGraph diskTask 2 (fun _ => []) ∧ [3, 4, 5].map diskTask = diskTargets 2 false ∧
    Acyclic diskGraph (fun _ => (none : Option Nat)) [3, 4, 5] :=
  ⟨⟨by decide, by decide⟩, by decide, acyclic_of_lt _ _ _ (by decide)⟩

end Verif.Plan
