import Verif.Props.Shipped
import Verif.Props.WholeTokMerge

/-! # C119: from the configuration to the files, for the architectures shipped -/

set_option linter.unusedSectionVars false

namespace Verif.Shipped

open Verif.ModelRef (Ref Str)
open Verif.Config Verif.Plan Verif.WholeMerge
open Verif.Arch (Module substituteAll prefixWeight layersFrom distinctArchs)
open Verif.LoadTask (WeightInfo wanted typeNames)
open Verif.Tensor (Tensor)
open Verif.Pipeline
open Verif.WholeTok (LinearAt Mixed linearView linear_view linear_runs)

section
variable {K : Type} [Field K] [LinearOrder K] [IsStrictOrderedRing K] [FloorRing K]

/-! ## The claims about planning -/

/-- The architecture is one of those shipped - except for Qwen2-VL and Qwen2.5-VL, in which names occur twice (C63), and BertModel, which cannot be merged
(`C119_bert_fails`) - under names for its modules that are distinct. -/
structure IsShipped (f : Family K) : Prop where
  definition : f.modules.map Prod.snd ∈ distinctArchs
  not_bert : f.modules.map Prod.snd ≠ Arch.Data.bert
  names : (f.modules.map Prod.fst).Nodup

/-- **C119** For every architecture shipped (with the exceptions of `IsShipped`), any number of layers, and any configuration and models that fit, planning
meets no obstacle: all the layers used have the weights the output needs, the names of the output are distinct, and there is something to write.  (`Usable` is what
the end-to-end theorems C108 to C115 ask for.) -/
theorem C119_usable_partial (f : Family K) (hs : IsShipped f) (l : List (String × OutModule K)) (hf : Fits f l) : Usable f.env l := by
  have hmem : f.modules.map Prod.snd ∈ distinctArchs.eraseIdx 6 := by
    have h1 : distinctArchs = distinctArchs.take 6 ++ Arch.Data.bert :: distinctArchs.drop 7 := rfl
    have h2 : distinctArchs.eraseIdx 6 = distinctArchs.take 6 ++ distinctArchs.drop 7 := rfl
    have h := hs.definition
    rw [h1] at h
    rw [h2]
    rcases List.mem_append.1 h with h | h
    · exact List.mem_append_left _ h
    · rcases List.mem_cons.1 h with h | h
      · exact absurd h hs.not_bert
      · exact List.mem_append_right _ h
  obtain ⟨h1, h2⟩ := shipped_checked _ hmem
  exact checked_usable f hs.names h1 h2 l hf

/-- A failure in the list of the weights before the layers is a failure. -/
theorem planEdge_fails (env : Env K) (c : MergeConfig K) (d : OutModule K) (count : Nat) (s : OutSlice K) (ws : List WeightInfo) (w : WeightInfo)
    (hw : w ∈ ws) (hopt : w.optional = true) (hal : w.aliases ≠ []) (hc : 0 < count) (hs : s.sources ≠ []) :
    ∃ e, planEdge env c d count s ws = .error e := by
  induction ws with
  | nil => cases hw
  | cons x ws ih =>
    unfold planEdge
    split
    · exact ⟨_, rfl⟩
    · rename_i o ho
      rcases List.mem_cons.1 hw with rfl | hw
      · exfalso
        obtain ⟨k, rfl⟩ : ∃ k, count = k + 1 := ⟨count - 1, by omega⟩
        obtain ⟨a, as, has⟩ := List.exists_cons_of_ne_nil hs
        rw [has, List.replicate_succ, List.map_cons, C68_aliases_crash _ _ _ _ _ _ _ hopt hal] at ho
        cases ho
      · obtain ⟨e, he⟩ := ih hw
        rw [he]
        exact ⟨e, rfl⟩

/-- **C119** is not met by BertModel: whatever the configuration and the models, planning yields no tensor at all - it fails unless there is nothing to plan
(since a weight of that definition is optional and has another name). -/
theorem C119_bert_fails (f : Family K) (hb : f.modules.map Prod.snd = Arch.Data.bert) (c : MergeConfig K) (mods : List (ModulePlan K))
    (h : plan f.env c = .ok mods) : mods = [] := by
  obtain ⟨n0, m0, hm0, hmods⟩ : ∃ n0 m0, f.modules = [(n0, m0)] ∧ Arch.Data.bert = [m0] := by
    have hlen : f.modules.length = 1 := by
      have := congrArg List.length hb
      simpa [Arch.Data.bert] using this
    obtain ⟨e, he⟩ := List.length_eq_one_iff.1 hlen
    rw [he] at hb
    exact ⟨e.1, e.2, he, by rw [← hb]; rfl⟩
  have hck : Arch.checkModule m0 = true ∧ ∃ w ∈ m0.pre, w.optional = true ∧ w.aliases.getD [] ≠ [] := by
    have h1 : (Arch.Data.bert.all (fun m => Arch.checkModule m && m.pre.any (fun w => w.optional && !(w.aliases.getD []).isEmpty))) = true := by
      decide +kernel
    rw [hmods] at h1
    simp only [List.all_cons, List.all_nil, Bool.and_true, Bool.and_eq_true, List.any_eq_true, Bool.not_eq_true', List.isEmpty_eq_false_iff] at h1
    exact ⟨h1.1, h1.2⟩
  obtain ⟨hchk, w0, hw0, hopt0, hal0⟩ := hck
  obtain ⟨ts, _, hsnd⟩ := sound_of_check hchk
  have hmod : f.module n0 = some m0 := by
    unfold Family.module
    rw [hm0]
    simp
  obtain ⟨w, hw, hopt, hal⟩ : ∃ w ∈ f.env.outPre n0, w.optional = true ∧ w.aliases ≠ [] := by
    obtain ⟨k, hk⟩ := List.mem_iff_getElem?.1 hw0
    obtain ⟨w, hw, hkeep⟩ := forall₂_get' (hsnd.pre (m0.numLayers (f.outLayers n0))) hk
    refine ⟨w, by simp only [Family.env, hmod]; exact List.mem_of_getElem? hw, by rw [hkeep.1, hopt0], hkeep.2.2 hal0⟩
  have hfail : ∀ c' (d : OutModule K) mp, planModule f.env c' n0 d ≠ .ok mp := by
    intro c' d mp hp
    unfold planModule at hp
    split at hp
    · cases hp
    · cases hp
    · rename_i s ss hsl
      split at hp
      · cases hp
      · rename_i pre hpre
        by_cases hsrc : s.sources = []
        · simp only [planSlices, planSlice, hsrc, List.map_nil] at hp
          cases hp
        · obtain ⟨e, he⟩ := planEdge_fails f.env c' d s.sources.length s _ w hw hopt hal (List.length_pos_iff.2 hsrc) hsrc
          rw [he] at hpre
          cases hpre
  unfold plan at h
  split at h
  · cases h
  · rename_i c' hc'
    have hnames : ∀ e ∈ c'.modules.getD [], e.1 = n0 := by
      have key : ∀ (base : Option Ref) (l l' : List (String × OutModule K)), normalizeModules f.env base l = .ok l' → ∀ e ∈ l', e.1 = n0 := by
        intro base l
        induction l with
        | nil => intro l' hl e he; simp only [normalizeModules, Except.ok.injEq] at hl; subst hl; cases he
        | cons x l ih =>
          intro l' hl e he
          obtain ⟨n, d⟩ := x
          unfold normalizeModules at hl
          split at hl
          · rename_i hn
            split at hl
            · cases hl
            · rename_i ms hms
              cases hl
              rcases List.mem_cons.1 he with rfl | he
              · simpa [Family.env, hm0] using hn
              · exact ih _ hms e he
          · cases hl
      unfold normalizeConfig at hc'
      split at hc'
      · cases hc'
      · split at hc'
        · cases hc'
        · rename_i ms hms
          cases hc'
          exact key _ _ _ hms
    generalize c'.modules.getD [] = l at h hnames
    cases l with
    | nil => simp only [planModules, Except.ok.injEq] at h; exact h.symm
    | cons e l =>
      obtain ⟨n, d⟩ := e
      have : n = n0 := hnames (n, d) (by simp)
      subst this
      unfold planModules at h
      split at h
      · cases h
      · rename_i mp hmp
        exact absurd hmp (hfail _ _ _)

/-! ## Models of one size -/

/-- A configuration that lists models, all of the same number of layers as the output in each module, and which models that are (the base model, too). -/
structure Alike (f : Family K) (c : MergeConfig K) (ms : List (InModel K)) (models : List Ref) : Prop where
  listed : c.models = some ms
  some_model : ms ≠ []
  slices : c.slices = none
  all : models = ms.map (·.model) ++ (match c.baseModel with
    | some b => if b ∈ ms.map (·.model) then [] else [b]
    | none => [])
  once : (ms.map (·.model)).Nodup
  plain : ∀ r ∈ models, r.Plain
  layers : ∀ r ∈ models, ∀ n ∈ f.modules.map Prod.fst, f.layers r n = f.outLayers n

/-- The slice of a module that such a configuration stands for. -/
def whole (f : Family K) (c : MergeConfig K) (ms : List (InModel K)) (n : String) : OutSlice K := ⟨fullDepth f.env c.baseModel n ms, none, []⟩

/-- All of them. -/
def sections (f : Family K) (c : MergeConfig K) (ms : List (InModel K)) : List (String × OutModule K) :=
  (f.modules.map Prod.fst).map (fun n => (n, ⟨some [whole f c ms n], none, []⟩))

theorem whole_models {f : Family K} {c : MergeConfig K} {ms : List (InModel K)} {models : List Ref} (h : Alike f c ms models) (n : String) :
    (whole f c ms n).sources.map (·.model) = models := by
  rw [h.all]
  unfold whole fullDepth
  simp only [List.map_append, List.map_map, Function.comp_def]
  congr 1
  cases c.baseModel with
  | none => rfl
  | some b =>
    simp only
    split <;> rfl

theorem whole_source {f : Family K} {c : MergeConfig K} {ms : List (InModel K)} {n : String} {src : InSlice K}
    (hs : src ∈ (whole f c ms n).sources) : src.start = 0 ∧ src.stop = f.env.numLayers src.model n := by
  simp only [whole, fullDepth] at hs
  rcases List.mem_append.1 hs with hs | hs
  · obtain ⟨m, _, rfl⟩ := List.mem_map.1 hs
    exact ⟨rfl, rfl⟩
  · cases hb : c.baseModel with
    | none => rw [hb] at hs; cases hs
    | some b =>
      rw [hb] at hs
      simp only at hs
      split at hs
      · cases hs
      · simp only [List.mem_singleton] at hs; subst hs; exact ⟨rfl, rfl⟩

theorem whole_ne {f : Family K} {c : MergeConfig K} {ms : List (InModel K)} (h : ms ≠ []) (n : String) : (whole f c ms n).sources ≠ [] := by
  obtain ⟨m, ms, rfl⟩ := List.exists_cons_of_ne_nil h
  simp [whole, fullDepth]

theorem whole_stop {f : Family K} (hn : (f.modules.map Prod.fst).Nodup) {c : MergeConfig K} {ms : List (InModel K)} {models : List Ref}
    (h : Alike f c ms models) {n : String} {m : Module} (hm : (n, m) ∈ f.modules) {src : InSlice K} (hs : src ∈ (whole f c ms n).sources) :
    src.stop = (m.numLayers (f.outLayers n) : Int) := by
  have hr : src.model ∈ models := by rw [← whole_models h n]; exact List.mem_map.2 ⟨src, hs, rfl⟩
  rw [(whole_source hs).2]
  simp only [Family.env, module_eq hn hm]
  rw [h.layers _ hr n (List.mem_map.2 ⟨_, hm, rfl⟩)]

theorem whole_len {f : Family K} (hn : (f.modules.map Prod.fst).Nodup) {c : MergeConfig K} {ms : List (InModel K)} {models : List Ref}
    (h : Alike f c ms models) {n : String} {m : Module} (hm : (n, m) ∈ f.modules) : OutSlice.len (whole f c ms n) = m.numLayers (f.outLayers n) := by
  unfold OutSlice.len
  obtain ⟨src, rest, hsrc⟩ := List.exists_cons_of_ne_nil (whole_ne (f := f) (c := c) h.some_model n)
  have hs : src ∈ (whole f c ms n).sources := by rw [hsrc]; simp
  rw [hsrc]
  simp only
  rw [whole_stop hn h hm hs, (whole_source hs).1]
  simp

theorem alike_fits (f : Family K) (hn : (f.modules.map Prod.fst).Nodup) (hne : f.modules ≠ []) {c : MergeConfig K} {ms : List (InModel K)}
    {models : List Ref} (h : Alike f c ms models) : Fits f (sections f c ms) := by
  have hmem : ∀ e ∈ sections f c ms, ∃ n m, (n, m) ∈ f.modules ∧ e = (n, ⟨some [whole f c ms n], none, []⟩) := by
    intro e he
    obtain ⟨n, hn', rfl⟩ := List.mem_map.1 he
    obtain ⟨m, hm⟩ := known_module hn'
    exact ⟨n, m, hm, rfl⟩
  have hmodels : models.Nodup := by
    rw [h.all, List.nodup_append]
    refine ⟨h.once, ?_, ?_⟩
    · cases c.baseModel with
      | none => exact List.nodup_nil
      | some b =>
        simp only
        split
        · exact List.nodup_nil
        · exact List.nodup_singleton b
    · intro x hx y hy he
      subst he
      cases hb : c.baseModel with
      | none => rw [hb] at hy; cases hy
      | some b =>
        rw [hb] at hy
        simp only at hy
        split at hy
        · cases hy
        · rename_i hnot
          simp only [List.mem_singleton] at hy
          subst hy
          exact hnot hx
  refine ⟨?_, ?_, ?_, ?_, ?_, ?_, ?_, ?_, ?_, ?_⟩
  · simpa [sections] using hne
  · intro e he
    obtain ⟨n, m, hm, rfl⟩ := hmem e he
    exact List.mem_map.2 ⟨_, hm, rfl⟩
  · have : (sections f c ms).map Prod.fst = f.modules.map Prod.fst := by simp [sections, Function.comp_def]
    rw [this]; exact hn
  · intro e he
    obtain ⟨n, m, hm, rfl⟩ := hmem e he
    exact ⟨_, _, rfl⟩
  · intro e he s hs
    obtain ⟨n, m, hm, rfl⟩ := hmem e he
    simp only [Option.getD_some, List.mem_singleton] at hs
    subst hs
    refine ⟨whole_ne h.some_model n, ?_⟩
    intro a ha b hb
    rw [(whole_source ha).1, (whole_source hb).1, whole_stop hn h hm ha, whole_stop hn h hm hb]
  · intro e he s hs
    obtain ⟨n, m, hm, rfl⟩ := hmem e he
    simp only [Option.getD_some, List.mem_singleton] at hs
    subst hs
    rw [whole_models h]; exact hmodels
  · intro e he s hs src hsrc
    obtain ⟨n, m, hm, rfl⟩ := hmem e he
    simp only [Option.getD_some, List.mem_singleton] at hs
    subst hs
    exact h.plain _ (by rw [← whole_models h n]; exact List.mem_map.2 ⟨src, hsrc, rfl⟩)
  · intro e he a b ha hb
    obtain ⟨n, m, hm, rfl⟩ := hmem e he
    simp only [Option.getD_some, List.head?_cons, List.getLast?_singleton, Option.some.injEq] at ha hb
    subst ha hb
    exact Nat.le_refl _
  · intro e he s hs src hsrc
    obtain ⟨n, m, hm, rfl⟩ := hmem e he
    simp only [Option.getD_some, List.mem_singleton] at hs
    subst hs
    rw [(whole_source hsrc).1]
  · intro e he m' hm'
    obtain ⟨n, m, hm, rfl⟩ := hmem e he
    have : m' = m := by
      have h1 := module_eq hn hm
      have h2 := module_eq hn hm'
      simp only at h2
      rw [h1] at h2
      exact (Option.some.inj h2).symm
    subst this
    simp only [Option.getD_some, List.map_cons, List.map_nil, List.sum_cons, List.sum_nil]
    rw [whole_len hn h hm]
    simp

theorem alike_sections {f : Family K} {c : MergeConfig K} {ms : List (InModel K)} {models : List Ref} (h : Alike f c ms models) :
    Sections f.env c (sections f c ms) := by
  obtain ⟨m, ms', rfl⟩ := List.exists_cons_of_ne_nil h.some_model
  exact .models m ms' h.listed h.slices

/-! ### The weights of an architecture are the places of the merge -/

theorem allWeights_out {m : Module} {k : Nat} {a : List Arch.WeightInfo} (h : m.allWeights k = .ok a) :
    a.map (fun v => toPlan (prefixWeight v m.weightPrefix)) = outWeights m (m.numLayers k) (m.numLayers k) := by
  unfold Module.allWeights at h
  simp only at h
  split at h
  · cases h
  rename_i x hx
  split at h
  · cases h
  rename_i y hy
  split at h
  · cases h
  rename_i z hz
  cases h
  unfold outWeights configured
  rw [hx, hz]
  simp only [List.map_append]
  congr 2
  generalize List.range (m.numLayers k) = is at hy
  induction is generalizing y with
  | nil => simp only [layersFrom, Except.ok.injEq] at hy; subst hy; rfl
  | cons i is ih =>
    simp only [layersFrom] at hy
    split at hy
    · cases hy
    rename_i p hp
    split at hy
    · cases hy
    rename_i q hq
    cases hy
    simp only [List.map_append, List.flatMap_cons, hp]
    rw [ih q hq]

/-- What the planner has to know of a weight of the architecture: its name, the other names it may have, the names of weights it may be tied to, whether it is
optional or an embedding, and the data type that is forced on it. -/
def listed (v : Arch.WeightInfo) : WeightInfo :=
  { name := v.name, optional := v.optional, isEmbed := v.isEmbed, forceDtype := v.forceDtype.map String.ofList,
    aliases := match v.aliases with
      | none => []
      | some l => l.map String.ofList,
    tiedNames := match v.tiedNames with
      | none => []
      | some l => l.map String.ofList }

theorem toPlan_listed (v : Arch.WeightInfo) : toPlan v = listed v := by
  unfold toPlan listed
  cases v.aliases <;> cases v.tiedNames <;> rfl

theorem allWeights_mem {mns : List (Module × Nat)} {ws : List Arch.WeightInfo} (h : Arch.allWeights mns = .ok ws) :
    (∀ v ∈ ws, ∃ e ∈ mns, listed v ∈ outWeights e.1 (e.1.numLayers e.2) (e.1.numLayers e.2)) ∧
    ∀ e ∈ mns, ∀ w ∈ outWeights e.1 (e.1.numLayers e.2) (e.1.numLayers e.2), ∃ v ∈ ws, listed v = w := by
  induction mns generalizing ws with
  | nil => simp only [Arch.allWeights, Except.ok.injEq] at h; subst h; simp
  | cons e mns ih =>
    obtain ⟨m, n⟩ := e
    simp only [Arch.allWeights] at h
    split at h
    · cases h
    rename_i a ha
    split at h
    · cases h
    rename_i b hb
    cases h
    obtain ⟨h1, h2⟩ := ih hb
    have hout := allWeights_out ha
    constructor
    · intro v hv
      rcases List.mem_append.1 hv with hv | hv
      · obtain ⟨x, hx, rfl⟩ := List.mem_map.1 hv
        refine ⟨(m, n), by simp, ?_⟩
        simp only
        rw [← hout]
        exact List.mem_map.2 ⟨x, hx, toPlan_listed _⟩
      · obtain ⟨e, he, hw⟩ := h1 v hv
        exact ⟨e, by simp [he], hw⟩
    · intro e he w hw
      rcases List.mem_cons.1 he with rfl | he
      · simp only at hw
        rw [← hout] at hw
        obtain ⟨x, hx, rfl⟩ := List.mem_map.1 hw
        exact ⟨_, List.mem_append_left _ (List.mem_map.2 ⟨x, hx, rfl⟩), (toPlan_listed _).symm⟩
      · obtain ⟨v, hv, hvw⟩ := h2 e he w hw
        exact ⟨v, List.mem_append_right _ hv, hvw⟩

/-- At every place all models contribute the weight of the same name. -/
theorem place_same {f : Family K} (hn : (f.modules.map Prod.fst).Nodup) {c : MergeConfig K} {ms : List (InModel K)} {models : List Ref}
    (h : Alike f c ms models) {n : String} {m : Module} (hm : (n, m) ∈ f.modules) {w : WeightInfo} {s : OutSlice K} {t : K}
    {ins : List (Ref × WeightInfo)} (hp : Place f.env n [whole f c ms n] w s t ins) :
    s = whole f c ms n ∧ ins = models.map (fun r => (r, w)) := by
  have hmap : (whole f c ms n).sources.map (fun src => (src.model, w)) = models.map (fun r => (r, w)) := by
    rw [← whole_models h n, List.map_map]
    rfl
  cases hp with
  | pre s w hs hw =>
    simp only [List.head?_cons, Option.some.injEq] at hs
    subst hs
    exact ⟨rfl, hmap⟩
  | post s w hs hw =>
    simp only [List.getLast?_singleton, Option.some.injEq] at hs
    subst hs
    exact ⟨rfl, hmap⟩
  | layer j s o k w ins hl hw hins =>
    obtain ⟨b, a, hba, ho, hj⟩ := hl
    obtain ⟨rfl, rfl, rfl⟩ : b = [] ∧ s = whole f c ms n ∧ a = [] := by
      cases b with
      | nil => simp only [List.nil_append, List.cons.injEq] at hba; exact ⟨rfl, hba.1.symm, hba.2.symm⟩
      | cons x b => simp at hba
    simp only [List.map_nil, List.sum_nil, Nat.zero_add] at hj
    subst hj
    refine ⟨rfl, ?_⟩
    rw [← hmap]
    have hall : ∀ src ∈ (whole f c ms n).sources, ∀ i : Ref × WeightInfo, i.1 = src.model ∧
        (f.env.inLayer src.model n (src.start + j))[k]? = some i.2 → i = (src.model, w) := by
      intro src hsrc i ⟨h1, h2⟩
      have hr : src.model ∈ models := by rw [← whole_models h n]; exact List.mem_map.2 ⟨src, hsrc, rfl⟩
      rw [(whole_source hsrc).1, Int.zero_add] at h2
      simp only [Family.env, module_eq hn hm] at h2 hw
      rw [h.layers _ hr n (List.mem_map.2 ⟨_, hm, rfl⟩), hw, Option.some.injEq] at h2
      exact Prod.ext h1 h2.symm
    generalize (whole f c ms n).sources = srcs at hins hall
    induction hins with
    | nil => rfl
    | cons x _ ih =>
      simp only [List.map_cons]
      rw [hall _ (by simp) _ x, ih (fun src hsrc => hall src (by simp [hsrc]))]

theorem same_place {f : Family K} (hn : (f.modules.map Prod.fst).Nodup) {c : MergeConfig K} {ms : List (InModel K)} {models : List Ref}
    (h : Alike f c ms models) {n : String} {m : Module} (hm : (n, m) ∈ f.modules) {w : WeightInfo}
    (hw : w ∈ outWeights m (m.numLayers (f.outLayers n)) (m.numLayers (f.outLayers n))) :
    ∃ t, Place f.env n [whole f c ms n] w (whole f c ms n) t (models.map (fun r => (r, w))) := by
  have hmap : (whole f c ms n).sources.map (fun src => (src.model, w)) = models.map (fun r => (r, w)) := by
    rw [← whole_models h n, List.map_map]
    rfl
  unfold outWeights at hw
  simp only [List.mem_append, List.mem_flatMap, List.mem_range] at hw
  rw [← hmap]
  rcases hw with (hw | ⟨j, hj, hw⟩) | hw
  · exact ⟨0, .pre _ w rfl (by simp only [Family.env, module_eq hn hm]; exact hw)⟩
  · obtain ⟨k, hk⟩ := List.mem_iff_getElem?.1 hw
    refine ⟨_, .layer j (whole f c ms n) j k w _ ⟨[], [], rfl, ?_, by simp⟩ (by simp only [Family.env, module_eq hn hm]; exact hk) ?_⟩
    · rw [whole_len hn h hm]; exact hj
    · rw [List.forall₂_map_right_iff, List.forall₂_same]
      intro src hsrc
      have hr : src.model ∈ models := by rw [← whole_models h n]; exact List.mem_map.2 ⟨src, hsrc, rfl⟩
      refine ⟨rfl, ?_⟩
      rw [(whole_source hsrc).1, Int.zero_add]
      simp only [Family.env, module_eq hn hm]
      rw [h.layers _ hr n (List.mem_map.2 ⟨_, hm, rfl⟩)]
      exact hk
  · exact ⟨0, .post _ w rfl (by simp only [Family.env, module_eq hn hm]; exact hw)⟩

/-! ### The claim -/

/-- A weight of the architecture is merged: it is required, or some model stores it. -/
def Present (f : Family K) (models : List Ref) (v : Arch.WeightInfo) : Prop := v.optional = true → ∃ r ∈ models, v.name ∈ f.stored r

/-- What a merge leaves behind, in terms of the weights `ws` of an architecture: planning succeeds; whatever order the executor chooses and whatever was written in
whatever order, the merge ends without an exception, the output lists exactly the names of the weights that are present, and what is read under such
a name, whatever was read before, is right for that weight. -/
def Merges {T E : Type} (f : Family K) (c : MergeConfig K) (ws : List Arch.WeightInfo) (models : List Ref) (s : Setup K T E)
    (right : Arch.WeightInfo → T → Prop) : Prop :=
  ∀ (group : Job K → String) (prio : Job K → Int) (pop : ∀ n, Graph.PopOracle n) (conf : Writer.Conf) (size : T → Nat), conf.Standard →
    ∃ mods, plan f.env c = .ok mods ∧
    ∃ trace, runTasks (jobs K s.dtype) group prio (execJob s) pop (targets (planned mods)) = some (trace, .finished) ∧
      let acts := writerRun conf size {} (handed (universeOf (jobs K s.dtype) (targets (planned mods))).1 trace)
      ∃ fs, Writer.applyOps (fun _ => none) (Writer.syncOps acts) = some fs ∧
        (∀ r, Relation.ReflTransGen Writer.Step ⟨fun _ => none, [], acts⟩ r → (∀ r', ¬ Writer.Step r r') → r.fs = fs) ∧
        ∃ idx, Writer.fromDisk fs = .ok idx ∧
          (∀ name, name ∈ idx.tensorPaths.map Prod.fst ↔ ∃ v ∈ ws, Present f models v ∧ name = String.ofList v.name) ∧
          ∀ v ∈ ws, Present f models v → ∃ z, right v z ∧ ∀ hist aliases raise,
            (Writer.getTensor fs idx (Writer.afterHistory fs idx none hist) (String.ofList v.name) aliases raise).1 = .ok (some z)

/-- The weights of an architecture with as many layers as the output's configuration says. -/
def Family.pairs (f : Family K) : List (Module × Nat) := f.modules.map (fun e => (e.2, f.outLayers e.1))

theorem leftOut_iff {f : Family K} {models : List Ref} {v : Arch.WeightInfo} :
    ¬ LeftOut f.env (listed v) (models.map (fun r => (r, listed v))) ↔ Present f models v := by
  unfold LeftOut Present
  constructor
  · intro h ho
    by_contra hc
    refine h ⟨ho, ?_⟩
    intro i hi hin
    obtain ⟨r, hr, rfl⟩ := List.mem_map.1 hi
    exact hc ⟨r, hr, hin⟩
  · rintro h ⟨ho, hno⟩
    obtain ⟨r, hr, hin⟩ := h ho
    exact hno (r, listed v) (List.mem_map.2 ⟨r, hr, rfl⟩) hin

/-- **C119** For models of one size, what the end-to-end theorems say about places holds for the weights of the architecture, each by its name:
all of its required weights and those optional ones that some model has are merged, each from the weights of that same name in all models. -/
theorem C119_models {T E : Type} (f : Family K) (hs : IsShipped f) {c : MergeConfig K} {ms : List (InModel K)} {models : List Ref}
    (h : Alike f c ms models) {ws : List Arch.WeightInfo} (hws : Arch.allWeights f.pairs = .ok ws) (s : Setup K T E)
    (right : Arch.WeightInfo → T → Prop)
    (hd : Delivers f.env c (sections f c ms) s (fun _ w _ _ _ z => ∀ v ∈ ws, listed v = w → right v z)) : Merges f c ws models s right := by
  intro group prio pop conf size hstd
  obtain ⟨mods, hp, trace, ht, fs, h1, h2, idx, h3, h4, h5⟩ := hd group prio pop conf size hstd
  obtain ⟨k1, k2⟩ := allWeights_mem hws
  have hto : ∀ v ∈ ws, ∃ e ∈ sections f c ms, ∃ t, Place f.env e.1 (e.2.slices.getD []) (listed v) (whole f c ms e.1) t
      (models.map (fun r => (r, listed v))) := by
    intro v hv
    obtain ⟨e, he, hw⟩ := k1 v hv
    obtain ⟨⟨n, m⟩, hnm, rfl⟩ := List.mem_map.1 he
    obtain ⟨t, hpl⟩ := same_place hs.names h hnm hw
    exact ⟨_, List.mem_map.2 ⟨n, List.mem_map.2 ⟨_, hnm, rfl⟩, rfl⟩, t, hpl⟩
  have hfrom : ∀ e ∈ sections f c ms, ∀ w sl t ins, Place f.env e.1 (e.2.slices.getD []) w sl t ins →
      ∃ v ∈ ws, listed v = w ∧ ins = models.map (fun r => (r, w)) := by
    intro e he w sl t ins hpl
    obtain ⟨n, hn', rfl⟩ := List.mem_map.1 he
    obtain ⟨m, hm⟩ := known_module hn'
    have hmem := place_mem hpl
    simp only [Option.getD_some] at hpl hmem
    rw [env_weights (module_eq hs.names hm)] at hmem
    simp only [List.map_cons, List.map_nil, List.sum_cons, List.sum_nil, Nat.add_zero] at hmem
    rw [whole_len hs.names h hm] at hmem
    obtain ⟨v, hv, hvw⟩ := k2 (m, f.outLayers n) (List.mem_map.2 ⟨_, hm, rfl⟩) w hmem
    exact ⟨v, hv, hvw, (place_same hs.names h hm hpl).2⟩
  refine ⟨mods, hp, trace, ht, fs, h1, h2, idx, h3, ?_, ?_⟩
  · intro name
    rw [h4 name]
    constructor
    · rintro ⟨e, he, w, sl, t, ins, hpl, hno, rfl⟩
      obtain ⟨v, hv, rfl, rfl⟩ := hfrom e he w sl t ins hpl
      exact ⟨v, hv, leftOut_iff.1 hno, rfl⟩
    · rintro ⟨v, hv, hpres, rfl⟩
      obtain ⟨e, he, t, hpl⟩ := hto v hv
      exact ⟨e, he, listed v, _, t, _, hpl, leftOut_iff.2 hpres, rfl⟩
  · intro v hv hpres
    obtain ⟨e, he, t, hpl⟩ := hto v hv
    obtain ⟨z, hz, hr⟩ := h5 e he _ _ _ _ hpl (leftOut_iff.2 hpres)
    exact ⟨z, hz v hv rfl, hr⟩

/-- A linear merge, place by place, for configurations of any form: see `C115_linear` for merges that build a tokenizer. -/
theorem linear_places (env : Env K) (henv : LinearEnv env) (c : MergeConfig K) (l : List (String × OutModule K)) (hl : Sections env c l)
    (hu : Usable env l) (s : Setup K (Tensor K) MethodErr) (hmeth : s.method = linearTask) (own : Ref → WeightInfo → Tensor K)
    (wt : Ref → K) (nz : Bool)
    (hready : ∀ e ∈ l, ∀ w sl t ins, Place env e.1 (e.2.slices.getD []) w sl t ins → ¬ LeftOut env w ins →
      (∀ i ∈ ins, (wanted s.dtype i.2).execute s.casts (s.loaders i.1) = .ok (some (own i.1 i.2))) ∧
      (storedType s.outDtype w = none ∨ ∃ n d, storedType s.outDtype w = some n ∧ (n, d) ∈ typeNames) ∧
      LinearAt c e.2 w sl t ins wt nz ∧ (nz = true → (ins.map (fun i => wt i.1)).sum ≠ 0) ∧ ins ≠ [] ∧
      ∃ sh, ∀ i ∈ ins, (own i.1 i.2).shape = sh) :
    Delivers env c l s (fun _ w _ _ ins z => ∃ y, ((∀ i ∈ ins, y.shape = (own i.1 i.2).shape) ∧
      ∀ k, Mixed nz (ins.map (fun i => (wt i.1, (own i.1 i.2).get k))) (y.get k)) ∧ Stored s w y z) := by
  refine method_delivers env (by rw [henv.params]; simp) (by rw [henv.tensorParams]; simp) c l hl hu s linearView
    (by intro p ts; rw [hmeth]; exact linear_view p ts) own _ ?_
  intro e he w sl t ins hp hno hnd hsrc
  obtain ⟨h1, h2, h3, h4, h5, sh, h6⟩ := hready e he w sl t ins hp hno
  refine ⟨h1, h2, ?_, ?_, ?_⟩
  · intro q hq
    rw [henv.params, List.mem_singleton] at hq
    subst hq
    obtain ⟨x, n, hx, _, _⟩ := h3.normalize
    exact ⟨x, hx, by intro h; cases h⟩
  · intro i hi src hs hm q hq
    rw [henv.tensorParams, List.mem_singleton] at hq
    subst hq
    exact ⟨_, h3.weight i hi src hs hm, fun _ => Or.inl (by simp)⟩
  · intro v hv
    obtain ⟨y, g1, g2, g3⟩ := linear_runs env henv hv hsrc wt nz h3 (ins.map (fun i => (i.1, own i.1 i.2)))
      (by simp [List.map_map, Function.comp_def]) h5 sh
      (by
        intro x hx
        obtain ⟨i, hi, rfl⟩ := List.mem_map.1 hx
        exact h6 i hi) h4
    refine ⟨y, g1, fun i hi => by rw [g2, h6 i hi], fun k => ?_⟩
    have := g3 k
    rw [List.map_map] at this
    exact this

/-- **C119** A linear merge of models of an architecture shipped, from the configuration to the files.  The configuration lists models, all of one size, with a
number as weight each; every weight of the architecture that is present is there in all of them, in one shape; the weights do not add up to zero (unless
normalization is switched off), and the data types are ones that exist.  Then the merge succeeds, the output has exactly the weights of the architecture (optional
ones if some model has them), and what is read under a name is (in the type asked for) the weighted mean - or sum - of the models' tensors of that name. -/
theorem C119_linear (f : Family K) (hs : IsShipped f) (henv : LinearEnv f.env) (c : MergeConfig K) (ms : List (InModel K)) (w : Ref → K) (nz : Bool)
    (hc : Simple c ms w nz) (hplain : ∀ m ∈ ms, m.model.Plain)
    (hlayers : ∀ m ∈ ms, ∀ n ∈ f.modules.map Prod.fst, f.layers m.model n = f.outLayers n)
    (ws : List Arch.WeightInfo) (hws : Arch.allWeights f.pairs = .ok ws)
    (s : Setup K (Tensor K) MethodErr) (hmeth : s.method = linearTask) (own : Ref → Str → Tensor K)
    (hown : ∀ v ∈ ws, Present f (ms.map (·.model)) v →
      (∀ m ∈ ms, (wanted s.dtype (listed v)).execute s.casts (s.loaders m.model) = .ok (some (own m.model v.name))) ∧
      (∃ sh, ∀ m ∈ ms, (own m.model v.name).shape = sh) ∧
      (storedType s.outDtype (listed v) = none ∨ ∃ n d, storedType s.outDtype (listed v) = some n ∧ (n, d) ∈ typeNames))
    (htot : nz = true → (ms.map (fun m => w m.model)).sum ≠ 0) :
    Merges f c ws (ms.map (·.model)) s (fun v z => ∃ y, Stored s (listed v) y z ∧ (∀ m ∈ ms, y.shape = (own m.model v.name).shape) ∧
      ∀ k, Mixed nz (ms.map (fun m => (w m.model, (own m.model v.name).get k))) (y.get k)) := by
  have hal : Alike f c ms (ms.map (·.model)) := by
    refine ⟨hc.models, hc.some_model, hc.slices, by rw [hc.base]; simp, hc.once, ?_, ?_⟩
    · intro r hr
      obtain ⟨m, hm, rfl⟩ := List.mem_map.1 hr
      exact hplain m hm
    · intro r hr
      obtain ⟨m, hm, rfl⟩ := List.mem_map.1 hr
      exact hlayers m hm
  have hne : f.modules ≠ [] := by
    intro h0
    have hd := hs.definition
    rw [h0] at hd
    have : (distinctArchs.all (fun l => !l.isEmpty)) = true := by decide +kernel
    have := List.all_eq_true.1 this _ hd
    simp at this
  have hu := C119_usable_partial f hs _ (alike_fits f hs.names hne hal)
  obtain ⟨_, k2⟩ := allWeights_mem hws
  have hfrom : ∀ e ∈ sections f c ms, ∀ wt sl t ins, Place f.env e.1 (e.2.slices.getD []) wt sl t ins →
      sl = whole f c ms e.1 ∧ e.2.parameters = [] ∧ ∃ v ∈ ws, listed v = wt ∧ ins = (ms.map (·.model)).map (fun r => (r, wt)) := by
    intro e he wt sl t ins hpl
    obtain ⟨n, hn', rfl⟩ := List.mem_map.1 he
    obtain ⟨m, hm⟩ := known_module hn'
    have hmem := place_mem hpl
    simp only [Option.getD_some] at hpl hmem
    rw [env_weights (module_eq hs.names hm)] at hmem
    simp only [List.map_cons, List.map_nil, List.sum_cons, List.sum_nil, Nat.add_zero] at hmem
    rw [whole_len hs.names hal hm] at hmem
    obtain ⟨v, hv, hvw⟩ := k2 (m, f.outLayers n) (List.mem_map.2 ⟨_, hm, rfl⟩) wt hmem
    obtain ⟨p1, p2⟩ := place_same hs.names hal hm hpl
    exact ⟨p1, rfl, v, hv, hvw, p2⟩
  refine C119_models f hs hal hws s _ (delivers_mono (linear_places f.env henv c _ (alike_sections hal) hu s hmeth (fun r wi => own r wi.name) w nz ?_) ?_)
  · intro e he wt sl t ins hpl hno
    obtain ⟨rfl, hpar, v, hv, rfl, rfl⟩ := hfrom e he wt sl t ins hpl
    obtain ⟨g1, ⟨sh, g2⟩, g3⟩ := hown v hv (leftOut_iff.1 hno)
    refine ⟨?_, g3, ⟨?_, ?_⟩, ?_, ?_, sh, ?_⟩
    · intro i hi
      simp only [List.map_map, List.mem_map, Function.comp_apply] at hi
      obtain ⟨m, hm, rfl⟩ := hi
      exact g1 m hm
    · intro i hi src hsrc hmod
      have hsrc' := hsrc
      simp only [whole, fullDepth, hc.base, List.append_nil] at hsrc'
      obtain ⟨m, hm, rfl⟩ := List.mem_map.1 hsrc'
      simp only at hmod
      rw [← hmod]
      unfold SaysOf
      simp only [hc.weight m hm]
      exact .found (.scalar _)
    · unfold Says
      rw [hpar]
      simp only [whole, Params.get]
      have hnz := hc.normalize
      generalize hq : c.parameters.get "normalize".toList = q at hnz
      unfold Params.get at hq
      cases hnz with
      | unset => exact ⟨none, 1, by rw [hq]; exact .unset (.unset (.unset .nothing)), rfl, by simp⟩
      | on x hx => exact ⟨_, x, by rw [hq]; exact .unset (.unset (.found (.scalar _))), rfl, by simp [hx]⟩
      | off => exact ⟨_, 0, by rw [hq]; exact .unset (.unset (.found (.scalar _))), rfl, by simp⟩
    · simpa [List.map_map, Function.comp_def] using htot
    · simpa using hc.some_model
    · intro i hi
      simp only [List.map_map, List.mem_map, Function.comp_apply] at hi
      obtain ⟨m, hm, rfl⟩ := hi
      exact g2 m hm
  · rintro e he wt sl t ins z hpl hno ⟨y, ⟨y1, y2⟩, y3⟩ v' hv' hvw
    obtain ⟨_, _, v, hv, rfl, rfl⟩ := hfrom e he wt sl t ins hpl
    have hname : v'.name = v.name := congrArg WeightInfo.name hvw
    refine ⟨y, by rw [hvw]; exact y3, ?_, ?_⟩
    · intro m hm
      rw [hname]
      exact y1 (m.model, listed v) (by simp only [List.map_map, List.mem_map, Function.comp_apply]; exact ⟨m, hm, rfl⟩)
    · intro k
      have := y2 k
      rw [hname]
      rw [List.map_map, List.map_map] at this
      exact this

end

/-! ## A concrete case: Llama models with two layers -/

def llama : Family ℚ where
  modules := [("default", Arch.Data.llama.headD ⟨[], [], [], none, none⟩)]
  outLayers _ := 2
  layers _ _ := 2
  stored _ := ["lm_head.weight".toList]
  params := [⟨"normalize".toList, false, some (.num 1)⟩]
  tensorParams := [⟨"weight".toList, true, none⟩]

theorem llama_shipped : IsShipped llama where
  definition := by
    have : llama.modules.map Prod.snd = Arch.Data.llama := rfl
    rw [this]
    simp only [distinctArchs, List.mem_cons, true_or, or_true]
  not_bert := by
    intro h
    have h1 : ((llama.modules.map Prod.snd).all (fun m => m.pre.length == 1)) = true := by decide +kernel
    rw [h] at h1
    exact absurd h1 (by decide +kernel)
  names := by decide

/-- Its weights: 3 and 9 for each layer. -/
def llamaWeights : List Arch.WeightInfo :=
  match Arch.allWeights llama.pairs with
  | .ok ws => ws
  | .error _ => []

theorem llama_weights : Arch.allWeights llama.pairs = .ok llamaWeights := by
  obtain ⟨ws, h, _⟩ := Arch.C63_shipped (llama.modules.map Prod.snd) llama_shipped.definition [2] rfl
  have : llama.pairs = (llama.modules.map Prod.snd).zip [2] := rfl
  unfold llamaWeights
  rw [this, h]

example : llamaWeights.length = 21 ∧ ∃ v ∈ llamaWeights, v.name = "model.layers.1.self_attn.q_proj.weight".toList := by decide +kernel

/-- A loader that has all of them, with one entry each. -/
def llamaLoader (x : ℚ) : LoadTask.Loader (Tensor ℚ) where
  names := llamaWeights.map (fun v => String.ofList v.name)
  fetch := fun _ => .ok ⟨[1], fun _ => x⟩
  convert := fun _ => .ok none

def llamaSetup : Setup ℚ (Tensor ℚ) MethodErr where
  casts := ⟨fun _ => .float32, fun _ x => x⟩
  loaders := fun m => llamaLoader (if m = refA then 2 else 10)
  dtype := none
  outDtype := none
  method := linearTask

/-- All hypotheses are met; each of the weights is (1 * 2 + 3 * 10) / 4 in the end. -/
theorem llama_merges : Merges llama { models := some demoModels } llamaWeights [refA, refB] llamaSetup
    (fun v z => ∃ y, Stored llamaSetup (listed v) y z ∧ y.shape = [1] ∧ ∀ k, y.get k * (1 + 3) = 1 * 2 + 3 * 10) := by
  have plainA : refA.Plain := ⟨⟨by unfold ModelRef.NoSep; decide, (by rintro r hr; cases hr)⟩, (by rintro l hl; cases hl), rfl⟩
  have plainB : refB.Plain := ⟨⟨by unfold ModelRef.NoSep; decide, (by rintro r hr; cases hr)⟩, (by rintro l hl; cases hl), rfl⟩
  have hforce : ∀ v ∈ llamaWeights, v.forceDtype = none ∧ v.name ≠ [] := by decide +kernel
  have hmem : ∀ m ∈ demoModels, m.model = refA ∨ m.model = refB := by
    intro m hm
    simp only [demoModels, List.mem_cons, List.not_mem_nil, or_false] at hm
    rcases hm with rfl | rfl
    · exact Or.inl rfl
    · exact Or.inr rfl
  have key := C119_linear llama llama_shipped ⟨rfl, rfl⟩ { models := some demoModels } demoModels demoWeight true demo_simple
    (by
      intro m hm
      rcases hmem m hm with h | h <;> rw [h]
      · exact plainA
      · exact plainB)
    (by intro m hm n hn; rfl) llamaWeights llama_weights llamaSetup rfl (fun r _ => ⟨[1], fun _ => if r = refA then 2 else 10⟩)
    (by
      intro v hv _
      obtain ⟨hf, hne⟩ := hforce v hv
      have hst : storedType llamaSetup.outDtype (listed v) = none := by simp [storedType, listed, hf, llamaSetup]
      refine ⟨?_, ⟨[1], fun _ _ => rfl⟩, Or.inl hst⟩
      intro m hm
      have hres : (wanted llamaSetup.dtype (listed v)).resolve (llamaSetup.loaders m.model) = some (String.ofList v.name) := by
        unfold LoadTask.LoadTensor.resolve
        simp only [wanted, listed, List.singleton_append, List.cons_append, List.find?_cons]
        have : String.ofList v.name ∈ (llamaSetup.loaders m.model).names := List.mem_map.2 ⟨v, hv, rfl⟩
        rw [decide_eq_true this]
      have hne' : String.ofList v.name ≠ "" := by
        intro h
        apply hne
        have := congrArg String.toList h
        simpa using this
      unfold LoadTask.LoadTensor.execute LoadTask.LoadTensor.raw
      rw [hres]
      simp only [if_neg hne']
      simp only [wanted, listed, hf, Option.map_none, true_or, if_true, llamaSetup, LoadTask.toDtype, llamaLoader])
    (by intro _; simp [demoModels, demoWeight, refA, refB]; norm_num)
  intro group prio pop conf size hstd
  obtain ⟨mods, h1, trace, h2, fs, h3, h4, idx, h5, h6, h7⟩ := key group prio pop conf size hstd
  refine ⟨mods, h1, trace, h2, fs, h3, h4, idx, h5, h6, ?_⟩
  intro v hv hp
  obtain ⟨z, ⟨y, y1, y2, y3⟩, h8⟩ := h7 v hv hp
  refine ⟨z, ⟨y, y1, y2 ⟨refA, _⟩ (by simp only [demoModels]; exact List.mem_cons_self), ?_⟩, h8⟩
  intro k
  have := y3 k
  simp only [Mixed, if_true, demoModels, List.map_cons, List.map_nil, demoWeight, List.sum_cons, List.sum_nil] at this
  have hab : refB ≠ refA := by decide
  simpa [hab] using this

/-! ## Another: a definition with three modules, one of them without layers -/

def gemma : Family ℚ where
  modules := ["text_decoder", "multi_modal_projector", "vision_tower"].zip Arch.Data.gemma3vl
  outLayers n := if n = "vision_tower" then 27 else 34
  layers _ n := if n = "vision_tower" then 27 else 34
  stored _ := []
  params := []
  tensorParams := []

theorem gemma_shipped : IsShipped gemma where
  definition := by
    have : gemma.modules.map Prod.snd = Arch.Data.gemma3vl := rfl
    rw [this]
    simp only [distinctArchs, List.mem_cons, true_or, or_true]
  not_bert := by
    intro h
    have h1 : (gemma.modules.map Prod.snd).length = 3 := rfl
    rw [h] at h1
    exact absurd h1 (by decide)
  names := by decide

/-- Two models with a base model that is not listed fit. -/
theorem gemma_alike : Alike gemma { models := some [{ model := refB }], baseModel := some refA } [{ model := refB }] [refB, refA] where
  listed := rfl
  some_model := by simp
  slices := rfl
  all := by decide
  once := by decide
  plain := by
    intro r hr
    simp only [List.mem_cons, List.not_mem_nil, or_false] at hr
    rcases hr with rfl | rfl
    · exact ⟨⟨by unfold ModelRef.NoSep; decide, (by rintro r hr; cases hr)⟩, (by rintro l hl; cases hl), rfl⟩
    · exact ⟨⟨by unfold ModelRef.NoSep; decide, (by rintro r hr; cases hr)⟩, (by rintro l hl; cases hl), rfl⟩
  layers := by intro r _ n _; rfl

example : Usable gemma.env (sections gemma { models := some [{ model := refB }], baseModel := some refA } [{ model := refB }]) :=
  C119_usable_partial gemma gemma_shipped _ (alike_fits gemma gemma_shipped.names (by decide +kernel) gemma_alike)

/-- The definition of BertModel, and a configuration for it: planning fails. -/
example (c : MergeConfig ℚ) (mods : List (ModulePlan ℚ)) :
    plan ({ modules := [("default", Arch.Data.bert.headD ⟨[], [], [], none, none⟩)], outLayers := fun _ => 2, layers := fun _ _ => 2,
            stored := fun _ => [], params := [], tensorParams := [] } : Family ℚ).env c = .ok mods → mods = [] :=
  C119_bert_fails _ rfl c mods

end Verif.Shipped
