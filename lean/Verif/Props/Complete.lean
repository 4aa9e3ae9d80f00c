import Verif.Props.WholePlan

/-! # C29 (modules), C117: does the merged model have all its weights? -/

set_option linter.unusedSectionVars false

namespace Verif.WholeMerge

open Verif.ModelRef (Str Ref)
open Verif.LoadTask (WeightInfo)
open Verif.Plan
open Verif.Config

section
variable {K : Type} [Field K] [LinearOrder K] [IsStrictOrderedRing K] [FloorRing K]

/-- **C29** Modules given by name are planned as given, models meaning every model in full depth; a name the architecture does not have
is refused. -/
theorem C29_modules (env : Env K) (c : MergeConfig K) (ml : List (String × OutModule K)) (hml : c.modules = some ml) (hs : c.slices = none)
    (hm : c.models = none) :
    ((∀ e ∈ ml, e.1 ∈ env.moduleNames) → ∃ c', normalizeConfig env c = .ok c' ∧ c'.baseModel = c.baseModel ∧
      c'.parameters = c.parameters ∧ c'.modules = some (ml.map (fun e => (e.1,
        match e.2.models with
        | some (m :: ms) => ⟨some [⟨fullDepth env c.baseModel e.1 (m :: ms), none, []⟩], none, e.2.parameters⟩
        | _ => e.2)))) ∧
    ((∃ e ∈ ml, e.1 ∉ env.moduleNames) → normalizeConfig env c = .error .unknownModule ∧ plan env c = .error .unknownModule) := by
  refine ⟨fun hn => sections_config env c _ (.modules ml hml hs hm hn), ?_⟩
  intro hbad
  have hmods : normalizeModules env c.baseModel ml = .error .unknownModule := by
    clear hml
    induction ml with
    | nil => obtain ⟨e, he, _⟩ := hbad; cases he
    | cons x rest ih =>
      obtain ⟨n, d⟩ := x
      unfold normalizeModules
      split
      · rename_i hin
        have : ∃ e ∈ rest, e.1 ∉ env.moduleNames := by
          obtain ⟨e, he, hne⟩ := hbad
          rcases List.mem_cons.1 he with rfl | he
          · exact absurd hin hne
          · exact ⟨e, he, hne⟩
        rw [ih this]
      · rfl
  have : normalizeConfig env c = .error .unknownModule := by
    unfold normalizeConfig modelsToModules slicesToModules
    simp only [hm, truthy, hs, hml, Bool.false_eq_true, if_false, Option.getD_some, hmods]
  exact ⟨this, by unfold plan; rw [this]⟩

/-- What a configuration gives, one of three: models, slices, modules.  (`validate_output`, checked when it is read.) -/
inductive Gives (c : MergeConfig K) : Prop
  | models (m : InModel K) (ms : List (InModel K)) (hm : c.models = some (m :: ms)) (hs : c.slices = none)
  | slices (s : OutSlice K) (ss : List (OutSlice K)) (hs : c.slices = some (s :: ss)) (hm : c.models = none)
  | modules (ml : List (String × OutModule K)) (hml : c.modules = some ml) (hs : c.slices = none) (hm : c.models = none)

theorem gives_sections (env : Env K) (c : MergeConfig K) (h : Gives c) (mods : List (ModulePlan K)) (hp : plan env c = .ok mods) :
    ∃ l, Sections env c l ∧ ∃ c', planModules env c' l = .ok mods := by
  have key : ∀ l, Sections env c l → ∃ l, Sections env c l ∧ ∃ c', planModules env c' l = .ok mods := by
    intro l hl
    obtain ⟨c', h1, _, _, h4⟩ := sections_config env c l hl
    unfold plan at hp
    rw [h1] at hp
    simp only [h4, Option.getD_some] at hp
    exact ⟨l, hl, c', hp⟩
  cases h with
  | models m ms hm hs => exact key _ (.models m ms hm hs)
  | slices s ss hs hm =>
    by_cases hone : env.moduleNames.length = 1
    · obtain ⟨n, hn⟩ := List.length_eq_one_iff.1 hone
      exact key _ (.slices s ss n hs hm hn)
    · have := (C29_slices env c s ss hs hm).2 hone
      unfold plan at hp
      rw [this] at hp
      cases hp
  | modules ml hml hs hm =>
    by_cases hn : ∀ e ∈ ml, e.1 ∈ env.moduleNames
    · exact key _ (.modules ml hml hs hm hn)
    · push Not at hn
      rw [((C29_modules env c ml hml hs hm).2 hn).2] at hp
      cases hp

theorem mem_tensors_of_covers {ws : List WeightInfo} {os : List (Option (Planned K))} (h : CoversList ws os) {w : WeightInfo} (hw : w ∈ ws)
    (hreq : w.optional = false) : ∃ p ∈ os.filterMap id, p.weight = w := by
  obtain ⟨o, ho, hr⟩ := forall₂_mem_left h w hw
  cases o with
  | none => simp only at hr; rw [hreq] at hr; cases hr
  | some p => exact ⟨p, List.mem_filterMap.2 ⟨some p, ho, rfl⟩, hr⟩

/-- **C117** Whatever is planned has, for every module of the architecture, all the weights that module cannot do without, for as many
layers as it gets.  Missing from the full claim: configurations by modules that leave one out (`C117_module_left_out`). -/
theorem C117_complete_partial (env : Env K) (c : MergeConfig K) (hc : Gives c) (mods : List (ModulePlan K)) (hp : plan env c = .ok mods)
    (hall : ∀ ml, c.modules = some ml → c.slices = none → c.models = none → ∀ n ∈ env.moduleNames, ∃ e ∈ ml, e.1 = n) :
    ∀ n ∈ env.moduleNames, ∃ mp ∈ mods, ∀ w ∈ outWeights env n mp.layers.length, w.optional = false →
      ∃ p ∈ mods.flatMap ModulePlan.tensors, p.weight = w := by
  intro n hn
  obtain ⟨l, hl, c', hmods⟩ := gives_sections env c hc mods hp
  have hin : ∃ e ∈ l, e.1 = n := by
    cases hl with
    | models m ms hm hs => exact ⟨_, List.mem_map.2 ⟨n, hn, rfl⟩, rfl⟩
    | slices s ss k hs hm hk =>
      rw [hk, List.mem_singleton] at hn
      exact ⟨_, List.mem_cons_self, hn.symm⟩
    | modules ml hml hs hm hk =>
      obtain ⟨e, he, rfl⟩ := hall ml hml hs hm n hn
      exact ⟨_, List.mem_map.2 ⟨e, he, rfl⟩, rfl⟩
  obtain ⟨e, he, rfl⟩ := hin
  obtain ⟨mp, hmp, h⟩ := planModules_mem' env c' l mods hmods e he
  refine ⟨mp, hmp, ?_⟩
  intro w hw hreq
  obtain ⟨p, hpm, hpw⟩ := mem_tensors_of_covers (C32_every_weight env c' e.1 e.2 mp h).1 hw hreq
  exact ⟨p, List.mem_flatMap.2 ⟨mp, hmp, hpm⟩, hpw⟩

theorem planModules_mem_inv (env : Env K) (c : MergeConfig K) : ∀ (l : List (String × OutModule K)) (mods : List (ModulePlan K)),
    planModules env c l = .ok mods → ∀ mp ∈ mods, ∃ e ∈ l, planModule env c e.1 e.2 = .ok mp := by
  intro l
  induction l with
  | nil => intro mods h e he; unfold planModules at h; cases h; cases he
  | cons e0 l ih =>
    intro mods h mp hmp
    obtain ⟨n, d⟩ := e0
    unfold planModules at h
    split at h
    · cases h
    · rename_i p hp
      split at h
      · cases h
      · rename_i ps hps
        cases h
        rcases List.mem_cons.1 hmp with rfl | hmp
        · exact ⟨_, List.mem_cons_self, hp⟩
        · obtain ⟨e, he, h⟩ := ih _ hps mp hmp
          exact ⟨e, by simp [he], h⟩

/-- **C117** A merge configured by modules has weights of the modules named and no others, whatever the architecture needs besides. -/
theorem C117_only_named (env : Env K) (c : MergeConfig K) (ml : List (String × OutModule K)) (hml : c.modules = some ml) (hs : c.slices = none)
    (hm : c.models = none) (mods : List (ModulePlan K)) (hp : plan env c = .ok mods) (p : Planned K)
    (h : p ∈ mods.flatMap ModulePlan.tensors) : ∃ e ∈ ml, ∃ k, p.weight ∈ outWeights env e.1 k := by
  obtain ⟨l, hl, c', hmods⟩ := gives_sections env c (.modules ml hml hs hm) mods hp
  obtain ⟨mp, hmp, hpm⟩ := List.mem_flatMap.1 h
  obtain ⟨e, he, hmod⟩ := planModules_mem_inv env c' l mods hmods mp hmp
  have hsub := (C32_every_weight env c' e.1 e.2 mp hmod).2.subset (List.mem_map.2 ⟨p, hpm, rfl⟩)
  cases hl with
  | models m ms hm' _ => rw [hm] at hm'; cases hm'
  | slices s ss k hs' _ _ => rw [hs] at hs'; cases hs'
  | modules ml' hml' _ _ _ =>
    rw [hml] at hml'
    cases hml'
    obtain ⟨x, hx, rfl⟩ := List.mem_map.1 he
    exact ⟨x, hx, _, hsub⟩

end

/-! ## Concrete cases -/

/-- An architecture with a text and a vision module, one tensor per layer each. -/
def twoEnv : Env ℚ where
  moduleNames := ["text", "vision"]
  outPre := fun _ => []
  outLayer := fun m i => [nm (if m = "text" then 't' else 'v') i]
  outPost := fun _ => []
  inLayer := fun _ m i => [nm (if m = "text" then 't' else 'v') i.toNat]
  numLayers := fun _ _ => 2
  indexNames := fun _ => []
  params := []
  tensorParams := []

/-- Only the text module is configured. -/
def textOnly : MergeConfig ℚ := { modules := some [("text", { models := some [⟨refA, []⟩, ⟨refB, []⟩] })] }

/-- Two models, all modules. -/
def bothModels : MergeConfig ℚ := { models := some [⟨refA, []⟩, ⟨refB, []⟩] }

/-- **C117** is not met: a configuration that names one of the two modules of an architecture is planned without complaint, and no weight of
the other module is among what will be written, although the architecture needs it. -/
theorem C117_module_left_out : ∃ mods, plan twoEnv textOnly = .ok mods ∧ Gives textOnly ∧ "vision" ∈ twoEnv.moduleNames ∧
    ∀ k, ∀ w ∈ outWeights twoEnv "vision" k, w.optional = false ∧ ∀ p ∈ mods.flatMap ModulePlan.tensors, p.weight ≠ w := by
  refine ⟨_, rfl, .modules _ rfl rfl rfl, by decide, ?_⟩
  intro k w hw
  simp only [outWeights, twoEnv, List.nil_append, List.append_nil, List.mem_flatMap, List.mem_singleton] at hw
  obtain ⟨i, _, rfl⟩ := hw
  refine ⟨rfl, ?_⟩
  intro p hp he
  obtain ⟨e, he', j, hj⟩ := C117_only_named twoEnv textOnly _ rfl rfl rfl _ rfl p hp
  rw [List.mem_singleton] at he'
  subst he'
  simp only [outWeights, twoEnv, List.nil_append, List.append_nil, List.mem_flatMap, List.mem_singleton] at hj
  obtain ⟨i', _, hi'⟩ := hj
  rw [he] at hi'
  have := congrArg (fun w => w.name.head?) hi'
  simp [nm] at this

/-- With a list of models both modules are complete. -/
example : ∃ mods, plan twoEnv bothModels = .ok mods ∧ Gives bothModels ∧ (mods.flatMap ModulePlan.tensors).map (·.weight.name) =
    [['t'], ['t', '|'], ['v'], ['v', '|']] ∧
    (∀ ml, bothModels.modules = some ml → bothModels.slices = none → bothModels.models = none → ∀ n ∈ twoEnv.moduleNames, ∃ e ∈ ml, e.1 = n) :=
  ⟨_, rfl, .models _ _ rfl rfl, rfl, fun _ h => by cases h⟩

/-- A module the architecture does not have is refused. -/
example : plan twoEnv { modules := some [("audio", { models := some [⟨refA, []⟩] })] } = .error .unknownModule :=
  ((C29_modules twoEnv { modules := some [("audio", { models := some [⟨refA, []⟩] })] } _ rfl rfl rfl).2 ⟨_, List.mem_cons_self, by decide⟩).2

end Verif.WholeMerge
