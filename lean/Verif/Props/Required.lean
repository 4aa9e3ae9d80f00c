import Verif.Props.WholeLinear
import Verif.Props.ShippedMerge

/-! # C22: a setting that a method requires and nobody gives makes the merge fail -/

namespace Verif.Plan

open Verif.ModelRef (Str Ref)
open Verif.Config
open Verif.LoadTask (WeightInfo)

variable {K : Type} [Field K] [LinearOrder K] [FloorRing K]

theorem planModules_each (env : Env K) (c : MergeConfig K) : ∀ (l : List (String × OutModule K)) (mods : List (ModulePlan K)),
    planModules env c l = .ok mods → ∀ e ∈ l, ∃ mp, planModule env c e.1 e.2 = .ok mp := by
  intro l
  induction l with
  | nil => intro mods _ e he; cases he
  | cons x l ih =>
    intro mods h e he
    obtain ⟨n, d⟩ := x
    unfold planModules at h
    split at h
    · cases h
    · rename_i p hp
      split at h
      · cases h
      · rename_i ps hps
        rcases List.mem_cons.1 he with rfl | he
        · exact ⟨p, hp⟩
        · exact ih _ hps e he

/-- A planned tensor has all that is required of its inputs. -/
theorem tensor_has {env : Env K} {r : Reader K} {w : WeightInfo} {ins : List (Ref × WeightInfo)} {o : Option (Planned K)} (h : TensorPlan env r w ins o)
    (hw : w.optional = false) {d : ParamDef K} (hd : d ∈ env.tensorParams) {i : Ref × WeightInfo} (hi : i ∈ ins) :
    ∃ v, (r.forTensor i.2.name).parameter d.name (some i.1) d.default (d.required && !decide (some i.1 = r.baseModel)) = .ok v := by
  cases h with
  | skipped hopt => rw [hw] at hopt; cases hopt
  | planned p _ _ _ _ htensor _ =>
    obtain ⟨tp, -, h⟩ := htensor
    have find : ∀ {A B : Type} {R : A → B → Prop} {l : List A} {r : List B}, List.Forall₂ R l r → ∀ a ∈ l, ∃ b, R a b := by
      intro A B R l r h
      induction h with
      | nil => intro a ha; cases ha
      | cons h _ ih =>
        intro a ha
        rcases List.mem_cons.1 ha with rfl | ha
        · exact ⟨_, h⟩
        · exact ih a ha
    obtain ⟨e, -, he⟩ := find h i hi
    obtain ⟨e', -, he'⟩ := find he d hd
    exact ⟨_, he'⟩

/-- **C22** A setting that the method requires for each model, given neither for a model (other than the base model) nor for all, makes the merge fail before anything is written: there is no
plan.  (Whole models; some weight before or after the layers is not optional, as in every shipped architecture.) -/
theorem C22_required_fails (env : Env K) (c : MergeConfig K) (ms : List (InModel K)) (hm : c.models = some ms) (hs : c.slices = none) {n : String} (hn : n ∈ env.moduleNames)
    {w : WeightInfo} (hw : w ∈ env.outPre n ∨ w ∈ env.outPost n) (hopt : w.optional = false) {d : ParamDef K} (hd : d ∈ env.tensorParams) (hreq : d.required = true)
    {m : InModel K} (hin : m ∈ ms) (hb : c.baseModel ≠ some m.model) (hown : ∀ x ∈ ms, x.model = m.model → x.parameters.get d.name = none)
    (hall : c.parameters.get d.name = none) (mods : List (ModulePlan K)) : plan env c ≠ .ok mods := by
  intro hplan
  obtain ⟨m0, ms', rfl⟩ : ∃ m0 ms', ms = m0 :: ms' := by
    cases ms with
    | nil => cases hin
    | cons a b => exact ⟨a, b, rfl⟩
  obtain ⟨c', h1, h2, h3, _, _, h6⟩ := C29_models env c m0 ms' hm hs
  unfold plan at hplan
  rw [h1] at hplan
  simp only [h6, Option.getD_some] at hplan
  obtain ⟨mp, hmod⟩ := planModules_each env c' _ mods hplan _ (List.mem_map.2 ⟨n, hn, rfl⟩)
  obtain ⟨sl, ss, hsl, g⟩ := planModule_ok env c' n _ mp hmod
  simp only [Option.some.injEq, List.cons.injEq] at hsl
  obtain ⟨rfl, rfl⟩ := hsl
  set sources := fullDepth env c.baseModel n (m0 :: ms') with hsrc
  have hfail : ∀ v, ((sliceReader c' (⟨some [⟨sources, none, []⟩], none, []⟩ : OutModule K) ⟨sources, none, []⟩ 0).forTensor w.name).parameter d.name (some m.model) d.default
      (d.required && !decide (some m.model = (sliceReader c' (⟨some [⟨sources, none, []⟩], none, []⟩ : OutModule K) ⟨sources, none, []⟩ 0).baseModel)) ≠ .ok v := by
    intro v hv
    have hbase : (sliceReader c' (⟨some [⟨sources, none, []⟩], none, []⟩ : OutModule K) ⟨sources, none, []⟩ 0).baseModel = c.baseModel := h2
    rw [hbase, decide_eq_false (fun h => hb h.symm), hreq] at hv
    simp only [Bool.not_false, Bool.and_self] at hv
    rw [(C22_no_value _ d.name (some m.model) d.default ?_).1] at hv
    · cases hv
    · intro p hp
      exfalso
      unfold levels at hp
      simp only [Reader.forTensor, sliceReader] at hp
      rw [h3, hall] at hp
      simp only [Params.get, List.find?_nil, Option.map_none, Option.toList_none, List.append_nil] at hp
      obtain ⟨src, hsin, hpar⟩ := List.mem_filterMap.1 hp
      split at hpar
      · rename_i hmm
        rw [hsrc] at hsin
        unfold fullDepth at hsin
        rcases List.mem_append.1 hsin with h | h
        · obtain ⟨x, hx, rfl⟩ := List.mem_map.1 h
          have := hown x hx hmm
          unfold Params.get at this
          simp only at hpar
          rw [this] at hpar
          cases hpar
        · cases hcb : c.baseModel with
          | none => rw [hcb] at h; cases h
          | some b =>
            rw [hcb] at h
            simp only at h
            split at h
            · cases h
            · rw [List.mem_singleton.1 h] at hmm
              simp only at hmm
              exact hb (by rw [hcb, hmm])
      · cases hpar
  have hmem : m.model ∈ sources.map (·.model) := by
    rw [hsrc]
    unfold fullDepth
    rw [List.map_append]
    refine List.mem_append_left _ ?_
    rw [List.map_map]
    exact List.mem_map.2 ⟨m, hin, rfl⟩
  have hzip : (m.model, w) ∈ (sources.map (·.model)).zip (List.replicate sources.length w) := by
    obtain ⟨i, hi⟩ := List.mem_iff_getElem?.1 hmem
    refine List.mem_iff_getElem?.2 ⟨i, ?_⟩
    rw [List.getElem?_zip_eq_some]
    refine ⟨hi, ?_⟩
    have := (List.getElem?_eq_some_iff.1 hi).1
    rw [List.length_map] at this
    rw [List.getElem?_replicate, if_pos this]
  have find : ∀ {A B : Type} {R : A → B → Prop} {l : List A} {r : List B}, List.Forall₂ R l r → ∀ a ∈ l, ∃ b, R a b := by
    intro A B R l r h
    induction h with
    | nil => intro a ha; cases ha
    | cons h _ ih =>
      intro a ha
      rcases List.mem_cons.1 ha with rfl | ha
      · exact ⟨_, h⟩
      · exact ih a ha
  rcases hw with hw | hw
  · obtain ⟨o, ho⟩ := find g.pre w hw
    obtain ⟨v, hv⟩ := tensor_has ho hopt hd hzip
    exact hfail v hv
  · obtain ⟨o, ho⟩ := find g.post w hw
    obtain ⟨v, hv⟩ := tensor_has ho hopt hd hzip
    exact hfail v hv

/-- All hypotheses are met: a method that requires a weight of each model, two models without. -/
example (mods : List (ModulePlan ℚ)) :
    plan (Shipped.llama.env) { models := some [⟨⟨⟨"a".toList, none⟩, none, none⟩, []⟩, ⟨⟨⟨"b".toList, none⟩, none, none⟩, []⟩] } ≠ .ok mods := by
  obtain ⟨v, hv, hopt⟩ : ∃ v ∈ Shipped.llama.env.outPre "default", v.optional = false := by decide +kernel
  exact C22_required_fails Shipped.llama.env _ _ rfl rfl (n := "default") (by decide +kernel) (Or.inl hv) hopt (d := ⟨"weight".toList, true, none⟩) (List.mem_singleton.2 rfl) rfl
    List.mem_cons_self (by simp) (by
      intro x hx _
      simp only [List.mem_cons, List.not_mem_nil, or_false] at hx
      rcases hx with rfl | rfl <;> rfl) rfl mods

end Verif.Plan
