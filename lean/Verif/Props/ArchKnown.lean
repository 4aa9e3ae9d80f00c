import Verif.Model.ArchKnown
import Verif.Props.Infer
import Mathlib.Data.List.Perm.Basic

/-! # C90: which shipped definition a model gets -/

namespace Verif.Infer

open Verif.ModelRef (Str)
open Verif.Arch (Module)
open Verif.Arch.Data (known pythonKnown)

variable {A : Type}

/-- Definitions that share a name have different model types. -/
def TypesDiffer (l : List (List Str × Str × A)) : Prop :=
  l.Pairwise (fun d e => ∀ n, n ∈ d.1 → n ∈ e.1 → d.2.1 ≠ e.2.1)

theorem TypesDiffer.perm {l l' : List (List Str × Str × A)} (h : TypesDiffer l) (hp : l.Perm l') : TypesDiffer l' := by
  unfold TypesDiffer at h ⊢
  refine (hp.pairwise_iff ?_).1 h
  intro d e hde n hn hm he
  exact hde n hm hn he.symm

theorem find_type {l : List (List Str × Str × A)} (h : TypesDiffer l) {d : List Str × Str × A} (hd : d ∈ l) {name : Str} (hn : name ∈ d.1) :
    ((l.filter (fun d => name ∈ d.1)).map (fun d => d.2)).find? (fun c => c.1 == d.2.1) = some d.2 := by
  induction l with
  | nil => cases hd
  | cons e l ih =>
    have hpw := List.pairwise_cons.1 h
    by_cases he : name ∈ e.1
    · rw [List.filter_cons_of_pos (by simpa using he), List.map_cons, List.find?_cons]
      rcases List.mem_cons.1 hd with rfl | hd'
      · simp
      · have hne := hpw.1 d hd' name he hn
        have : (e.2.1 == d.2.1) = false := by simpa using hne
        rw [this]
        exact ih hpw.2 hd'
    · rw [List.filter_cons_of_neg (by simpa using he)]
      rcases List.mem_cons.1 hd with rfl | hd'
      · exact absurd hn he
      · exact ih hpw.2 hd'

/-- C90: whatever the order in which the definitions were read, a model gets the one that has its architecture's name and its model type. -/
theorem C90_named (python : Str → Option (ModelInfo → A)) (l : List (List Str × Str × A)) (h : TypesDiffer l) (d : List Str × Str × A) (hd : d ∈ l)
    (name : Str) (hn : name ∈ d.1) (hp : python name = none) :
    archFor { python := python, json := l } { architectures := [name], modelType := d.2.1 } = .ok (some d.2.2) := by
  have hf := find_type h hd hn
  unfold archFor
  simp only [hp]
  generalize hc : Known.candidates { python := python, json := l } name = cs
  have hc' : (l.filter (fun d => name ∈ d.1)).map (fun d => d.2) = cs := hc
  rw [hc'] at hf
  split
  · rename_i c
    rw [List.find?_singleton] at hf
    split at hf
    · cases hf; rfl
    · cases hf
  · rw [hf]
    rfl

/-- Names and model types of the shipped definitions, as pairs. -/
def pairs (l : List (List Str × Str × A)) : List (Str × Str) := l.flatMap (fun d => d.1.map (fun n => (n, d.2.1)))

theorem typesDiffer_of_pairs {l : List (List Str × Str × A)} (h : (pairs l).Nodup) : TypesDiffer l := by
  unfold pairs at h
  rw [List.nodup_flatMap] at h
  refine h.2.imp ?_
  intro d e hde n hn hm heq
  exact hde (List.mem_map.2 ⟨n, hn, rfl⟩) (List.mem_map.2 ⟨n, hm, by rw [heq]⟩)

theorem known_pairs : (pairs known).Nodup := by decide +kernel

/-- C90: for the definitions shipped, in whatever order they are read: a model whose configuration has a name and the model type of one of them
gets that one, unless the name belongs to one of the two that are written in python. -/
theorem C90_shipped (afmoe glm4 : ModelInfo → List Module) (l : List (List Str × Str × List Module)) (hl : l.Perm known)
    (d : List Str × Str × List Module) (hd : d ∈ known) (name : Str) (hn : name ∈ d.1) (hp : name ≠ cs!"Glm4MoeForCausalLM") :
    archFor { python := pythonKnown afmoe glm4, json := l } { architectures := [name], modelType := d.2.1 } = .ok (some d.2.2) := by
  refine C90_named _ l ((typesDiffer_of_pairs known_pairs).perm hl.symm) d (hl.symm.subset hd) name hn ?_
  unfold pythonKnown
  have hname : name ≠ cs!"AfmoeForCausalLM" := by
    rintro rfl
    have hall : known.all (fun d => decide (cs!"AfmoeForCausalLM" ∉ d.1)) = true := by decide +kernel
    have := List.all_eq_true.1 hall d hd
    simp only [decide_eq_true_eq] at this
    exact this hn
  rw [if_neg hname, if_neg hp]

/-- C90: only for Phi the model type matters: every other name belongs to one definition. -/
theorem C90_shipped_once (afmoe glm4 : ModelInfo → List Module) (l : List (List Str × Str × List Module)) (hl : l.Perm known)
    (d : List Str × Str × List Module) (hd : d ∈ known) (name : Str) (hn : name ∈ d.1) (hp : name ≠ cs!"Glm4MoeForCausalLM")
    (hphi : name ≠ cs!"PhiForCausalLM") (modelType : Str) :
    archFor { python := pythonKnown afmoe glm4, json := l } { architectures := [name], modelType := modelType } = .ok (some d.2.2) := by
  have hpy : pythonKnown afmoe glm4 name = none := by
    unfold pythonKnown
    have hname : name ≠ cs!"AfmoeForCausalLM" := by
      rintro rfl
      have hall : known.all (fun d => decide (cs!"AfmoeForCausalLM" ∉ d.1)) = true := by decide +kernel
      have := List.all_eq_true.1 hall d hd
      simp only [decide_eq_true_eq] at this
      exact this hn
    rw [if_neg hname, if_neg hp]
  have hnames : (known.flatMap (fun d => d.1.filter (fun n => decide (n ≠ cs!"PhiForCausalLM")))).Nodup := by decide +kernel
  rw [List.nodup_flatMap] at hnames
  have hone : known.Pairwise (fun d e => ∀ n, n ∈ d.1 → n ∈ e.1 → n = cs!"PhiForCausalLM") := by
    refine hnames.2.imp ?_
    intro d e hde n hn hm
    by_contra hne
    exact hde (List.mem_filter.2 ⟨hn, by simpa using hne⟩) (List.mem_filter.2 ⟨hm, by simpa using hne⟩)
  have hone' : l.Pairwise (fun d e => ∀ n, n ∈ d.1 → n ∈ e.1 → n = cs!"PhiForCausalLM") := by
    refine (hl.pairwise_iff ?_).2 hone
    intro d e hde n hn hm
    exact hde n hm hn
  have hd' := hl.symm.subset hd
  -- exactly one entry has the name
  obtain ⟨a, b, rfl⟩ := List.append_of_mem hd'
  rw [List.pairwise_append] at hone'
  obtain ⟨ha, hb, hab⟩ := hone'
  rw [List.pairwise_cons] at hb
  have h1 : a.filter (fun d => decide (name ∈ d.1)) = [] := by
    rw [List.filter_eq_nil_iff]
    intro e he
    simp only [decide_eq_true_eq]
    intro hne
    exact hphi (hab e he d List.mem_cons_self name hne hn)
  have h2 : b.filter (fun d => decide (name ∈ d.1)) = [] := by
    rw [List.filter_eq_nil_iff]
    intro e he
    simp only [decide_eq_true_eq]
    intro hne
    exact hphi (hb.1 e he name hn hne)
  unfold archFor Known.candidates
  simp only [hpy, List.filter_append, h1, List.filter_cons, hn, decide_true, if_true, h2]
  rfl

/-- C90: models of the two architectures defined in python get that definition, made from their own configuration, whatever their model type and the data files say. -/
theorem C90_python (afmoe glm4 : ModelInfo → List Module) (l : List (List Str × Str × List Module)) (modelType : Str) :
    archFor { python := pythonKnown afmoe glm4, json := l } { architectures := [cs!"AfmoeForCausalLM"], modelType := modelType } =
      .ok (some (afmoe { architectures := [cs!"AfmoeForCausalLM"], modelType := modelType })) ∧
    archFor { python := pythonKnown afmoe glm4, json := l } { architectures := [cs!"Glm4MoeForCausalLM"], modelType := modelType } =
      .ok (some (glm4 { architectures := [cs!"Glm4MoeForCausalLM"], modelType := modelType })) := by
  have h1 : pythonKnown afmoe glm4 cs!"AfmoeForCausalLM" = some afmoe := if_pos rfl
  have h2 : pythonKnown afmoe glm4 cs!"Glm4MoeForCausalLM" = some glm4 := by
    unfold pythonKnown
    rw [if_neg (by decide), if_pos rfl]
  unfold archFor
  simp only [h1, h2]
  exact ⟨trivial, trivial⟩

/-- C90: a Phi model gets the old or the new definition by its model type, and with another model type none. -/
theorem C90_phi (afmoe glm4 : ModelInfo → List Module) (l : List (List Str × Str × List Module)) (hl : l.Perm known) :
    archFor { python := pythonKnown afmoe glm4, json := l } { architectures := [cs!"PhiForCausalLM"], modelType := cs!"phi" } = .ok (some Verif.Arch.Data.phi2) ∧
    archFor { python := pythonKnown afmoe glm4, json := l } { architectures := [cs!"PhiForCausalLM"], modelType := cs!"phi-msft" } =
      .ok (some Verif.Arch.Data.phi2_old) ∧
    ∀ t, t ≠ cs!"phi" → t ≠ cs!"phi-msft" →
      archFor { python := pythonKnown afmoe glm4, json := l } { architectures := [cs!"PhiForCausalLM"], modelType := t } = .ok none := by
  refine ⟨?_, ?_, ?_⟩
  · exact C90_shipped afmoe glm4 l hl ([cs!"PhiForCausalLM"], cs!"phi", Verif.Arch.Data.phi2) (by unfold known; simp) _ (by simp) (by decide)
  · exact C90_shipped afmoe glm4 l hl ([cs!"PhiForCausalLM"], cs!"phi-msft", Verif.Arch.Data.phi2_old) (by unfold known; simp) _ (by simp) (by decide)
  · intro t h1 h2
    have hperm : ((l.filter (fun d => decide (cs!"PhiForCausalLM" ∈ d.1))).map (fun d => d.2)).Perm
        ((known.filter (fun d => decide (cs!"PhiForCausalLM" ∈ d.1))).map (fun d => d.2)) := (hl.filter _).map _
    have htypes : ((known.filter (fun d => decide (cs!"PhiForCausalLM" ∈ d.1))).map (fun d => d.2.1)) = [cs!"phi-msft", cs!"phi"] := by decide +kernel
    have hlen := hperm.length_eq
    have hlen2 := congrArg List.length htypes
    simp only [List.length_map, List.length_cons, List.length_nil] at hlen hlen2
    unfold archFor Known.candidates
    have hpy : pythonKnown afmoe glm4 cs!"PhiForCausalLM" = none := by
      unfold pythonKnown
      rw [if_neg (by decide), if_neg (by decide)]
    simp only [hpy]
    have hnone : ((l.filter (fun d => decide (cs!"PhiForCausalLM" ∈ d.1))).map (fun d => d.2)).find? (fun c => c.1 == t) = none := by
      rw [List.find?_eq_none]
      intro c hc
      have hc' := hperm.subset hc
      have : c.1 ∈ ((known.filter (fun d => decide (cs!"PhiForCausalLM" ∈ d.1))).map (fun d => d.2.1)) := by
        obtain ⟨d, hd, rfl⟩ := List.mem_map.1 hc'
        exact List.mem_map.2 ⟨d, hd, rfl⟩
      rw [htypes] at this
      simp only [List.mem_cons, List.not_mem_nil, or_false] at this
      rcases this with h | h <;> rw [h] <;> simp <;> intro h' <;> simp_all
    split
    · rename_i c heq
      have := congrArg List.length heq
      simp only [List.length_map, List.length_singleton] at this
      omega
    · rw [hnone]
      rfl

/-- The hypotheses are met: two models, with the files read in reverse order. -/
example : archFor { python := pythonKnown (fun _ => []) (fun _ => []), json := known.reverse } { architectures := [cs!"MixtralForCausalLM"], modelType := cs!"mixtral" } =
    .ok (some Verif.Arch.Data.mixtral) :=
  C90_shipped _ _ _ (List.reverse_perm _) ([cs!"MixtralForCausalLM"], cs!"mixtral", Verif.Arch.Data.mixtral) (by unfold known; simp) _ (by simp) (by decide)

end Verif.Infer
