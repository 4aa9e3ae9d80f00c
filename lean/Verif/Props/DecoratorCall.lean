import Verif.Props.Decorator
import Verif.Props.Ram

/-! # C114: what a registered function is called with -/

namespace Verif.WholeMerge

open Verif.ModelRef (Str Ref)
open Verif.Plan
open Verif.Config

variable {K M V P : Type} [DecidableEq M]

/-- Whether the function has an argument of this name. -/
def Takes (args : List (Arg K)) (n : Str) : Prop := ∃ a ∈ args, a.name = n

theorem lookup_pair {tensors : List (M × V)} (hn : (tensors.map Prod.fst).Nodup) (m : M) (t : V) : Merge.lookup tensors m = some t ↔ (m, t) ∈ tensors := by
  unfold Merge.lookup
  constructor
  · intro h
    obtain ⟨e, he, rfl⟩ := Option.map_eq_some_iff.1 h
    have h1 := List.find?_some he
    have h2 := List.mem_of_find?_eq_some he
    simp only [decide_eq_true_eq] at h1
    subst h1
    exact h2
  · intro h
    cases he : tensors.find? (fun e => decide (e.1 = m)) with
    | none =>
      rw [List.find?_eq_none] at he
      exact absurd (decide_eq_true rfl) (he _ h)
    | some e =>
      have h1 := List.find?_some he
      have h2 := List.mem_of_find?_eq_some he
      simp only [decide_eq_true_eq] at h1
      rw [Option.map_some, Option.some.injEq]
      have : e = (m, t) := List.inj_on_of_nodup_map hn h2 h (by simpa using h1)
      rw [this]

/-- **C114** What a registered function is called with.  It follows the documentation, the models have their tensors and values of its setting per model, and if its
`base_tensor` is not optional there is a base model with a tensor.  Then it is called, with the tensors and values of the same models in the same order: if it has an
argument `base_tensor`, that is the base model's (if there is one), and the others are in the list; else all models are in the list, the base model first if it has an
argument `base_model`. -/
theorem C114_called (args : List (Arg K)) (hn : (args.map (·.name)).Nodup) (hdoc : ∀ a ∈ args, Documented a) (ht : Takes args "tensors".toList)
    (order : List M) (base : Option M) (tensors : List (M × V)) (param : M → Option P) (hkeys : order.Perm (tensors.map Prod.fst)) (hnodup : (tensors.map Prod.fst).Nodup)
    (hparam : ∀ m ∈ order, (param m).isSome) (hreq : (∃ a ∈ args, a.name = "base_tensor".toList ∧ a.annotation = .tensor) → ∃ b t, base = some b ∧ (b, t) ∈ tensors) :
    ∃ d, register args = .ok d ∧ ∃ ms ts bt ps, Merge.easyExecute d.sig order base tensors param = .ok (ms, ts, bt, ps) ∧
      List.Forall₂ (fun m t => (m, t) ∈ tensors) ms ts ∧ List.Forall₂ (fun m p => param m = some p) ms ps ∧
      (Takes args "base_tensor".toList → (∀ t, bt = some t ↔ ∃ b, base = some b ∧ (b, t) ∈ tensors) ∧
        ms.Perm ((tensors.map Prod.fst).filter (fun m => decide (some m ≠ base)))) ∧
      (¬ Takes args "base_tensor".toList → bt = none ∧ ms.Perm (tensors.map Prod.fst) ∧
        (Takes args "base_model".toList → ∀ b, base = some b → b ∈ tensors.map Prod.fst → ms.head? = some b)) := by
  obtain ⟨d, hd, -, -, hu, hr, -, -⟩ := C114_registers args hn hdoc (by obtain ⟨a, ha, h⟩ := ht; exact List.mem_map.2 ⟨a, ha, h⟩)
  obtain ⟨-, -, hk, -⟩ := register_ok hd
  obtain ⟨ms, ts, bt, ps, h1, h2, h3, h4, h5⟩ := Merge.C48_aligned d.sig order base tensors param hkeys hnodup hparam (by
    intro _ h
    obtain ⟨b, t, hb, hm⟩ := hreq (hr.1 h)
    exact ⟨b, hb, hkeys.mem_iff.2 (List.mem_map.2 ⟨_, hm, rfl⟩)⟩)
  refine ⟨d, hd, ms, ts, bt, ps, h1, h2.imp (fun m t h => (lookup_pair hnodup m t).1 h), h3, ?_, ?_⟩
  · intro h
    obtain ⟨h6, h7⟩ := h4 (hu.2 h)
    refine ⟨?_, h7⟩
    intro t
    rw [h6, Option.bind_eq_some_iff]
    exact exists_congr fun b => and_congr_right fun _ => lookup_pair hnodup b t
  · intro h
    have hf : d.useBase = false := by
      cases hb : d.useBase with
      | false => rfl
      | true => exact absurd (hu.1 hb) h
    obtain ⟨h6, h7, h8⟩ := h5 hf
    refine ⟨h6, h7, fun hb => h8 ?_⟩
    obtain ⟨a, ha, han⟩ := hb
    show decide _ = true
    rw [decide_eq_true_eq, hk]
    refine List.mem_map.2 ⟨a, List.mem_filter.2 ⟨ha, ?_⟩, han⟩
    rw [han]
    decide

/-- **C114** A function whose `base_tensor` is not optional is not called without one. -/
theorem C114_base_required (args : List (Arg K)) (hn : (args.map (·.name)).Nodup) (hdoc : ∀ a ∈ args, Documented a) (ht : Takes args "tensors".toList)
    (hreq : ∃ a ∈ args, a.name = "base_tensor".toList ∧ a.annotation = .tensor) (order : List M) (base : Option M) (tensors : List (M × V)) (param : M → Option P)
    (hnodup : (tensors.map Prod.fst).Nodup) (hno : ∀ b, base = some b → b ∉ tensors.map Prod.fst) :
    ∃ d, register args = .ok d ∧ ∃ e, Merge.easyExecute d.sig order base tensors param = .error e := by
  obtain ⟨d, hd, -, -, hu, hr, -, -⟩ := C114_registers args hn hdoc (by obtain ⟨a, ha, h⟩ := ht; exact List.mem_map.2 ⟨a, ha, h⟩)
  refine ⟨d, hd, ?_⟩
  obtain ⟨a, ha, h1, h2⟩ := hreq
  have h3 : d.sig.useBase = true := hu.2 ⟨a, ha, h1⟩
  have h4 : d.sig.requireBase = true := hr.2 ⟨a, ha, h1, h2⟩
  unfold Merge.easyExecute
  split
  · exact ⟨_, rfl⟩
  · rw [if_pos]
    · exact ⟨_, rfl⟩
    · rw [h3, h4]
      simp only [Bool.and_self, Bool.true_and, Merge.easyBaseTensor, Merge.easyBase, h3, Bool.or_true, if_true, Option.isNone_iff_eq_none]
      rw [Option.bind_eq_none_iff]
      intro b hb
      cases hl : Merge.lookup tensors b with
      | none => rfl
      | some t => exact absurd (List.mem_map.2 ⟨_, (lookup_pair hnodup b t).1 hl, rfl⟩) (hno b hb)

/-- A concrete case: `f(tensors, base_tensor: Optional[Tensor], weight: List[float])`, three models, the second one the base. -/
def optionalArgs : List (Arg ℚ) := [⟨"tensors".toList, .tensors, none⟩, ⟨"base_tensor".toList, .optTensor, some .none⟩, ⟨"weight".toList, .numbers, none⟩]

theorem optional_documented : ∀ a ∈ optionalArgs, Documented a := by
  intro a ha
  simp only [optionalArgs, List.mem_cons, List.not_mem_nil, or_false] at ha
  rcases ha with rfl | rfl | rfl
  · exact ⟨fun _ => rfl, fun h => absurd h (by decide +kernel), fun h => absurd h (by decide +kernel), fun h => absurd h (by decide +kernel)⟩
  · exact ⟨fun h => absurd h (by decide +kernel), fun _ => Or.inr rfl, fun h => absurd h (by decide +kernel), fun h => absurd h (by decide +kernel)⟩
  · exact ⟨fun h => absurd h (by decide +kernel), fun h => absurd h (by decide +kernel), fun _ => Or.inr rfl, fun _ _ x hx => by cases hx⟩

example := C114_called (M := Nat) (V := Nat) (P := Nat) optionalArgs (by simp only [optionalArgs, List.map_cons, List.map_nil]; decide +kernel) optional_documented
  ⟨_, List.mem_cons_self, rfl⟩ [2, 0, 1] (some 1) [(0, 10), (1, 11), (2, 12)] (fun m => some m) (by decide) (by decide) (by simp)
  (by rintro ⟨a, ha, h1, h2⟩; simp only [optionalArgs, List.mem_cons, List.not_mem_nil, or_false] at ha; rcases ha with rfl | rfl | rfl <;> cases h2)

/-- The same with a base tensor that is not optional, and a base model that is not merged. -/
example := C114_base_required (K := ℚ) (M := Nat) (V := Nat) (P := Nat) [⟨"tensors".toList, .tensors, none⟩, ⟨"base_tensor".toList, .tensor, none⟩] (by simp only [List.map_cons, List.map_nil]; decide +kernel)
  (by
    intro a ha
    simp only [List.mem_cons, List.not_mem_nil, or_false] at ha
    rcases ha with rfl | rfl
    · exact ⟨fun _ => rfl, fun h => absurd h (by decide +kernel), fun h => absurd h (by decide +kernel), fun h => absurd h (by decide +kernel)⟩
    · exact ⟨fun h => absurd h (by decide +kernel), fun _ => Or.inl rfl, fun h => absurd h (by decide +kernel), fun h => absurd h (by decide +kernel)⟩)
  ⟨_, List.mem_cons_self, rfl⟩ ⟨_, List.mem_cons_of_mem _ List.mem_cons_self, rfl, rfl⟩ [0] (some 1) [(0, 10)] (fun m => some m) (by decide) (by simp)

end Verif.WholeMerge
