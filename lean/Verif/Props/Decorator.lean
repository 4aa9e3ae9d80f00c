import Verif.Model.Registry

/-! # C114: registering a merge method with the decorator -/

namespace Verif.WholeMerge

open Verif.ModelRef (Str Ref)
open Verif.Plan
open Verif.Config

section
variable {K : Type}

/-! ## Specification -/

/-- The names that stand for something the program provides by itself. -/
def providedNames : List Str := ["tensors".toList, "base_tensor".toList, "output_weight".toList, "base_model".toList]

/-- An argument for a setting of the whole merge. -/
def isGlobal (a : Arg K) : Bool := decide (a.name ∉ providedNames ∧ a.annotation = .scalar)

/-- An argument for settings per model. -/
def isPerModel (a : Arg K) : Bool := decide (a.name ∉ providedNames ∧ a.annotation = .numbers)

/-- What the documentation asks of an argument: `tensors` is a list of tensors, `base_tensor` a tensor that may be optional, every other one has
an annotation as a number, a truth value or a list of numbers; the default of a list, if there is one, is a single number. -/
structure Documented (a : Arg K) : Prop where
  tensors : a.name = "tensors".toList → a.annotation = .tensors
  base : a.name = "base_tensor".toList → a.annotation = .tensor ∨ a.annotation = .optTensor
  setting : a.name ∉ providedNames → a.annotation = .scalar ∨ a.annotation = .numbers
  default : a.name ∉ providedNames → a.annotation = .numbers → ∀ x, a.default = some x → ∃ n, x = .number n

/-- The parameter of the configuration that belongs to an argument: required if the argument has no default; else with that default. -/
def configured (a : Arg K) : ParamDef K :=
  ⟨a.name, decide (a.default = none), match a.default with
    | some (.number x) => some (.num x)
    | _ => none⟩

/-! ## Lemmas -/

/-- An argument that the loop refuses. -/
def refuses (a : Arg K) : Bool :=
  decide (a.name ∉ providedNames) && (decide (a.annotation = .none) ||
    (decide (a.annotation = .numbers) && match a.default with
      | some .none => true
      | some .other => true
      | _ => false))

theorem configured_eq (a : Arg K) : (⟨a.name, a.default.isNone, a.default.bind Default.value⟩ : ParamDef K) = configured a := by
  unfold configured
  rcases a.default with _ | (_ | _ | _) <;> rfl

theorem provided_split (n : Str) : n ∈ providedNames ↔ (n = "base_tensor".toList ∨ n = "tensors".toList) ∨ n ∈ standardKwargs := by
  unfold providedNames standardKwargs
  simp only [List.mem_cons, List.not_mem_nil, or_false]
  constructor
  · rintro (h | h | h | h)
    · exact Or.inl (Or.inr h)
    · exact Or.inl (Or.inl h)
    · exact Or.inr (Or.inl h)
    · exact Or.inr (Or.inr h)
  · rintro ((h | h) | (h | h))
    · exact Or.inr (Or.inl h)
    · exact Or.inl h
    · exact Or.inr (Or.inr (Or.inl h))
    · exact Or.inr (Or.inr (Or.inr h))

theorem standard_apart {n : Str} (h : n ∈ standardKwargs) : ¬ (n = "base_tensor".toList ∨ n = "tensors".toList) := by
  unfold standardKwargs at h
  simp only [List.mem_cons, List.not_mem_nil, or_false] at h
  rcases h with rfl | rfl <;> decide +kernel

/-- What the loop gives. -/
theorem registerArgs_eq (args : List (Arg K)) (d : Decorated K) :
    (args.any refuses = true → ∃ e, registerArgs args d = .error e) ∧
    (args.any refuses = false → registerArgs args d = .ok { d with
      usedKwargs := d.usedKwargs ++ (args.filter (fun a => decide (a.name ∈ standardKwargs))).map (·.name)
      params := d.params ++ (args.filter isGlobal).map configured
      tensorParams := d.tensorParams ++ (args.filter isPerModel).map configured }) := by
  induction args generalizing d with
  | nil => exact ⟨fun h => by simp at h, fun _ => by simp [registerArgs]⟩
  | cons a args ih =>
    rw [registerArgs, List.any_cons]
    by_cases h1 : a.name = "base_tensor".toList ∨ a.name = "tensors".toList
    · have hp : a.name ∈ providedNames := (provided_split _).2 (Or.inl h1)
      have hs : a.name ∉ standardKwargs := fun h => standard_apart h h1
      rw [if_pos h1, show refuses a = false by simp [refuses, hp], Bool.false_or]
      refine ⟨(ih d).1, fun h => ?_⟩
      rw [(ih d).2 h]
      simp [isGlobal, isPerModel, hp, hs]
    · rw [if_neg h1]
      by_cases h2 : a.name ∈ standardKwargs
      · have hp : a.name ∈ providedNames := (provided_split _).2 (Or.inr h2)
        rw [if_pos h2, show refuses a = false by simp [refuses, hp], Bool.false_or]
        refine ⟨(ih _).1, fun h => ?_⟩
        rw [(ih _).2 h]
        simp [isGlobal, isPerModel, hp, h2]
      · have hp : a.name ∉ providedNames := fun h => by
          rcases (provided_split _).1 h with h | h
          · exact h1 h
          · exact h2 h
        rw [if_neg h2]
        cases ha : a.annotation with
        | none =>
          refine ⟨fun _ => ⟨_, rfl⟩, fun h => ?_⟩
          simp [refuses, hp, ha] at h
        | scalar =>
          simp only
          rw [show refuses a = false by simp [refuses, ha], Bool.false_or, configured_eq]
          refine ⟨(ih _).1, fun h => ?_⟩
          rw [(ih _).2 h]
          simp [isGlobal, isPerModel, hp, h2, ha]
        | numbers =>
          simp only
          have hcase : (∃ e, a.default = some e ∧ (e = .none ∨ e = .other)) ∨ (a.default = none ∨ ∃ x, a.default = some (.number x)) := by
            rcases a.default with _ | (x | _ | _)
            · exact Or.inr (Or.inl rfl)
            · exact Or.inr (Or.inr ⟨x, rfl⟩)
            · exact Or.inl ⟨_, rfl, Or.inl rfl⟩
            · exact Or.inl ⟨_, rfl, Or.inr rfl⟩
          rcases hcase with ⟨e, he, hor⟩ | hok
          · have hr : refuses a = true := by
              rcases hor with rfl | rfl <;> simp [refuses, hp, ha, he]
            rw [hr, he]
            refine ⟨fun _ => ?_, fun h => by simp at h⟩
            rcases hor with rfl | rfl <;> exact ⟨_, rfl⟩
          · have hr : refuses a = false := by
              rcases hok with h | ⟨x, h⟩ <;> simp [refuses, hp, ha, h]
            have hconf : ∀ y, a.default = y → (⟨a.name, y.isNone, y.bind Default.value⟩ : ParamDef K) = configured a := by
              rintro y rfl
              exact configured_eq a
            rcases hok with h | ⟨x, h⟩
            · have hc := hconf _ h
              rw [h]
              simp only
              rw [hc, hr, Bool.false_or]
              refine ⟨(ih _).1, fun h => ?_⟩
              rw [(ih _).2 h]
              simp [isGlobal, isPerModel, hp, h2, ha]
            · have hc := hconf _ h
              rw [h]
              simp only
              rw [hc, hr, Bool.false_or]
              refine ⟨(ih _).1, fun h => ?_⟩
              rw [(ih _).2 h]
              simp [isGlobal, isPerModel, hp, h2, ha]
        | missing =>
          simp only
          rw [show refuses a = false by simp [refuses, ha], Bool.false_or]
          refine ⟨(ih _).1, fun h => ?_⟩
          rw [(ih _).2 h]
          simp [isGlobal, isPerModel, h2, ha]
        | tensors =>
          simp only
          rw [show refuses a = false by simp [refuses, ha], Bool.false_or]
          refine ⟨(ih _).1, fun h => ?_⟩
          rw [(ih _).2 h]
          simp [isGlobal, isPerModel, h2, ha]
        | tensor =>
          simp only
          rw [show refuses a = false by simp [refuses, ha], Bool.false_or]
          refine ⟨(ih _).1, fun h => ?_⟩
          rw [(ih _).2 h]
          simp [isGlobal, isPerModel, h2, ha]
        | optTensor =>
          simp only
          rw [show refuses a = false by simp [refuses, ha], Bool.false_or]
          refine ⟨(ih _).1, fun h => ?_⟩
          rw [(ih _).2 h]
          simp [isGlobal, isPerModel, h2, ha]
        | other =>
          simp only
          rw [show refuses a = false by simp [refuses, ha], Bool.false_or]
          refine ⟨(ih _).1, fun h => ?_⟩
          rw [(ih _).2 h]
          simp [isGlobal, isPerModel, h2, ha]

theorem find_named {args : List (Arg K)} (hn : (args.map (·.name)).Nodup) {a : Arg K} (ha : a ∈ args) :
    args.find? (fun x => decide (x.name = a.name)) = some a := by
  induction args with
  | nil => cases ha
  | cons b args ih =>
    rw [List.map_cons, List.nodup_cons] at hn
    rcases List.mem_cons.1 ha with rfl | ha
    · simp
    · rw [List.find?_cons_of_neg, ih hn.2 ha]
      simp only [decide_eq_true_eq]
      intro h
      exact hn.1 (List.mem_map.2 ⟨a, ha, h.symm⟩)

theorem find_none {args : List (Arg K)} {n : Str} (h : ∀ a ∈ args, a.name ≠ n) : args.find? (fun x => decide (x.name = n)) = none := by
  rw [List.find?_eq_none]
  intro a ha
  simpa using h a ha

theorem found_name {args : List (Arg K)} {n : Str} {a : Arg K} (h : args.find? (fun x => decide (x.name = n)) = some a) : a.name = n := by
  have := List.find?_some h
  exact of_decide_eq_true this

/-- What is registered, given what the beginning found. -/
theorem register_ok {args : List (Arg K)} {d : Decorated K} (h : register args = .ok d) :
    (∃ t ∈ args, t.name = "tensors".toList ∧ t.annotation = .tensors) ∧ args.any refuses = false ∧
    d.usedKwargs = (args.filter (fun a => decide (a.name ∈ standardKwargs))).map (·.name) ∧ d.params = (args.filter isGlobal).map configured ∧
    d.tensorParams = (args.filter isPerModel).map configured ∧
    ((d.useBase = false ∧ d.requireBase = false ∧ ∀ a ∈ args, a.name ≠ "base_tensor".toList) ∨
     (d.useBase = true ∧ ∃ b ∈ args, b.name = "base_tensor".toList ∧
      ((b.annotation = .tensor ∧ d.requireBase = true) ∨ (b.annotation = .optTensor ∧ d.requireBase = false)))) := by
  unfold register at h
  cases ht : args.find? (fun a => decide (a.name = "tensors".toList)) with
  | none => rw [ht] at h; simp at h
  | some t =>
    rw [ht] at h
    simp only at h
    by_cases hta : t.annotation = .tensors
    · rw [if_neg (by simpa using hta)] at h
      have htm := List.mem_of_find?_eq_some ht
      have htn : t.name = "tensors".toList := found_name ht
      refine ⟨⟨t, htm, htn, hta⟩, ?_⟩
      have hrun : ∀ d0 : Decorated K, registerArgs args d0 = .ok d → args.any refuses = false ∧ d = { d0 with
          usedKwargs := d0.usedKwargs ++ (args.filter (fun a => decide (a.name ∈ standardKwargs))).map (·.name)
          params := d0.params ++ (args.filter isGlobal).map configured
          tensorParams := d0.tensorParams ++ (args.filter isPerModel).map configured } := by
        intro d0 hd0
        cases hr : args.any refuses with
        | true =>
          obtain ⟨e, he⟩ := (registerArgs_eq args d0).1 hr
          rw [he] at hd0
          cases hd0
        | false =>
          rw [(registerArgs_eq args d0).2 hr, Except.ok.injEq] at hd0
          exact ⟨rfl, hd0.symm⟩
      cases hb : args.find? (fun a => decide (a.name = "base_tensor".toList)) with
      | none =>
        rw [hb] at h
        obtain ⟨hr, rfl⟩ := hrun _ h
        refine ⟨hr, by simp, by simp, by simp, Or.inl ⟨rfl, rfl, ?_⟩⟩
        intro a ha
        exact of_decide_eq_false (Bool.eq_false_iff.2 (List.find?_eq_none.1 hb a ha))
      | some b =>
        rw [hb] at h
        have hbm := List.mem_of_find?_eq_some hb
        have hbn : b.name = "base_tensor".toList := found_name hb
        simp only at h
        cases hba : b.annotation with
        | tensor =>
          rw [hba] at h
          obtain ⟨hr, rfl⟩ := hrun _ h
          exact ⟨hr, by simp, by simp, by simp, Or.inr ⟨rfl, b, hbm, hbn, Or.inl ⟨hba, rfl⟩⟩⟩
        | optTensor =>
          rw [hba] at h
          obtain ⟨hr, rfl⟩ := hrun _ h
          exact ⟨hr, by simp, by simp, by simp, Or.inr ⟨rfl, b, hbm, hbn, Or.inr ⟨hba, rfl⟩⟩⟩
        | _ => rw [hba] at h; cases h
    · rw [if_pos hta] at h
      cases h

/-- When a function is registered. -/
theorem register_accepts {args : List (Arg K)} (hn : (args.map (·.name)).Nodup) (t : Arg K) (ht : t ∈ args) (htn : t.name = "tensors".toList)
    (hta : t.annotation = .tensors) (hb : ∀ b ∈ args, b.name = "base_tensor".toList → b.annotation = .tensor ∨ b.annotation = .optTensor)
    (hr : args.any refuses = false) : ∃ d, register args = .ok d := by
  unfold register
  have h1 := find_named hn ht
  rw [htn] at h1
  rw [h1]
  simp only
  rw [if_neg (by simpa using hta)]
  cases hbf : args.find? (fun a => decide (a.name = "base_tensor".toList)) with
  | none => exact ⟨_, (registerArgs_eq args _).2 hr⟩
  | some b =>
    simp only
    rcases hb b (List.mem_of_find?_eq_some hbf) (found_name hbf) with h | h
    · rw [h]; exact ⟨_, (registerArgs_eq args _).2 hr⟩
    · rw [h]; exact ⟨_, (registerArgs_eq args _).2 hr⟩

/-- An argument that is passed. -/
def understood (a : Arg K) : Bool := decide (a.name ∈ providedNames) || isGlobal a || isPerModel a

theorem mem_passed {args : List (Arg K)} {d : Decorated K} (h : register args = .ok d) (n : Str) :
    n ∈ d.passed ↔ ∃ a ∈ args, a.name = n ∧ understood a = true := by
  obtain ⟨⟨t, ht, htn, _⟩, _, hk, hp, htp, hbase⟩ := register_ok h
  unfold Decorated.passed
  rw [hk, hp, htp]
  simp only [List.mem_append, List.mem_singleton, List.map_map, List.mem_map, List.mem_filter, Function.comp_apply]
  have hu : ∀ a : Arg K, a.name ∈ providedNames → understood a = true := fun a ha => by simp [understood, ha]
  constructor
  · rintro ((((rfl | ⟨a, ⟨ha, hs⟩, rfl⟩) | hb) | ⟨a, ⟨ha, hs⟩, rfl⟩) | ⟨a, ⟨ha, hs⟩, rfl⟩)
    · exact ⟨t, ht, htn, hu t (by rw [htn]; exact (provided_split _).2 (Or.inl (Or.inr rfl)))⟩
    · exact ⟨a, ha, rfl, hu a ((provided_split _).2 (Or.inr (by simpa using hs)))⟩
    · rcases hbase with ⟨h1, _⟩ | ⟨h1, b, hbm, hbn, _⟩
      · rw [h1] at hb; simp at hb
      · rw [h1] at hb
        simp only [if_true, List.mem_singleton] at hb
        subst hb
        exact ⟨b, hbm, hbn, hu b (by rw [hbn]; exact (provided_split _).2 (Or.inl (Or.inl rfl)))⟩
    · exact ⟨a, ha, rfl, by simp [understood, hs]⟩
    · exact ⟨a, ha, rfl, by simp [understood, hs]⟩
  · rintro ⟨a, ha, rfl, hund⟩
    unfold understood at hund
    rw [Bool.or_eq_true, Bool.or_eq_true, decide_eq_true_eq] at hund
    rcases hund with (hs | hs) | hs
    · rcases (provided_split _).1 hs with (hs | hs) | hs
      · rcases hbase with ⟨_, _, h1⟩ | ⟨h1, _⟩
        · exact absurd hs (h1 a ha)
        · exact Or.inl (Or.inl (Or.inr (by rw [h1, hs]; simp)))
      · exact Or.inl (Or.inl (Or.inl (Or.inl hs)))
      · exact Or.inl (Or.inl (Or.inl (Or.inr ⟨a, ⟨ha, by simpa using hs⟩, rfl⟩)))
    · exact Or.inl (Or.inr ⟨a, ⟨ha, hs⟩, rfl⟩)
    · exact Or.inr ⟨a, ⟨ha, hs⟩, rfl⟩

theorem callable_iff {args : List (Arg K)} {d : Decorated K} (h : register args = .ok d) (hn : (args.map (·.name)).Nodup) :
    callable args d.passed = true ↔ ∀ a ∈ args, understood a = false → a.default ≠ none := by
  unfold callable
  rw [Bool.and_eq_true, List.all_eq_true, List.all_eq_true]
  constructor
  · rintro ⟨_, h2⟩ a ha hu hd
    have := h2 a ha
    rw [hd] at this
    simp only [Option.isSome_none, Bool.false_or, decide_eq_true_eq] at this
    obtain ⟨b, hb, hbn, hbu⟩ := (mem_passed h _).1 this
    have hab : b = a := by
      have h1 := find_named hn hb
      rw [hbn, find_named hn ha] at h1
      exact (Option.some.inj h1).symm
    rw [hab, hu] at hbu
    cases hbu
  · intro hall
    constructor
    · intro n hn'
      obtain ⟨a, ha, rfl, _⟩ := (mem_passed h n).1 hn'
      simpa using ⟨a, ha, rfl⟩
    · intro a ha
      cases hu : understood a with
      | true => simp [(mem_passed h a.name).2 ⟨a, ha, rfl, hu⟩]
      | false =>
        cases hd : a.default with
        | none => exact absurd hd (hall a ha hu)
        | some _ => rfl

theorem documented_fine {args : List (Arg K)} (hdoc : ∀ a ∈ args, Documented a) : args.any refuses = false := by
  rw [List.any_eq_false]
  intro a ha hr
  unfold refuses at hr
  rw [Bool.and_eq_true, Bool.or_eq_true, Bool.and_eq_true] at hr
  obtain ⟨hp, hr⟩ := hr
  have hp : a.name ∉ providedNames := by simpa using hp
  have hs := (hdoc a ha).setting hp
  rcases hr with hr | ⟨hr, hd⟩
  · rw [decide_eq_true_eq] at hr
    rw [hr] at hs
    rcases hs with hs | hs <;> cases hs
  · cases hx : a.default with
    | none => rw [hx] at hd; simp at hd
    | some x =>
      obtain ⟨n, rfl⟩ := (hdoc a ha).default hp (by simpa using hr) x hx
      rw [hx] at hd
      simp at hd

theorem documented_understood {a : Arg K} (h : Documented a) : understood a = true := by
  unfold understood isGlobal isPerModel
  by_cases hp : a.name ∈ providedNames
  · simp [hp]
  · rcases h.setting hp with h | h <;> simp [hp, h]

/-! ## C114 -/

/-- **C114** A function that has an argument `tensors` and whose arguments are as the documentation asks is registered; the parameters of the
method are its arguments that are annotated as numbers or truth values (settings of the whole merge) or lists of numbers (settings per model), in
the order of the function, required exactly if they have no default; it gets the base model's tensor exactly if it has an argument `base_tensor`,
and must have it exactly if that is not optional.  It is called with all of its arguments and no others, so the call is accepted. -/
theorem C114_registers (args : List (Arg K)) (hn : (args.map (·.name)).Nodup) (hdoc : ∀ a ∈ args, Documented a)
    (ht : "tensors".toList ∈ args.map (·.name)) :
    ∃ d, register args = .ok d ∧ d.params = (args.filter isGlobal).map configured ∧ d.tensorParams = (args.filter isPerModel).map configured ∧
      (d.useBase = true ↔ ∃ a ∈ args, a.name = "base_tensor".toList) ∧
      (d.requireBase = true ↔ ∃ a ∈ args, a.name = "base_tensor".toList ∧ a.annotation = .tensor) ∧
      (∀ n, n ∈ d.passed ↔ ∃ a ∈ args, a.name = n) ∧ callable args d.passed = true := by
  obtain ⟨t, htm, htn⟩ := List.mem_map.1 ht
  obtain ⟨d, hd⟩ := register_accepts hn t htm htn ((hdoc t htm).tensors htn) (fun b hb => (hdoc b hb).base) (documented_fine hdoc)
  obtain ⟨_, _, _, hp, htp, hbase⟩ := register_ok hd
  refine ⟨d, hd, hp, htp, ?_, ?_, ?_, ?_⟩
  · rcases hbase with ⟨h1, _, h3⟩ | ⟨h1, b, hb, hbn, _⟩
    · rw [h1]
      exact ⟨fun h => (by cases h), fun ⟨a, ha, hae⟩ => absurd hae (h3 a ha)⟩
    · exact ⟨fun _ => ⟨b, hb, hbn⟩, fun _ => h1⟩
  · rcases hbase with ⟨_, h1, h3⟩ | ⟨_, b, hb, hbn, ⟨hba, h1⟩ | ⟨hba, h1⟩⟩
    · rw [h1]
      exact ⟨fun h => (by cases h), fun ⟨a, ha, hae, _⟩ => absurd hae (h3 a ha)⟩
    · exact ⟨fun _ => ⟨b, hb, hbn, hba⟩, fun _ => h1⟩
    · rw [h1]
      refine ⟨fun h => (by cases h), fun ⟨a, ha, hae, haa⟩ => ?_⟩
      have h2 := find_named hn hb
      rw [hbn, ← hae, find_named hn ha, Option.some.injEq] at h2
      rw [h2, hba] at haa
      cases haa
  · intro n
    rw [mem_passed hd]
    exact ⟨fun ⟨a, ha, hae, _⟩ => ⟨a, ha, hae⟩, fun ⟨a, ha, hae⟩ => ⟨a, ha, hae, documented_understood (hdoc a ha)⟩⟩
  · rw [callable_iff hd hn]
    intro a ha hu
    rw [documented_understood (hdoc a ha)] at hu
    cases hu

/-- **C114** A function without `tensors`, or with `tensors` or `base_tensor` annotated as something else, or with a default for a list of numbers
that is no single number, is refused. -/
theorem C114_refuses (args : List (Arg K)) (hn : (args.map (·.name)).Nodup)
    (h : "tensors".toList ∉ args.map (·.name) ∨
      (∃ a ∈ args, a.name = "tensors".toList ∧ a.annotation ≠ .tensors) ∨
      (∃ a ∈ args, a.name = "base_tensor".toList ∧ a.annotation ≠ .tensor ∧ a.annotation ≠ .optTensor) ∨
      ∃ a ∈ args, a.name ∉ providedNames ∧ a.annotation = .numbers ∧ (a.default = some .none ∨ a.default = some .other)) :
    ∃ e, register args = .error e := by
  cases hd : register args with
  | error e => exact ⟨e, rfl⟩
  | ok d =>
    exfalso
    obtain ⟨⟨t, ht, htn, hta⟩, hr, _, _, _, hbase⟩ := register_ok hd
    have huniq : ∀ a ∈ args, ∀ b ∈ args, a.name = b.name → a = b := by
      intro a ha b hb hab
      have h2 := find_named hn hb
      rw [← hab, find_named hn ha, Option.some.injEq] at h2
      exact h2
    rcases h with h | ⟨a, ha, han, hab⟩ | ⟨a, ha, han, hab⟩ | ⟨a, ha, han, hab, hdef⟩
    · exact h (List.mem_map.2 ⟨t, ht, htn⟩)
    · exact hab (by rw [huniq a ha t ht (by rw [han, htn])]; exact hta)
    · rcases hbase with ⟨_, _, h3⟩ | ⟨_, b, hb, hbn, hor⟩
      · exact h3 a ha han
      · rw [huniq a ha b hb (by rw [han, hbn])] at hab
        rcases hor with ⟨h1, _⟩ | ⟨h1, _⟩
        · exact hab.1 h1
        · exact hab.2 h1
    · rw [List.any_eq_false] at hr
      refine hr a ha ?_
      rcases hdef with h | h <;> simp [refuses, han, hab, h]

/-- **C114** What the documentation asks is not checked: an argument without annotation, or with another one (say a string), changes nothing about
the registration, cannot be set by a configuration, and is never passed; without a default every call of the function fails.  (The check compares
the annotation with `None`, but a missing one is `inspect.Parameter.empty`.) -/
theorem C114_unannotated_ignored (args : List (Arg K)) (d : Decorated K) (h : register args = .ok d) (x : Arg K)
    (hn : ((args ++ [x]).map (·.name)).Nodup) (hx : x.name ∉ providedNames) (ha : x.annotation = .missing ∨ x.annotation = .other) :
    register (args ++ [x]) = .ok d ∧ x.name ∉ d.passed ∧ (x.default = none → callable (args ++ [x]) d.passed = false) := by
  have hnb : ¬ x.name = "base_tensor".toList := fun e => hx ((provided_split _).2 (Or.inl (Or.inl e)))
  have hnt : ¬ x.name = "tensors".toList := fun e => hx ((provided_split _).2 (Or.inl (Or.inr e)))
  have hns : x.name ∉ standardKwargs := fun e => hx ((provided_split _).2 (Or.inr e))
  have hrx : refuses x = false := by rcases ha with h | h <;> simp [refuses, h]
  have hg : isGlobal x = false := by rcases ha with h | h <;> simp [isGlobal, h]
  have hm : isPerModel x = false := by rcases ha with h | h <;> simp [isPerModel, h]
  have hrun : ∀ d0 : Decorated K, registerArgs args d0 = .ok d → registerArgs (args ++ [x]) d0 = .ok d := by
    intro d0 hd0
    cases hr : args.any refuses with
    | true =>
      obtain ⟨e, he⟩ := (registerArgs_eq args d0).1 hr
      rw [he] at hd0
      cases hd0
    | false =>
      rw [← hd0, (registerArgs_eq args d0).2 hr, (registerArgs_eq _ d0).2 (by simp [List.any_append, hr, hrx])]
      simp [List.filter_append, hg, hm, hns]
  have hreg : register (args ++ [x]) = .ok d := by
    rw [← h]
    unfold register at h ⊢
    rw [List.find?_append, List.find?_append]
    have h1 : [x].find? (fun a => decide (a.name = "tensors".toList)) = none := find_none (by simpa only [List.mem_singleton, forall_eq] using hnt)
    have h2 : [x].find? (fun a => decide (a.name = "base_tensor".toList)) = none := find_none (by simpa only [List.mem_singleton, forall_eq] using hnb)
    rw [h1, h2, Option.or_none, Option.or_none]
    cases ht : args.find? (fun a => decide (a.name = "tensors".toList)) with
    | none => rfl
    | some t =>
      rw [ht] at h
      simp only at h ⊢
      split
      · rfl
      · rename_i hta
        rw [if_neg hta] at h
        cases hb : args.find? (fun a => decide (a.name = "base_tensor".toList)) with
        | none => rw [hb] at h; simp only at h ⊢; rw [hrun _ h, h]
        | some b =>
          rw [hb] at h
          simp only at h ⊢
          cases hba : b.annotation with
          | tensor => rw [hba] at h; simp only at h ⊢; rw [hrun _ h, h]
          | optTensor => rw [hba] at h; simp only at h ⊢; rw [hrun _ h, h]
          | _ => rfl
  have hund : understood x = false := by simp [understood, hx, hg, hm]
  refine ⟨hreg, ?_, ?_⟩
  · intro hp
    obtain ⟨a, ha', hae, _⟩ := (mem_passed h _).1 hp
    rw [List.map_append, List.nodup_append] at hn
    exact hn.2.2 _ (List.mem_map.2 ⟨a, ha', hae⟩) _ (by simp) rfl
  · intro hd
    rw [Bool.eq_false_iff]
    intro hc
    exact (callable_iff hreg hn).1 hc x (by simp) hund hd

end

/-- **C114** After registering, the name means the new method, and every other name what it meant before - in particular a method that had the
name is gone without notice. -/
theorem C114_name (reg : List Method) (m : Method) (n : Str) :
    (insertMethod reg m).find? (fun x => decide (x.name = n)) = if n = m.name then some m else reg.find? (fun x => decide (x.name = n)) := by
  unfold insertMethod
  split
  · rename_i hany
    induction reg with
    | nil => simp at hany
    | cons a reg ih =>
      rw [List.map_cons]
      by_cases hae : a.name = m.name
      · rw [if_pos hae]
        by_cases hnm : n = m.name
        · rw [if_pos hnm, List.find?_cons_of_pos (by simp [hnm])]
        · rw [if_neg hnm, List.find?_cons_of_neg (by simpa using fun h => hnm h.symm),
            List.find?_cons_of_neg (by rw [hae]; simpa using fun h => hnm h.symm)]
          cases hrest : reg.any (fun x => decide (x.name = m.name)) with
          | true => rw [ih hrest, if_neg hnm]
          | false =>
            rw [List.any_eq_false] at hrest
            rw [List.map_congr_left (g := id), List.map_id]
            intro x hx
            rw [if_neg (by simpa using hrest x hx)]
            rfl
      · rw [if_neg hae]
        have hrest : reg.any (fun x => decide (x.name = m.name)) = true := by simpa [hae] using hany
        by_cases han : a.name = n
        · rw [List.find?_cons_of_pos (by simpa using han), if_neg (fun h => hae (by rw [han, h])), List.find?_cons_of_pos (by simpa using han)]
        · rw [List.find?_cons_of_neg (by simpa using han), ih hrest, List.find?_cons_of_neg (by simpa using han)]
  · rename_i hany
    have hno : reg.find? (fun x => decide (x.name = m.name)) = none := by
      rw [List.find?_eq_none]
      intro x hx hxe
      exact hany (List.any_eq_true.2 ⟨x, hx, hxe⟩)
    rw [List.find?_append]
    by_cases hnm : n = m.name
    · rw [if_pos hnm, hnm, hno]
      simp
    · rw [if_neg hnm]
      have : [m].find? (fun x => decide (x.name = n)) = none := by
        simpa using fun h : m.name = n => hnm h.symm
      rw [this, Option.or_none]

/-! ## Examples -/

/-- The example of the documentation: `average_merge(tensors, weights, normalize=True)`. -/
def averageArgs : List (Arg ℚ) :=
  [⟨"tensors".toList, .tensors, none⟩, ⟨"weights".toList, .numbers, none⟩, ⟨"normalize".toList, .scalar, some (.number 1)⟩]

theorem average_documented : ∀ a ∈ averageArgs, Documented a := by
  intro a ha
  simp only [averageArgs, List.mem_cons, List.not_mem_nil, or_false] at ha
  rcases ha with rfl | rfl | rfl
  · exact ⟨fun _ => rfl, fun h => absurd h (by decide +kernel), fun h => absurd h (by decide +kernel), fun h => absurd h (by decide +kernel)⟩
  · exact ⟨fun h => absurd h (by decide +kernel), fun h => absurd h (by decide +kernel), fun _ => Or.inr rfl, fun _ _ x hx => by cases hx⟩
  · exact ⟨fun h => absurd h (by decide +kernel), fun h => absurd h (by decide +kernel), fun _ => Or.inl rfl, fun _ h => by cases h⟩

example := C114_registers averageArgs (by simp only [averageArgs, List.map_cons, List.map_nil]; decide +kernel) average_documented (by simp [averageArgs])

/-- Its parameters. -/
example : (averageArgs.filter isGlobal).map configured = [⟨"normalize".toList, false, some (.num 1)⟩] ∧
    (averageArgs.filter isPerModel).map configured = [⟨"weights".toList, true, none⟩] := ⟨rfl, rfl⟩

/-- The same with `weights: List[float] = None` is refused. -/
example := C114_refuses (K := ℚ) [⟨"tensors".toList, .tensors, none⟩, ⟨"weights".toList, .numbers, some .none⟩]
  (by simp only [List.map_cons, List.map_nil]; decide +kernel)
  (Or.inr (Or.inr (Or.inr ⟨⟨"weights".toList, .numbers, some .none⟩, by simp, by decide +kernel, rfl, Or.inl rfl⟩)))

/-- The same with an argument `scale` that has no annotation. -/
example : ∃ d, register (averageArgs ++ [⟨"scale".toList, .missing, none⟩]) = .ok d ∧
    callable (averageArgs ++ [⟨"scale".toList, .missing, none⟩]) d.passed = false := by
  obtain ⟨d, hd, _⟩ := C114_registers averageArgs (by simp only [averageArgs, List.map_cons, List.map_nil]; decide +kernel) average_documented
    (by simp [averageArgs])
  obtain ⟨h1, _, h3⟩ := C114_unannotated_ignored averageArgs d hd ⟨"scale".toList, .missing, none⟩
    (by simp only [averageArgs, List.map_cons, List.map_nil, List.cons_append, List.nil_append]; decide +kernel) (by decide +kernel) (Or.inl rfl)
  exact ⟨d, h1, h3 rfl⟩

end Verif.WholeMerge
