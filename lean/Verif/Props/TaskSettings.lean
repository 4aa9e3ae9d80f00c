import Verif.Props.WholeTask

/-! # C110: settings without which task arithmetic fails -/

namespace Verif.WholeMerge

open Verif.ModelRef (Str Ref)
open Verif.LoadTask (WeightInfo)
open Verif.Plan
open Verif.Config
open Verif.Tensor (Tensor)

section
variable {K : Type} [Field K] [LinearOrder K] [FloorRing K]

theorem mem_of_lookup {V : Type} {d : List (Str × V)} {k : Str} {v : V} (h : lookup d k = some v) : (k, v) ∈ d := by
  unfold lookup at h
  cases hf : d.find? (fun e => decide (e.1 = k)) with
  | none => rw [hf] at h; cases h
  | some e =>
    rw [hf] at h
    have h1 := List.mem_of_find?_eq_some hf
    have h2 := List.find?_some hf
    obtain ⟨a, b⟩ := e
    simp only [decide_eq_true_eq] at h2
    simp only [Option.map_some, Option.some.injEq] at h
    subst h2; subst h
    exact h1

/-- **C110** Whatever method of the family is used, there is no result without a base model, without a number for `lambda` - a missing one is not taken for 0 or 1 - and without true or false for `normalize`
and `int8_mask`. -/
theorem C110_settings (g : GtaVariant) (tools : Tools K) (p : Planned K) (ts : List (Ref × Tensor K)) {x : Option (Tensor K)} (h : gtaMethod g tools p ts = .ok x) :
    (∃ b, p.baseModel = some b) ∧ (∃ lam, ("lambda".toList, some (.num lam)) ∈ p.params) ∧
      (("normalize".toList, some (.num 0)) ∈ p.params ∨ ("normalize".toList, some (.num 1)) ∈ p.params) ∧
      (("int8_mask".toList, some (.num 0)) ∈ p.params ∨ ("int8_mask".toList, some (.num 1)) ∈ p.params) := by
  have hflag : ∀ key v, flagOf p key = some v → (key, some (.num 0)) ∈ p.params ∨ (key, some (.num 1)) ∈ p.params := by
    intro key v hv
    unfold flagOf at hv
    split at hv
    · next y hy =>
      split at hv
      · next h0 => subst h0; exact .inl (mem_of_lookup hy)
      · split at hv
        · next h1 => subst h1; exact .inr (mem_of_lookup hy)
        · cases hv
    · cases hv
  have hnum : ∀ key v, numberOf p key = some v → (key, some (.num v)) ∈ p.params := by
    intro key v hv
    unfold numberOf at hv
    split at hv
    · next y hy => cases hv; exact mem_of_lookup hy
    · cases hv
  unfold gtaMethod at h
  split at h
  · next b i n lam hb hi hn hl => exact ⟨⟨b, hb⟩, ⟨lam, hnum _ _ hl⟩, hflag _ _ hn, hflag _ _ hi⟩
  · cases h

end

/-- The settings of a tensor of which only the base model has a version. -/
def onlyBase (lam : Option (Scalar ℚ)) : Planned ℚ :=
  ⟨{ name := "w".toList }, [(refA, { name := "w".toList })],
    [("int8_mask".toList, some (.num 0)), ("normalize".toList, some (.num 1)), ("lambda".toList, lam)], [], some refA⟩

/-- With a number there is a result, without one there is none. -/
example : (∃ x, gtaMethod tiesVariant tieTools (onlyBase (some (.num 2))) [(refA, tieOwn refA)] = .ok (some x)) ∧
    gtaMethod tiesVariant tieTools (onlyBase none) [(refA, tieOwn refA)] = .error .badParameter := by
  constructor
  · exact ⟨_, rfl⟩
  · rfl

end Verif.WholeMerge
