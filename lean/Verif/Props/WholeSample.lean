import Verif.Props.WholePlan

/-! # A small architecture on which whole merges can be shown (for the examples of C108 and following) -/

set_option linter.unusedSectionVars false

namespace Verif.WholeMerge

open Verif.ModelRef (Str Ref)
open Verif.LoadTask (LoadTensor WeightInfo Casts Loader ownTensors typeNames wanted)
open Verif.Plan
open Verif.Config
open Verif.Tensor (Tensor)
open Verif.Pipeline

section
variable {K : Type} [Field K] [LinearOrder K] [IsStrictOrderedRing K] [FloorRing K]

/-- One module: an embedding "e", a tensor "w", "w|", "w||" ... per layer, a norm "n". -/
def archOf (K : Type) (depth : Int) (params tensorParams : List (ParamDef K)) : Env K where
  moduleNames := ["default"]
  outPre := fun _ => [nm 'e' 0]
  outLayer := fun _ i => [nm 'w' i]
  outPost := fun _ => [nm 'n' 0]
  inLayer := fun _ _ i => [nm 'w' i.toNat]
  numLayers := fun _ _ => depth
  indexNames := fun _ => []
  params := params
  tensorParams := tensorParams

theorem along_two (t a b : K) (h0 : 0 ≤ t) (h1 : t ≤ 1) : Along t [a, b] (a + t * (b - a)) := by
  have := Along.segment (t := t) [a, b] 0 a b rfl rfl (by norm_num; exact h0) (by norm_num; exact h1)
  have e : a + (t * ((([a, b] : List K).length : K) - 1) - (0 : Nat)) * (b - a) = a + t * (b - a) := by norm_num
  rw [e] at this
  exact this

theorem plainA : refA.Plain := ⟨⟨by unfold ModelRef.NoSep; decide, (by rintro r hr; cases hr)⟩, (by rintro l hl; cases hl), rfl⟩
theorem plainB : refB.Plain := ⟨⟨by unfold ModelRef.NoSep; decide, (by rintro r hr; cases hr)⟩, (by rintro l hl; cases hl), rfl⟩

/-- The weights a place takes: of layers below `N`, if the slices end there. -/
theorem archOf_inputs {d : Int} {ps tps : List (ParamDef K)} {slices : List (OutSlice K)} {N : Nat}
    (heven : ∀ s ∈ slices, ∀ a ∈ s.sources, ∀ b ∈ s.sources, a.stop - a.start = b.stop - b.start)
    (hrange : ∀ s ∈ slices, ∀ src ∈ s.sources, 0 ≤ src.start ∧ src.stop ≤ N)
    {w : WeightInfo} {s : OutSlice K} {t : K} {ins : List (Ref × WeightInfo)} (h : Place (archOf K d ps tps) "default" slices w s t ins) :
    (∃ c k, w = nm c k) ∧ 0 ≤ t ∧ t ≤ 1 ∧ ∀ i ∈ ins, i.2 = nm 'e' 0 ∨ i.2 = nm 'n' 0 ∨ ∃ k, k < N ∧ i.2 = nm 'w' k := by
  cases h with
  | pre _ _ hs hw =>
    simp only [archOf, List.mem_singleton] at hw
    subst hw
    refine ⟨⟨_, _, rfl⟩, le_refl _, zero_le_one, fun i hi => ?_⟩
    obtain ⟨src, _, rfl⟩ := List.mem_map.1 hi
    exact Or.inl rfl
  | post _ _ hs hw =>
    simp only [archOf, List.mem_singleton] at hw
    subst hw
    refine ⟨⟨_, _, rfl⟩, le_refl _, zero_le_one, fun i hi => ?_⟩
    obtain ⟨src, _, rfl⟩ := List.mem_map.1 hi
    exact Or.inr (Or.inl rfl)
  | layer j _ o k _ _ hl hw hins =>
    obtain ⟨b, a, rfl, ho, rfl⟩ := hl
    have hs : s ∈ b ++ s :: a := by simp
    refine ⟨?_, ?_, ?_, ?_⟩
    · simp only [archOf] at hw
      have := List.mem_of_getElem? hw
      simp only [List.mem_singleton] at this
      exact ⟨_, _, this⟩
    · split
      · exact zero_le_one
      · rename_i hlen
        have h2 : (2 : K) ≤ (OutSlice.len s : K) := by exact_mod_cast (by omega : 2 ≤ OutSlice.len s)
        exact div_nonneg (Nat.cast_nonneg o) (by linarith)
    · split
      · exact le_refl _
      · rename_i hlen
        have h2 : (2 : K) ≤ (OutSlice.len s : K) := by exact_mod_cast (by omega : 2 ≤ OutSlice.len s)
        have h3 : (o : K) + 1 ≤ (OutSlice.len s : K) := by exact_mod_cast ho
        exact (div_le_one (by linarith)).2 (by linarith)
    · intro i hi
      obtain ⟨src, hsrc, _, h2⟩ := forall₂_mem_right hins i hi
      simp only [archOf] at h2
      have := List.mem_of_getElem? h2
      simp only [List.mem_singleton] at this
      refine Or.inr (Or.inr ⟨_, ?_, this⟩)
      have hlen : (OutSlice.len s : Int) ≤ max 0 (src.stop - src.start) := by
        unfold OutSlice.len
        cases hc : s.sources with
        | nil => rw [hc] at hsrc; cases hsrc
        | cons x xs =>
          simp only
          have := heven s hs x (by rw [hc]; simp) src hsrc
          rw [this]
          omega
      have := hrange s hs src hsrc
      omega

/-- Configurations of slices on it are usable. -/
theorem archOf_usable {d : Int} {ps tps : List (ParamDef K)} (mp : Params K) (s0 : OutSlice K) (ss : List (OutSlice K)) (N : Nat)
    (heven : ∀ s ∈ s0 :: ss, s.sources ≠ [] ∧ ∀ a ∈ s.sources, ∀ b ∈ s.sources, a.stop - a.start = b.stop - b.start)
    (hrange : ∀ s ∈ s0 :: ss, ∀ src ∈ s.sources, 0 ≤ src.start ∧ src.stop ≤ N)
    (honce : ∀ s ∈ s0 :: ss, (s.sources.map (·.model)).Nodup) (hplain : ∀ s ∈ s0 :: ss, ∀ src ∈ s.sources, src.model.Plain)
    (hends : ∀ a b, (s0 :: ss).head? = some a → (s0 :: ss).getLast? = some b → b.sources.length ≤ a.sources.length) :
    Usable (archOf K d ps tps) [("default", ⟨some (s0 :: ss), none, mp⟩)] := by
  have hin := @archOf_inputs K _ _ _ _ d ps tps (s0 :: ss) N (fun s hs => (heven s hs).2) hrange
  constructor
  · intro e he
    rw [List.mem_singleton] at he
    subst he
    exact ⟨s0, ss, rfl⟩
  · intro e he
    rw [List.mem_singleton] at he
    subst he
    exact heven
  · intro e he
    rw [List.mem_singleton] at he
    subst he
    exact honce
  · intro e he
    rw [List.mem_singleton] at he
    subst he
    exact hplain
  · intro e he
    rw [List.mem_singleton] at he
    subst he
    exact hends
  · intro e he j s o k w hl hw src hsrc
    rw [List.mem_singleton] at he
    subst he
    simp only [archOf] at hw ⊢
    obtain ⟨hk, _⟩ := List.getElem?_eq_some_iff.1 hw
    exact ⟨_, List.getElem?_eq_getElem (by simpa using hk)⟩
  · intro e he w s t ins hp hopt
    rw [List.mem_singleton] at he
    subst he
    obtain ⟨⟨c, k, rfl⟩, _⟩ := hin hp
    cases hopt
  · intro e he w s t ins hp i hi
    rw [List.mem_singleton] at he
    subst he
    rcases (hin hp).2.2.2 i hi with h | h | ⟨k, _, h⟩
    · rw [h]; decide
    · rw [h]; decide
    · rw [h]
      simp only [nm, List.mem_cons, List.mem_replicate]
      rintro (h | ⟨_, h⟩)
      · exact absurd h (by decide)
      · exact absurd h (by decide)
  · simp only [List.flatMap_cons, List.flatMap_nil, List.append_nil, moduleWeights, Option.getD_some, archOf]
    rw [List.map_append, List.map_append, List.nodup_append, List.nodup_append]
    have hmem : ∀ x ∈ List.map (·.name) ((List.range ((s0 :: ss).map OutSlice.len).sum).flatMap (fun i => [nm 'w' i])),
        ∃ i, x = 'w' :: List.replicate i '|' := by
      intro x hx
      obtain ⟨y, hy, rfl⟩ := List.mem_map.1 hx
      obtain ⟨i, _, hi⟩ := List.mem_flatMap.1 hy
      rw [List.mem_singleton] at hi
      subst hi
      exact ⟨i, rfl⟩
    refine ⟨⟨by simp, ?_, ?_⟩, by simp, ?_⟩
    · have e : (List.range ((s0 :: ss).map OutSlice.len).sum).flatMap (fun i => [nm 'w' i]) =
          (List.range ((s0 :: ss).map OutSlice.len).sum).map (nm 'w') := by
        generalize List.range ((s0 :: ss).map OutSlice.len).sum = l
        induction l with
        | nil => rfl
        | cons x xs ih => simp only [List.flatMap_cons, List.map_cons, ih]; rfl
      rw [e, List.map_map]
      refine List.Nodup.map ?_ List.nodup_range
      intro a b hab
      have := congrArg List.length hab
      simpa [nm] using this
    · intro a ha b hb
      obtain ⟨i, rfl⟩ := hmem b hb
      simp only [List.map_cons, List.map_nil, List.mem_singleton] at ha
      subst ha
      intro h
      simp [nm] at h
    · intro a ha b hb
      simp only [List.map_cons, List.map_nil, List.mem_singleton] at hb
      subst hb
      rcases List.mem_append.1 ha with ha | ha
      · simp only [List.map_cons, List.map_nil, List.mem_singleton] at ha
        subst ha
        decide
      · obtain ⟨i, rfl⟩ := hmem a ha
        intro h
        simp [nm] at h
  · refine ⟨_, List.mem_singleton.2 rfl, _, _, _, _, .pre s0 (nm 'e' 0) rfl (by simp [archOf]), ?_⟩
    rintro ⟨h, _⟩
    cases h

/-- Loaders for models of eight layers, with a vector of length one under every name. -/
def lettersLoader (T : Type) (value : Str → T) : Loader T where
  names := "e" :: "n" :: (List.range 8).map (fun i => String.ofList (nm 'w' i).name)
  fetch := fun n => .ok (value n.toList)
  convert := fun _ => .ok none

theorem letters_load {T : Type} (value : Str → T) (casts : Casts T) (wi : WeightInfo)
    (h : wi = nm 'e' 0 ∨ wi = nm 'n' 0 ∨ ∃ k, k < 8 ∧ wi = nm 'w' k) :
    (wanted none wi).execute casts (lettersLoader T value) = .ok (some (value wi.name)) := by
  have key : ∀ x : Str, x ≠ [] → String.ofList x ∈ (lettersLoader T value).names →
      (⟨String.ofList x, none, false, [], []⟩ : LoadTensor).execute casts (lettersLoader T value) = .ok (some (value x)) := by
    intro x hne hx
    have hr : (⟨String.ofList x, none, false, [], []⟩ : LoadTensor).resolve (lettersLoader T value) = some (String.ofList x) := by
      simp [LoadTensor.resolve, hx]
    have hs : String.ofList x ≠ "" := by
      intro h
      apply hne
      have := congrArg String.toList h
      simpa using this
    simp only [LoadTensor.execute, LoadTensor.raw, hr, if_neg hs, LoadTask.toDtype]
    simp [lettersLoader]
  rcases h with rfl | rfl | ⟨k, hk, rfl⟩
  · exact key _ (by simp [nm]) (by simp [lettersLoader, nm])
  · exact key _ (by simp [nm]) (by simp [lettersLoader, nm])
  · refine key _ (by simp [nm]) ?_
    simp only [lettersLoader]
    exact List.mem_cons_of_mem _ (List.mem_cons_of_mem _ (List.mem_map.2 ⟨k, List.mem_range.2 hk, rfl⟩))

end

end Verif.WholeMerge
