import Verif.Spec.MultiGPU
import Verif.Props.Graph

set_option linter.unusedSectionVars false
set_option linter.unusedSimpArgs false
set_option linter.unusedVariables false

namespace Verif.MultiGPU
open Verif.Graph

variable {n : Nat}

/-! ## Leading and trailing tasks -/

theorem findLeading_spec (G : TaskGraph n) (F : Flags n) (l : List (Fin n))
    (hl : ∀ p t q, l = p ++ t :: q → ∀ d ∈ G.deps t, d ∈ p) (t : Fin n) :
    t ∈ findLeading G F l ↔ t ∈ l ∧ Leads G F t := by
  induction l using List.reverseRecOn generalizing t with
  | nil => simp [findLeading]
  | append_singleton l a ih =>
    have hl' : ∀ p t q, l = p ++ t :: q → ∀ d ∈ G.deps t, d ∈ p := by
      intro p t q h
      exact hl p t (q ++ [a]) (by rw [h]; simp)
    have ih := ih hl'
    have hda : ∀ d ∈ G.deps a, d ∈ l := hl l a [] rfl
    have hstep : findLeading G F (l ++ [a]) =
        (if !F.mainOnly a then findLeading G F l
          else if (G.deps a).any (fun d => decide (d ∉ findLeading G F l)) then findLeading G F l
          else insert a (findLeading G F l)) := by
      unfold findLeading; rw [List.foldl_append]; rfl
    rw [hstep]
    simp only [List.mem_append, List.mem_singleton]
    cases hm : F.mainOnly a with
    | false =>
      simp only [Bool.not_false, if_true]
      rw [ih]
      constructor
      · rintro ⟨h, h'⟩; exact ⟨Or.inl h, h'⟩
      · rintro ⟨h | rfl, h'⟩
        · exact ⟨h, h'⟩
        · cases h' with | mk h1 _ => rw [hm] at h1; cases h1
    | true =>
      simp only [Bool.not_true, Bool.false_eq_true, if_false]
      split
      · rename_i hany
        rw [List.any_eq_true] at hany
        obtain ⟨d, hd, hdl⟩ := hany
        have hdl : d ∉ findLeading G F l := by simpa using hdl
        rw [ih]
        constructor
        · rintro ⟨h, h'⟩; exact ⟨Or.inl h, h'⟩
        · rintro ⟨h | rfl, h'⟩
          · exact ⟨h, h'⟩
          · cases h' with
            | mk _ h2 => exact absurd ((ih d).2 ⟨hda d hd, h2 d hd⟩) hdl
      · rename_i hany
        rw [Finset.mem_insert, ih]
        constructor
        · rintro (rfl | ⟨h, h'⟩)
          · refine ⟨Or.inr rfl, .mk hm ?_⟩
            intro d hd
            by_contra hnd
            apply hany
            rw [List.any_eq_true]
            refine ⟨d, hd, ?_⟩
            simp only [decide_eq_true_eq]
            exact fun h => hnd ((ih d).1 h).2
          · exact ⟨Or.inl h, h'⟩
        · rintro ⟨h | rfl, h'⟩
          · exact Or.inr ⟨h, h'⟩
          · exact Or.inl rfl

theorem isTrailing_spec (G : TaskGraph n) (F : Flags n) (ordered : List (Fin n))
    (hall : ∀ t, t ∈ ordered) (trailing : Finset (Fin n)) (h : IsTrailing G F ordered trailing)
    (t : Fin n) : t ∈ trailing ↔ Trails G F t := by
  have memdep : ∀ a b, a ∈ dependants G b ↔ b ∈ G.deps a := by
    intro a b; simp [dependants]
  have inv : ∀ s, Relation.ReflTransGen (TrailStep G F) (trailInit G ordered) s →
      (∀ t ∈ s.trailing, Trails G F t) ∧
      (∀ t, F.mainOnly t = true → dependants G t ⊆ s.trailing → t ∈ s.trailing ∨ t ∈ s.toExplore) := by
    intro s hs
    induction hs with
    | refl =>
      refine ⟨by simp [trailInit], ?_⟩
      intro t _ hsub
      right
      have : dependants G t = ∅ := Finset.subset_empty.1 hsub
      simp [trailInit, this, hall t]
    | @tail s _ _ hstep ih =>
      obtain ⟨ih1, ih2⟩ := ih
      cases hstep with
      | @skip x hx hm =>
        refine ⟨ih1, ?_⟩
        intro t htm hsub
        rcases ih2 t htm hsub with h | h
        · exact Or.inl h
        · right
          refine Finset.mem_erase.2 ⟨?_, h⟩
          rintro rfl; rw [hm] at htm; cases htm
      | @blocked x hx hm hb =>
        refine ⟨ih1, ?_⟩
        intro t htm hsub
        rcases ih2 t htm hsub with h | h
        · exact Or.inl h
        · right
          refine Finset.mem_erase.2 ⟨?_, h⟩
          rintro rfl; exact hb hsub
      | @add x hx hm hb =>
        have hxT : Trails G F x := .mk hm fun u hu => ih1 u (hb ((memdep u x).2 hu))
        refine ⟨?_, ?_⟩
        · intro t ht
          rcases Finset.mem_insert.1 ht with rfl | ht
          · exact hxT
          · exact ih1 t ht
        · intro t htm hsub
          simp only [Finset.mem_insert, Finset.mem_union, Finset.mem_erase, List.mem_toFinset]
          by_cases htx : t = x
          · exact Or.inl (Or.inl htx)
          · by_cases hdep : x ∈ dependants G t
            · exact Or.inr (Or.inr ((memdep x t).1 hdep))
            · have : dependants G t ⊆ s.trailing := by
                intro y hy
                rcases Finset.mem_insert.1 (hsub hy) with rfl | h
                · exact absurd hy hdep
                · exact h
              rcases ih2 t htm this with h | h
              · exact Or.inl (Or.inr h)
              · exact Or.inr (Or.inl ⟨htx, h⟩)
  obtain ⟨h1, h2⟩ := inv _ h
  refine ⟨h1 t, ?_⟩
  intro ht
  induction ht with
  | mk hm _ ih =>
    rcases h2 _ hm (fun u hu => ih u ((memdep u _).1 hu)) with h | h
    · exact h
    · simp at h

/-! ## Assignment of islands -/

theorem argMin_le (load : Nat → Nat) (k : Nat) : argMin load k ≤ k := by
  induction k with
  | zero => simp [argMin]
  | succ k ih => simp only [argMin]; split <;> omega

theorem argMin_min (load : Nat → Nat) (k : Nat) : ∀ i ≤ k, load (argMin load k) ≤ load i := by
  induction k with
  | zero => intro i hi; have : i = 0 := by omega
            subst this; simp [argMin]
  | succ k ih =>
    intro i hi
    simp only [argMin]
    by_cases hik : i = k + 1
    · subst hik; split <;> omega
    · have := ih i (by omega); split <;> omega

theorem assign_mem (numGpus : Nat) (islands : List (List (Fin n))) (a b : Nat → List (Fin n))
    (h : assignIslands numGpus islands a = .ok b) :
    (∀ d t, t ∈ a d → t ∈ b d) ∧
    (∀ isl ∈ islands, ∃ d, d < numGpus ∧ ∀ t ∈ isl, t ∈ b d) ∧
    (∀ d t, t ∈ b d → t ∈ a d ∨ (d < numGpus ∧ ∃ isl ∈ islands, t ∈ isl ∧ ∀ x ∈ isl, x ∈ b d)) := by
  induction islands generalizing a with
  | nil =>
    simp only [assignIslands, Except.ok.injEq] at h
    subst h
    exact ⟨fun _ _ h => h, by simp, fun _ _ h => Or.inl h⟩
  | cons isl rest ih =>
    simp only [assignIslands] at h
    split at h
    · cases h
    · rename_i hg
      set m := argMin (fun i => (a i).length) (numGpus - 1) with hm
      have hmlt : m < numGpus := by
        have := argMin_le (fun i => (a i).length) (numGpus - 1)
        omega
      obtain ⟨h1, h2, h3⟩ := ih _ h
      have hisl : ∀ t ∈ isl, t ∈ b m := by
        intro t ht
        apply h1 m t
        simp [ht]
      refine ⟨?_, ?_, ?_⟩
      · intro d t ht
        apply h1 d t
        by_cases hd : d = m
        · subst hd; simp [ht]
        · simp [Function.update, hd, ht]
      · intro i hi
        rcases List.mem_cons.1 hi with rfl | hi
        · exact ⟨m, hmlt, hisl⟩
        · exact h2 i hi
      · intro d t ht
        rcases h3 d t ht with h | ⟨hd, i, hi, hti, hall⟩
        · by_cases hdm : d = m
          · subst hdm
            simp only [Function.update_self, List.mem_append] at h
            rcases h with h | h
            · exact Or.inl h
            · exact Or.inr ⟨hmlt, isl, List.mem_cons_self, h, hisl⟩
          · simp only [Function.update, hdm, dite_false] at h
            exact Or.inl h
        · exact Or.inr ⟨hd, i, List.mem_cons_of_mem _ hi, hti, hall⟩

theorem sum_update_perm (numGpus : Nat) (islands : List (List (Fin n))) (a b : Nat → List (Fin n))
    (h : assignIslands numGpus islands a = .ok b) :
    ((List.range numGpus).map b).flatten.Perm
      (((List.range numGpus).map a).flatten ++ islands.flatten) := by
  induction islands generalizing a with
  | nil =>
    simp only [assignIslands, Except.ok.injEq] at h
    subst h; simp
  | cons isl rest ih =>
    simp only [assignIslands] at h
    split at h
    · cases h
    · rename_i hg
      set m := argMin (fun i => (a i).length) (numGpus - 1) with hm
      have hmlt : m < numGpus := by
        have := argMin_le (fun i => (a i).length) (numGpus - 1)
        omega
      refine (ih _ h).trans ?_
      have key : ∀ l : List Nat, l.Nodup → m ∈ l →
          (l.map (Function.update a m (a m ++ isl))).flatten.Perm ((l.map a).flatten ++ isl) := by
        intro l
        induction l with
        | nil => intro _ h; simp at h
        | cons x l ihl =>
          intro hnd hmem
          have hnd' := List.nodup_cons.1 hnd
          by_cases hx : x = m
          · rw [hx] at hnd' ⊢
            have : l.map (Function.update a m (a m ++ isl)) = l.map a := by
              apply List.map_congr_left
              intro y hy
              have : y ≠ m := fun e => hnd'.1 (e ▸ hy)
              simp [Function.update, this]
            simp only [List.map_cons, Function.update_self, List.flatten_cons, this]
            rw [List.append_assoc, List.append_assoc]
            exact List.Perm.append_left _ List.perm_append_comm
          · have hml : m ∈ l := by
              rcases List.mem_cons.1 hmem with h | h
              · exact absurd h.symm hx
              · exact h
            simp only [List.map_cons, List.flatten_cons]
            rw [Function.update_of_ne hx, List.append_assoc]
            exact List.Perm.append_left _ (ihl hnd'.2 hml)
      have := key (List.range numGpus) List.nodup_range (List.mem_range.2 hmlt)
      simp only [List.flatten_cons]
      rw [← List.append_assoc]
      exact this.append_right _

theorem assign_balance (numGpus : Nat) (islands : List (List (Fin n))) (a b : Nat → List (Fin n))
    (M : Nat) (hM : ∀ isl ∈ islands, isl.length ≤ M)
    (h0 : ∀ i j, i < numGpus → j < numGpus → (a i).length ≤ (a j).length + M)
    (h : assignIslands numGpus islands a = .ok b) :
    ∀ i j, i < numGpus → j < numGpus → (b i).length ≤ (b j).length + M := by
  induction islands generalizing a with
  | nil =>
    simp only [assignIslands, Except.ok.injEq] at h
    subst h; exact h0
  | cons isl rest ih =>
    simp only [assignIslands] at h
    split at h
    · cases h
    · rename_i hg
      set m := argMin (fun i => (a i).length) (numGpus - 1) with hm
      have hmin := argMin_min (fun i => (a i).length) (numGpus - 1)
      refine ih _ (fun i hi => hM i (List.mem_cons_of_mem _ hi)) ?_ h
      intro i j hi hj
      have hil := hM isl List.mem_cons_self
      have hmj := hmin j (by omega)
      rw [← hm] at hmj
      have hij := h0 i j hi hj
      have him := h0 i m hi (by
        have := argMin_le (fun i => (a i).length) (numGpus - 1); omega)
      simp only [Function.update]
      by_cases h1 : i = m <;> by_cases h2 : j = m
      · simp [h1, h2]
      · subst h1; simp [h2]; omega
      · subst h2; simp [h1]; omega
      · simp [h1, h2]; omega

/-! ## Interleavings and collected results -/

theorem Interleave.mem {α : Type} {ls : List (List α)} {q : List α} (h : Interleave ls q) (a : α) :
    a ∈ q ↔ ∃ l ∈ ls, a ∈ l := by
  induction h with
  | done h =>
    simp only [List.not_mem_nil, false_iff]
    rintro ⟨l, hl, ha⟩
    rw [h l hl] at ha; cases ha
  | @step ls i b rest q hi _ ih =>
    rw [List.mem_cons, ih]
    have hil : i < ls.length := by
      by_contra hn; rw [List.getElem?_eq_none (by omega)] at hi; cases hi
    have hmem : (b :: rest) ∈ ls := List.mem_of_getElem? hi
    constructor
    · rintro (rfl | ⟨l, hl, hal⟩)
      · exact ⟨_, hmem, List.mem_cons_self⟩
      · rcases List.mem_or_eq_of_mem_set hl with h | rfl
        · exact ⟨l, h, hal⟩
        · exact ⟨_, hmem, List.mem_cons_of_mem _ hal⟩
    · rintro ⟨l, hl, hal⟩
      obtain ⟨j, hj⟩ := List.getElem?_of_mem hl
      by_cases hji : j = i
      · subst hji
        rw [hi] at hj
        cases hj
        rcases List.mem_cons.1 hal with h | h
        · exact Or.inl h
        · exact Or.inr ⟨rest, List.mem_iff_getElem?.2 ⟨j, by simp [hil]⟩, h⟩
      · right
        refine ⟨l, List.mem_iff_getElem?.2 ⟨j, ?_⟩, hal⟩
        rw [List.getElem?_set_ne (fun h => hji h.symm)]
        exact hj

section Collect
variable {V : Type}

theorem collect_of_not_mem (r : Fin n → Option V) (ys : List (Fin n × V)) (t : Fin n)
    (h : ∀ v, (t, v) ∉ ys) : collect r ys t = r t := by
  unfold collect
  induction ys generalizing r with
  | nil => rfl
  | cons y ys ih =>
    rw [List.foldl_cons, ih _ (fun v hv => h v (List.mem_cons_of_mem _ hv))]
    have : t ≠ y.1 := by
      rintro rfl; exact h y.2 List.mem_cons_self
    simp [Function.update, this]

theorem collect_some (r : Fin n → Option V) (ys : List (Fin n × V)) (t : Fin n) (v : V)
    (h : collect r ys t = some v) : (t, v) ∈ ys ∨ (r t = some v ∧ ∀ w, (t, w) ∉ ys) := by
  unfold collect at h
  induction ys generalizing r with
  | nil => exact Or.inr ⟨h, by simp⟩
  | cons y ys ih =>
    rw [List.foldl_cons] at h
    rcases ih _ h with h | ⟨h1, h2⟩
    · exact Or.inl (List.mem_cons_of_mem _ h)
    · by_cases hty : t = y.1
      · subst hty
        simp at h1
        left; rw [← h1]; exact List.mem_cons_self
      · simp only [Function.update, hty, dite_false] at h1
        refine Or.inr ⟨h1, ?_⟩
        intro w hw
        rcases List.mem_cons.1 hw with h | h
        · exact hty (by rw [← h])
        · exact h2 w h

theorem collect_isSome (r : Fin n → Option V) (ys : List (Fin n × V)) (t : Fin n) (v : V)
    (h : (t, v) ∈ ys) : ∃ w, collect r ys t = some w := by
  have mono : ∀ (ys : List (Fin n × V)) (r : Fin n → Option V), (r t).isSome = true →
      (collect r ys t).isSome = true := by
    intro ys
    induction ys with
    | nil => intro r h; exact h
    | cons y ys ih =>
      intro r h
      apply ih
      by_cases hty : t = y.1
      · subst hty; simp
      · simp [Function.update, hty, h]
  apply Option.isSome_iff_exists.1
  induction ys generalizing r with
  | nil => simp at h
  | cons y ys ih =>
    rcases List.mem_cons.1 h with h | h
    · subst h
      exact mono ys _ (by simp)
    · exact ih _ h
end Collect

end Verif.MultiGPU
