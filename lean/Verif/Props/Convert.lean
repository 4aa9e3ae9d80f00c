import Verif.Model.Convert
import Verif.Proof.Names
import Mathlib.Data.List.Lookmap

/-! # C75, and the packing part of C57: conversion of checkpoint layouts -/

set_option linter.unusedSectionVars false

namespace Verif.Convert

open Verif.ModelRef (Str)

/-! ## Natural order -/

/-- Does not end with a digit. -/
def NoDigitEnd (s : Str) : Prop := ∀ c, s.getLast? = some c → c.isDigit = false

/-- Does not start with a digit. -/
def NoDigitStart (s : Str) : Prop := ∀ c, s.head? = some c → c.isDigit = false

theorem natParts_start {c : Char} (hc : c.isDigit = false) (s : Str) : (natParts (c :: s)).1 = c :: (natParts s).1 ∧ (natParts (c :: s)).2 = (natParts s).2 := by
  simp [natParts, hc]

theorem natParts_digits {ds : Str} (hd : ds ≠ [] ∧ ∀ c ∈ ds, c.isDigit = true) {post : Str} (hp : NoDigitStart post) :
    natParts (ds ++ post) = ([], (ds, (natParts post).1) :: (natParts post).2) := by
  obtain ⟨hne, hd⟩ := hd
  induction ds with
  | nil => exact absurd rfl hne
  | cons c ds ih =>
    have hc : c.isDigit = true := hd c (by simp)
    by_cases h : ds = []
    · subst h
      cases post with
      | nil => simp [natParts, hc]
      | cons x post =>
        have hx : x.isDigit = false := hp x rfl
        simp only [List.cons_append, List.nil_append]
        have := natParts_start hx post
        rw [natParts]
        revert this
        generalize natParts (x :: post) = q
        obtain ⟨h, t⟩ := q
        rintro ⟨h1, h2⟩
        simp only at h1 h2
        subst h1
        simp [hc]
    · have := ih h (fun x hx => hd x (by simp [hx]))
      rw [List.cons_append, natParts, this]
      simp [hc]

theorem natParts_append {pre r : Str} (hpre : NoDigitEnd pre) (hr : (natParts r).1 = []) :
    natParts (pre ++ r) = ((natParts pre).1, (natParts pre).2 ++ (natParts r).2) := by
  induction pre with
  | nil =>
    have e : natParts [] = ([], []) := rfl
    rw [List.nil_append, e]
    simp only [List.nil_append]
    exact Prod.ext hr rfl
  | cons c pre ih =>
    by_cases hp : pre = []
    · subst hp
      have hc : c.isDigit = false := hpre c rfl
      have h1 := natParts_start hc r
      have h2 := natParts_start hc []
      rw [List.cons_append, List.nil_append]
      refine Prod.ext ?_ ?_
      · rw [h1.1, hr, h2.1]; rfl
      · rw [h1.2, h2.2]; rfl
    · have ih' := ih (fun x hx => hpre x (by
        cases pre with
        | nil => exact absurd rfl hp
        | cons y pre => simpa [List.getLast?_cons_cons] using hx))
      rw [List.cons_append]
      have e1 : natParts (c :: (pre ++ r)) = (match natParts (pre ++ r) with
        | (h, t) => if c.isDigit then (match h, t with
          | [], (d, x) :: t => ([], (c :: d, x) :: t)
          | h, t => ([], ([c], h) :: t)) else (c :: h, t)) := rfl
      have e2 : natParts (c :: pre) = (match natParts pre with
        | (h, t) => if c.isDigit then (match h, t with
          | [], (d, x) :: t => ([], (c :: d, x) :: t)
          | h, t => ([], ([c], h) :: t)) else (c :: h, t)) := rfl
      have hne : (natParts pre).1 ≠ [] ∨ (natParts pre).2 ≠ [] := by
        cases pre with
        | nil => exact absurd rfl hp
        | cons y pre =>
          cases hy : y.isDigit with
          | false => left; rw [(natParts_start hy pre).1]; simp
          | true =>
            right
            rw [natParts]
            generalize natParts pre = q
            obtain ⟨h, t⟩ := q
            simp only [hy, if_true]
            split <;> simp
      rw [e1, e2, ih']
      revert hne
      generalize natParts pre = q
      obtain ⟨h, t⟩ := q
      intro hne
      cases hc : c.isDigit with
      | false => simp
      | true =>
        cases h with
        | cons a h => simp
        | nil =>
          cases t with
          | nil => simp at hne
          | cons a t => obtain ⟨d, x⟩ := a; simp

theorem str_lt_irrefl (s : Str) : ¬ s < s := List.lt_irrefl s

theorem restLe_append (t x y : List (Nat × Str)) : restLe (t ++ x) (t ++ y) = restLe x y := by
  induction t with
  | nil => rfl
  | cons p t ih =>
    obtain ⟨n, s⟩ := p
    simp only [List.cons_append, restLe, Nat.lt_irrefl, if_false, str_lt_irrefl, ih]

theorem natKey_number {pre post : Str} (hpre : NoDigitEnd pre) (hpost : NoDigitStart post) (a : Nat) :
    natKey (pre ++ Nat.toDigits 10 a ++ post) =
      ((natParts pre).1, (natKey pre).2 ++ (a, (natParts post).1) :: (natKey post).2) := by
  have hd := natParts_digits (ds := Nat.toDigits 10 a) ⟨Nat.toDigits_ne_nil, Verif.Writer.digits_all a⟩ hpost
  unfold natKey
  rw [List.append_assoc, natParts_append hpre (by rw [hd]), hd]
  simp [Nat.ofDigitChars_ten_toDigits]

/-- C75: names that differ in a number are ordered by the number, not by its digits. -/
theorem C75_natural_order {pre post post' : Str} (hpre : NoDigitEnd pre) (hpost : NoDigitStart post) (hpost' : NoDigitStart post') {a b : Nat} (h : a < b) :
    natLe (pre ++ Nat.toDigits 10 a ++ post) (pre ++ Nat.toDigits 10 b ++ post') = true ∧
    natLe (pre ++ Nat.toDigits 10 b ++ post') (pre ++ Nat.toDigits 10 a ++ post) = false := by
  unfold natLe
  rw [natKey_number hpre hpost, natKey_number hpre hpost']
  simp only [str_lt_irrefl, if_false, restLe_append, restLe, h, if_true, Nat.lt_asymm h, and_self]

/-- Names with the same number are ordered by what follows. -/
theorem natLe_same {pre post post' : Str} (hpre : NoDigitEnd pre) (hpost : NoDigitStart post) (hpost' : NoDigitStart post') (a : Nat) :
    natLe (pre ++ Nat.toDigits 10 a ++ post) (pre ++ Nat.toDigits 10 a ++ post') = natLe post post' := by
  unfold natLe
  rw [natKey_number hpre hpost, natKey_number hpre hpost']
  simp only [str_lt_irrefl, if_false, restLe_append, restLe, Nat.lt_irrefl]
  rfl

/-- "experts.10" comes after "experts.9" although "1" comes before "9". -/
example : natLe "experts.9.w1".toList "experts.10.w1".toList = true ∧ natLe "experts.10.w1".toList "experts.9.w3".toList = false := by decide

/-! ## Matches -/

theorem lookup_of_nodup {V : Type} {d : List (Str × V)} (h : (d.map Prod.fst).Nodup) {k : Str} {v : V} (hm : (k, v) ∈ d) : d.lookup k = some v := by
  induction d with
  | nil => simp at hm
  | cons p d ih =>
    obtain ⟨k', v'⟩ := p
    simp only [List.map_cons, List.nodup_cons] at h
    rcases List.mem_cons.1 hm with hm | hm'
    · cases hm
      simp
    · have hne : k ≠ k' := by
        rintro rfl
        exact h.1 (List.mem_map.2 ⟨(k, v), hm', rfl⟩)
      have hb : (k == k') = false := by simp [hne]
      rw [List.lookup_cons, hb]
      exact ih h.2 hm'

/-- Sorted dictionaries are gone through as they are. -/
theorem iterMatches_sorted {V : Type} (t : Transform V) {d : List (Str × V)} (hn : (d.map Prod.fst).Nodup)
    (hs : (d.map Prod.fst).Pairwise (fun a b => natLe a b = true)) :
    iterMatches t d = d.filterMap (fun p => (t.rename p.1).2.map (fun q => { sourceKey := p.1, renamedKey := (t.rename p.1).1, sourcePattern := q, value := p.2 })) := by
  unfold iterMatches natSorted
  rw [List.Pairwise.insertionSort_eq hs, List.filterMap_map]
  refine List.filterMap_congr ?_
  intro p hp
  obtain ⟨k, v⟩ := p
  simp only [Function.comp_apply]
  cases h : (t.rename k).2 with
  | none => rfl
  | some q => simp [lookup_of_nodup hn hp]

theorem expandedTargets_single (r tp : Str) : expandedTargets r [tp] = [r] := by
  have key : ∀ s a b, cutAt tp s = some (a, b) → a ++ tp ++ b = s := by
    intro s
    induction s with
    | nil =>
      intro a b h
      unfold cutAt at h
      split at h
      · rename_i hp
        cases h
        cases tp with
        | nil => rfl
        | cons x tp => simp at hp
      · cases h
    | cons c s ih =>
      intro a b h
      unfold cutAt at h
      split at h
      · rename_i hp
        cases h
        rw [List.isPrefixOf_iff_prefix] at hp
        obtain ⟨u, hu⟩ := hp
        rw [List.nil_append, ← hu, List.drop_left]
      · cases hc : cutAt tp s with
        | none => rw [hc] at h; cases h
        | some p =>
          rw [hc] at h
          simp only [Option.map_some, Option.some.injEq, Prod.mk.injEq] at h
          obtain ⟨rfl, rfl⟩ := h
          simpa using ih p.1 p.2 hc
  unfold expandedTargets
  simp only
  cases h : cutAt tp r with
  | none => rfl
  | some p =>
    obtain ⟨a, b⟩ := p
    simp [← key r a b h]

/-! ## Experts -/

/-- What the library's converters for expert weights do: tensors whose name matches a source pattern are collected per pattern in the order they
are added, and packed into one tensor. -/
structure Packs {V : Type} (t : Transform V) (pack : List (List V) → V) (target : Str) : Prop where
  converter : t.isRenaming = false
  one : ∃ tp, t.targetPatterns = [tp]
  run : ∀ added, t.run target added = [(target, pack (t.sourcePatterns.map (fun q => (added.filter (fun a => a.2.1 = q)).map (fun a => a.2.2))))]

theorem convertLoop_skip {V : Type} (target : Str) (before ts : List (Transform V)) (d : List (Str × V))
    (h : ∀ t ∈ before, ∀ k, (t.rename k).2 ≠ none → k ∉ d.map Prod.fst) :
    convertLoop target (before ++ ts) d = convertLoop target ts d := by
  induction before with
  | nil => rfl
  | cons t before ih =>
    have hm : iterMatches t d = [] := by
      unfold iterMatches
      rw [List.filterMap_eq_nil_iff]
      intro k hk
      unfold natSorted at hk
      have hk' : k ∈ d.map Prod.fst := (List.mem_insertionSort (r := fun a b => natLe a b = true)).1 hk
      cases hr : (t.rename k).2 with
      | none => rfl
      | some q => exact absurd hk' (h t (by simp) k (by simp [hr]))
    have ih' := ih (fun t ht => h t (by simp [ht]))
    rw [List.cons_append, convertLoop]
    simp only [hm, relevant, List.map_nil, List.filter_nil]
    split
    · exact ih'
    · simpa [layersOf, convertLayers] using ih'

/-- C57 (packing): the tensors of experts `0 ... n-1`, given under their names in the order of the experts, are packed in that order, for every
number of experts; `params` are the weights of an expert that go into the same tensor. -/
theorem C57_packed {V : Type} (before after : List (Transform V)) (t : Transform V) (pack : List (List V) → V) (target stem : Str) (params : List Str)
    (pattern : Str → Str) (val : Nat → Str → V) (n : Nat) (hn : 0 < n)
    (hstem : NoDigitEnd stem) (hparams : params.Nodup) (hne : params ≠ []) (hstart : ∀ p ∈ params, NoDigitStart p)
    (horder : params.Pairwise (fun p q => natLe p q = true))
    (hbefore : ∀ u ∈ before, ∀ e p, p ∈ params → (u.rename (stem ++ Nat.toDigits 10 e ++ p)).2 = none)
    (ht : Packs t pack target) (hpat : t.sourcePatterns = params.map pattern) (hinj : ∀ p ∈ params, ∀ q ∈ params, pattern p = pattern q → p = q)
    (hmatch : ∀ e, ∀ p ∈ params, t.rename (stem ++ Nat.toDigits 10 e ++ p) = (target, some (pattern p))) :
    convertTensors (before ++ t :: after)
        ((List.range n).flatMap (fun e => params.map (fun p => (stem ++ Nat.toDigits 10 e ++ p, val e p)))) target =
      some (pack (params.map (fun p => (List.range n).map (fun e => val e p)))) := by
  have hfst : ((List.range n).flatMap (fun e => params.map (fun p => (stem ++ Nat.toDigits 10 e ++ p, val e p)))).map Prod.fst =
      (List.range n).flatMap (fun e => params.map (fun p => stem ++ Nat.toDigits 10 e ++ p)) := by
    rw [List.map_flatMap]
    congr 1
    funext e
    rw [List.map_map]
    rfl
  have hsorted : ((List.range n).flatMap (fun e => params.map (fun p => stem ++ Nat.toDigits 10 e ++ p))).Pairwise (fun a b => natLe a b = true) := by
    rw [List.pairwise_flatMap]
    refine ⟨?_, ?_⟩
    · intro e _
      rw [List.pairwise_map]
      refine horder.imp_of_mem ?_
      intro p q hp hq h
      rw [natLe_same hstem (hstart p hp) (hstart q hq)]
      exact h
    · refine (List.pairwise_lt_range (n := n)).imp ?_
      intro e e' he x hx y hy
      obtain ⟨p, hp, rfl⟩ := List.mem_map.1 hx
      obtain ⟨q, hq, rfl⟩ := List.mem_map.1 hy
      exact (C75_natural_order hstem (hstart p hp) (hstart q hq) he).1
  have hnodup : ((List.range n).flatMap (fun e => params.map (fun p => stem ++ Nat.toDigits 10 e ++ p))).Nodup := by
    rw [List.nodup_flatMap]
    refine ⟨?_, ?_⟩
    · intro e _
      refine (List.nodup_map_iff ?_).2 hparams
      intro p q h
      simpa using h
    · refine (List.pairwise_lt_range (n := n)).imp ?_
      intro e e' he x hx hy
      obtain ⟨p, hp, rfl⟩ := List.mem_map.1 hx
      obtain ⟨q, hq, h⟩ := List.mem_map.1 hy
      have h1 := (C75_natural_order hstem (hstart p hp) (hstart q hq) he).2
      have h2 := (C75_natural_order hstem (hstart p hp) (hstart q hq) he).1
      rw [h] at h1 h2
      rw [h1] at h2
      cases h2
  generalize hd : (List.range n).flatMap (fun e => params.map (fun p => (stem ++ Nat.toDigits 10 e ++ p, val e p))) = d at hfst
  unfold convertTensors
  rw [if_neg (by simp), convertLoop_skip]
  swap
  · intro u hu k hk hm
    rw [hfst] at hm
    obtain ⟨e, _, hm⟩ := List.mem_flatMap.1 hm
    obtain ⟨p, hp, rfl⟩ := List.mem_map.1 hm
    exact hk (hbefore u hu e p hp)
  have hmatches : iterMatches t d = (List.range n).flatMap (fun e => params.map (fun p =>
      { sourceKey := stem ++ Nat.toDigits 10 e ++ p, renamedKey := target, sourcePattern := pattern p, value := val e p : Match V })) := by
    rw [iterMatches_sorted t (by rw [hfst]; exact hnodup) (by rw [hfst]; exact hsorted), ← hd, List.filterMap_flatMap]
    congr 1
    funext e
    rw [List.filterMap_map]
    have : ∀ p ∈ params, ((fun p => (t.rename p.1).2.map (fun q => { sourceKey := p.1, renamedKey := (t.rename p.1).1, sourcePattern := q, value := p.2 : Match V })) ∘
        fun p => (stem ++ Nat.toDigits 10 e ++ p, val e p)) p =
        some { sourceKey := stem ++ Nat.toDigits 10 e ++ p, renamedKey := target, sourcePattern := pattern p, value := val e p } := by
      intro p hp
      simp only [Function.comp_apply, hmatch e p hp, Option.map_some]
    rw [List.filterMap_congr this, List.filterMap_eq_map']
  obtain ⟨tp, htp⟩ := ht.one
  have hrel : relevant t d target = iterMatches t d := by
    unfold relevant
    rw [List.filter_eq_self]
    intro m hm
    rw [hmatches] at hm
    obtain ⟨e, _, hm⟩ := List.mem_flatMap.1 hm
    obtain ⟨p, hp, rfl⟩ := List.mem_map.1 hm
    rw [htp, expandedTargets_single]
    simp
  have hkeys : ∀ m ∈ iterMatches t d, m.renamedKey = target := by
    intro m hm
    rw [hmatches] at hm
    obtain ⟨e, _, hm⟩ := List.mem_flatMap.1 hm
    obtain ⟨p, hp, rfl⟩ := List.mem_map.1 hm
    rfl
  have hnon : iterMatches t d ≠ [] := by
    rw [hmatches]
    obtain ⟨k, rfl⟩ : ∃ k, n = k + 1 := ⟨n - 1, by omega⟩
    cases params with
    | nil => exact absurd rfl hne
    | cons p params => simp [List.range_succ]
  obtain ⟨ls, hls⟩ : ∃ ls, layersOf (iterMatches t d) = target :: ls := by
    unfold layersOf
    cases h : iterMatches t d with
    | nil => exact absurd h hnon
    | cons m ms =>
      rw [List.map_cons, List.eraseDups_cons, hkeys m (by rw [h]; simp)]
      exact ⟨_, rfl⟩
  rw [convertLoop, if_neg (by rw [ht.converter]; simp), hrel, hls]
  have hfilter : (iterMatches t d).filter (fun m => m.renamedKey = target) = iterMatches t d := by
    rw [List.filter_eq_self]
    intro m hm
    simpa using hkeys m hm
  have hconv : convertLayer t (iterMatches t d) target = [(target, pack (params.map (fun p => (List.range n).map (fun e => val e p))))] := by
    unfold convertLayer
    rw [hfilter, ht.run, hpat, List.map_map]
    congr 3
    refine List.map_congr_left ?_
    intro p hp
    simp only [Function.comp_apply]
    rw [List.filter_map, List.map_map, hmatches, List.filter_flatMap, List.map_flatMap]
    have : ∀ e : Nat, ((params.map (fun p => { sourceKey := stem ++ Nat.toDigits 10 e ++ p, renamedKey := target, sourcePattern := pattern p, value := val e p : Match V })).filter
        ((fun a => decide (a.2.1 = pattern p)) ∘ fun m => (m.sourceKey, m.sourcePattern, m.value))).map ((fun a => a.2.2) ∘ fun m => (m.sourceKey, m.sourcePattern, m.value)) = [val e p] := by
      intro e
      rw [List.filter_map, List.map_map]
      have hf : params.filter (((fun a : Str × Str × V => decide (a.2.1 = pattern p)) ∘ fun m : Match V => (m.sourceKey, m.sourcePattern, m.value)) ∘
          fun p => { sourceKey := stem ++ Nat.toDigits 10 e ++ p, renamedKey := target, sourcePattern := pattern p, value := val e p }) = [p] := by
        have : params.filter (fun q => decide (q = p)) = [p] := by
          have hcount := hparams
          clear hmatches hrel hkeys hnon hls hfilter
          rw [List.filter_eq (l := params) p, List.count_eq_one_of_mem hcount hp]
          rfl
        rw [← this]
        refine List.filter_congr ?_
        intro q hq
        simp only [Function.comp_apply, decide_eq_decide]
        exact ⟨fun h => hinj q hq p hp h, fun h => by rw [h]⟩
      rw [hf]
      rfl
    rw [show (List.range n).flatMap _ = (List.range n).flatMap (fun e => [val e p]) from by congr 1; funext e; exact this e]
    exact List.flatMap_pure_eq_map (fun e => val e p) (List.range n)
  simp only [convertLayers, hconv, List.lookup_cons, beq_self_eq_true]

/-! ## The check and the conversion -/

/-- The same transform as the check sees it: names only, nothing is converted. -/
def Transform.keys {V : Type} (t : Transform V) : Transform Str := { t with run := fun _ _ => [] }

/-- The library's promise: a converter given at least one tensor delivers all targets it was asked for. -/
def Delivers {V : Type} (t : Transform V) : Prop :=
  ∀ layer added target, added ≠ [] → target ∈ expandedTargets layer t.targetPatterns → ∃ v, (t.run layer added).lookup target = some v

theorem lookup_dup {V : Type} (d : List (Str × V)) (k : Str) : (d.map (fun p => (p.1, p.1))).lookup k = (d.lookup k).map (fun _ => k) := by
  induction d with
  | nil => rfl
  | cons p d ih =>
    obtain ⟨k', v'⟩ := p
    simp only [List.map_cons, List.lookup_cons]
    by_cases h : k = k'
    · subst h; simp
    · have hb : (k == k') = false := by simp [h]
      simp only [hb, ih]

theorem iterMatches_keys {V : Type} (t : Transform V) (d : List (Str × V)) :
    iterMatches t.keys (d.map (fun p => (p.1, p.1))) = (iterMatches t d).map (fun m => { sourceKey := m.sourceKey, renamedKey := m.renamedKey, sourcePattern := m.sourcePattern, value := m.sourceKey }) := by
  unfold iterMatches
  rw [List.map_filterMap, List.map_map]
  have e : (Prod.fst ∘ fun p : Str × V => (p.1, p.1)) = Prod.fst := rfl
  rw [e]
  refine List.filterMap_congr ?_
  intro k _
  have e1 : t.keys.rename = t.rename := rfl
  rw [e1, lookup_dup]
  cases (t.rename k).2 with
  | none => rfl
  | some q => cases d.lookup k <;> rfl

theorem setKey_map {V W : Type} (f : Str → W) (d : List (Str × V)) (k : Str) (v : V) :
    (setKey d k v).map (fun p => (p.1, f p.1)) = setKey (d.map (fun p => (p.1, f p.1))) k (f k) := by
  induction d with
  | nil => rfl
  | cons p d ih =>
    simp only [setKey, List.map_cons]
    split
    · simp
    · simp [ih]

theorem update_map {V W : Type} (f : Str → W) (e d : List (Str × V)) :
    (update d e).map (fun p => (p.1, f p.1)) = update (d.map (fun p => (p.1, f p.1))) (e.map (fun p => (p.1, f p.1))) := by
  unfold update
  induction e generalizing d with
  | nil => rfl
  | cons p e ih => simp only [List.foldl_cons, List.map_cons, ih, setKey_map]

theorem mem_setKey {V : Type} (d : List (Str × V)) (k : Str) (v : V) (x : Str) : x ∈ (setKey d k v).map Prod.fst ↔ x ∈ d.map Prod.fst ∨ x = k := by
  induction d with
  | nil => simp [setKey]
  | cons p d ih =>
    obtain ⟨k', v'⟩ := p
    by_cases h : k' = k
    · subst h
      simp only [setKey, if_true, List.map_cons, List.mem_cons]
      tauto
    · simp only [setKey, if_neg h, List.map_cons, List.mem_cons, ih]
      tauto

theorem mem_update {V : Type} (e d : List (Str × V)) (x : Str) : x ∈ (update d e).map Prod.fst ↔ x ∈ d.map Prod.fst ∨ x ∈ e.map Prod.fst := by
  unfold update
  induction e generalizing d with
  | nil => simp
  | cons p e ih =>
    simp only [List.foldl_cons, ih, mem_setKey, List.map_cons, List.mem_cons]
    tauto

theorem lookup_some_iff {V : Type} (d : List (Str × V)) (k : Str) : (∃ v, d.lookup k = some v) ↔ k ∈ d.map Prod.fst := by
  induction d with
  | nil => simp
  | cons p d ih =>
    obtain ⟨k', v'⟩ := p
    by_cases h : k = k'
    · subst h; simp
    · have hb : (k == k') = false := by simp [h]
      simp only [List.lookup_cons, hb, ih, List.map_cons, List.mem_cons, h, false_or]

theorem convertLayers_mem {V : Type} (t : Transform V) (ms : List (Match V)) (target : Str) (ls : List Str) (d d' : List (Str × V))
    (h : convertLayers t ms target ls d = .inr d') {x : Str} (hx : x ∈ d.map Prod.fst) : x ∈ d'.map Prod.fst := by
  induction ls generalizing d with
  | nil =>
    simp only [convertLayers, Sum.inr.injEq] at h
    rwa [← h]
  | cons l ls ih =>
    simp only [convertLayers] at h
    split at h
    · cases h
    · exact ih _ h ((mem_update _ _ _).2 (Or.inl hx))

theorem convertLoop_present {V : Type} (target : Str) (ts : List (Transform V)) (d : List (Str × V)) (h : target ∈ d.map Prod.fst) :
    ∃ v, convertLoop target ts d = some v := by
  induction ts generalizing d with
  | nil => exact (lookup_some_iff d target).2 h
  | cons t ts ih =>
    rw [convertLoop]
    split
    · exact ih _ ((mem_update _ _ _).2 (Or.inl h))
    · split
      · rename_i v _
        exact ⟨v, rfl⟩
      · rename_i d' hd
        exact ih _ (convertLayers_mem _ _ _ _ _ _ hd h)

/-- Any match is enough for the conversion. -/
theorem convertLayers_delivers {V : Type} {t : Transform V} (hd : Delivers t) (d : List (Str × V)) (target : Str) (available : List (Str × V))
    (hne : relevant t d target ≠ []) :
    ∃ v, convertLayers t (relevant t d target) target (layersOf (relevant t d target)) available = .inl v := by
  cases h : relevant t d target with
  | nil => exact absurd h hne
  | cons m ms =>
    have hm : m ∈ relevant t d target := by rw [h]; simp
    have ht : target ∈ expandedTargets m.renamedKey t.targetPatterns := by
      have := (List.mem_filter.1 hm).2
      simpa using this
    unfold layersOf
    rw [List.map_cons, List.eraseDups_cons, convertLayers]
    obtain ⟨v, hv⟩ := hd m.renamedKey (((m :: ms).filter (fun x => x.renamedKey = m.renamedKey)).map (fun m => (m.sourceKey, m.sourcePattern, m.value))) target
      (by simp) ht
    have : (convertLayer t (m :: ms) m.renamedKey).lookup target = some v := hv
    rw [this]
    exact ⟨v, rfl⟩

theorem relevant_keys {V : Type} (t : Transform V) (d : List (Str × V)) (target : Str) :
    relevant t.keys (d.map (fun p => (p.1, p.1))) target =
      (relevant t d target).map (fun m => { sourceKey := m.sourceKey, renamedKey := m.renamedKey, sourcePattern := m.sourcePattern, value := m.sourceKey }) := by
  unfold relevant
  rw [iterMatches_keys, List.filter_map]
  rfl

theorem judge_some {V : Type} {t : Transform V} {ms : List (Match V)} {b : Bool} (h : judge t ms = some b) : ms ≠ [] := by
  rintro rfl
  simp [judge] at h

theorem canLoop_converts {V : Type} (target : Str) (ts : List (Transform V)) (hts : ∀ t ∈ ts, Delivers t) (d : List (Str × V))
    (h : canLoop target (ts.map Transform.keys) (d.map (fun p => (p.1, p.1))) = true) : ∃ v, convertLoop target ts d = some v := by
  induction ts generalizing d with
  | nil => simp [canLoop] at h
  | cons t ts ih =>
    have hts' : ∀ t ∈ ts, Delivers t := fun u hu => hts u (by simp [hu])
    rw [List.map_cons, canLoop] at h
    have er : t.keys.isRenaming = t.isRenaming := rfl
    rw [er] at h
    have ek : (d.map (fun p => (p.1, p.1))).map Prod.fst = d.map Prod.fst := by rw [List.map_map]; rfl
    cases hr : t.isRenaming with
    | true =>
      rw [hr] at h
      simp only [if_true] at h
      have e : update (d.map (fun p => (p.1, p.1))) ((iterMatches t.keys (d.map (fun p => (p.1, p.1)))).map (fun m => (m.renamedKey, m.renamedKey))) =
          (update d ((iterMatches t d).map (fun m => (m.renamedKey, m.value)))).map (fun p => (p.1, p.1)) := by
        rw [iterMatches_keys, update_map (fun x => x), List.map_map, List.map_map]
        rfl
      rw [e] at h
      rw [convertLoop, if_pos hr]
      split at h
      · rename_i hm
        refine convertLoop_present _ _ _ ?_
        rw [List.map_map] at hm
        exact hm
      · exact ih hts' _ h
    | false =>
      rw [hr] at h
      simp only [Bool.false_eq_true, if_false] at h
      split at h
      · rename_i hm
        rw [ek] at hm
        exact convertLoop_present target (t :: ts) d hm
      · rw [convertLoop, if_neg (by simp [hr])]
        by_cases hne : relevant t d target = []
        · rw [relevant_keys, hne] at h
          simp only [List.map_nil, judge] at h
          rw [hne]
          simp only [layersOf, List.map_nil, List.eraseDups_nil, convertLayers]
          exact ih hts' d h
        · obtain ⟨v, hv⟩ := convertLayers_delivers (hts t (by simp)) d target d hne
          rw [hv]
          exact ⟨v, rfl⟩

/-! ## Stars in patterns -/

/-- A pattern stands at the front of a text, its stars for the given texts (without dots). -/
inductive Fits : Str → Str → List Str → Prop
  | done (s : Str) : Fits [] s []
  | star (p w s : Str) (ws : List Str) : '.' ∉ w → Fits p s ws → Fits ('*' :: p) (w ++ s) (w :: ws)
  | char (c : Char) (p s : Str) (ws : List Str) : c ≠ '*' → Fits p s ws → Fits (c :: p) (c :: s) ws

/-- The first star in which two readings differ stands for more in the first one. -/
def Greedier (ws ws' : List Str) : Prop := ∃ c w w' r r', ws = c ++ w :: r ∧ ws' = c ++ w' :: r' ∧ w'.length < w.length

/-- What the stars of a pattern stand for in a text (regular expressions: the leftmost place, each star for as much as it can): nothing if there is
no star, or the pattern does not occur. -/
def Stars (p key : Str) (ws : List Str) : Prop :=
  ('*' ∉ p ∧ ws = []) ∨
  ('*' ∈ p ∧ ws = [] ∧ ∀ pre s, key = pre ++ s → ∀ ws', ¬ Fits p s ws') ∨
  ('*' ∈ p ∧ ∃ pre s, key = pre ++ s ∧ Fits p s ws ∧ (∀ ws', Fits p s ws' → ws' = ws ∨ Greedier ws ws') ∧
    ∀ pre' s', key = pre' ++ s' → pre'.length < pre.length → ∀ ws', ¬ Fits p s' ws')

theorem takeWhile_length_dot {w s : Str} (h : '.' ∉ w) : w.length ≤ ((w ++ s).takeWhile (· ≠ '.')).length := by
  induction w with
  | nil => simp
  | cons c w ih =>
    have hc : c ≠ '.' := fun e => h (by simp [e])
    rw [List.cons_append, List.takeWhile_cons, if_pos (by simpa using hc)]
    simpa using ih (fun e => h (List.mem_cons_of_mem _ e))

theorem take_no_dot {s : Str} {k : Nat} (h : k ≤ (s.takeWhile (· ≠ '.')).length) : '.' ∉ s.take k := by
  intro hd
  have e : s.take k = (s.takeWhile (· ≠ '.')).take k := by
    conv_lhs => rw [← List.takeWhile_append_dropWhile (p := (· ≠ '.')) (l := s)]
    rw [List.take_append_of_le_length h]
  rw [e] at hd
  have := List.all_eq_true.1 (List.all_takeWhile (p := (· ≠ '.')) (l := s)) _ (List.mem_of_mem_take hd)
  simp at this

theorem fits_star_iff {p s : Str} {ws : List Str} :
    Fits ('*' :: p) s ws ↔ ∃ k ≤ (s.takeWhile (· ≠ '.')).length, ∃ g, Fits p (s.drop k) g ∧ ws = s.take k :: g := by
  constructor
  · intro h
    cases h with
    | star p w s ws hw h =>
      refine ⟨w.length, takeWhile_length_dot hw, ws, ?_, ?_⟩
      · rwa [List.drop_left]
      · rw [List.take_left]
    | char c p s ws hc h => exact absurd rfl hc
  · rintro ⟨k, hk, g, hg, rfl⟩
    have := Fits.star p (s.take k) (s.drop k) g (take_no_dot hk) hg
    rwa [List.take_append_drop] at this

theorem findSome?_range_reverse {α : Type} (f : Nat → Option α) (n : Nat) (a : α) :
    (List.range n).reverse.findSome? f = some a ↔ ∃ k < n, f k = some a ∧ ∀ j, k < j → j < n → f j = none := by
  induction n with
  | zero => simp
  | succ n ih =>
    rw [List.range_succ, List.reverse_append, List.reverse_singleton, List.singleton_append, List.findSome?_cons]
    cases hf : f n with
    | some b =>
      simp only [Option.some.injEq]
      constructor
      · rintro rfl
        exact ⟨n, by omega, hf, fun j h1 h2 => by omega⟩
      · rintro ⟨k, hk, hk', hj⟩
        rcases Nat.lt_or_ge k n with h | h
        · have := hj n h (by omega)
          rw [hf] at this
          cases this
        · have : k = n := by omega
          subst this
          rw [hf] at hk'
          exact Option.some.inj hk'
    | none =>
      simp only
      rw [ih]
      constructor
      · rintro ⟨k, hk, hk', hj⟩
        refine ⟨k, by omega, hk', fun j h1 h2 => ?_⟩
        rcases Nat.lt_or_ge j n with h | h
        · exact hj j h1 h
        · have : j = n := by omega
          subst this
          exact hf
      · rintro ⟨k, hk, hk', hj⟩
        have : k ≠ n := by
          rintro rfl
          rw [hf] at hk'
          cases hk'
        exact ⟨k, by omega, hk', fun j h1 h2 => hj j h1 (by omega)⟩

theorem matchHere_spec (p : Str) : ∀ s, (∀ ws, matchHere p s = some ws → Fits p s ws ∧ ∀ ws', Fits p s ws' → ws' = ws ∨ Greedier ws ws') ∧
    (matchHere p s = none → ∀ ws, ¬ Fits p s ws) := by
  induction p with
  | nil =>
    intro s
    refine ⟨fun ws h => ?_, fun h => by simp [matchHere] at h⟩
    simp only [matchHere, Option.some.injEq] at h
    subst h
    exact ⟨.done s, fun ws' h' => by cases h'; exact Or.inl rfl⟩
  | cons c p ih =>
    intro s
    by_cases hc : c = '*'
    · subst hc
      have e : matchHere ('*' :: p) s = (List.range ((s.takeWhile (· ≠ '.')).length + 1)).reverse.findSome?
          (fun k => (matchHere p (s.drop k)).map (fun g => s.take k :: g)) := by
        simp only [matchHere]
      rw [e]
      constructor
      · intro ws h
        obtain ⟨k, hk, hk', hj⟩ := (findSome?_range_reverse _ _ _).1 h
        obtain ⟨g, hg, rfl⟩ := Option.map_eq_some_iff.1 hk'
        obtain ⟨h1, h2⟩ := (ih (s.drop k)).1 g hg
        refine ⟨fits_star_iff.2 ⟨k, by omega, g, h1, rfl⟩, fun ws' h' => ?_⟩
        obtain ⟨j, hjn, g', hg', rfl⟩ := fits_star_iff.1 h'
        have hlen : (s.takeWhile (· ≠ '.')).length ≤ s.length := (List.takeWhile_prefix _).length_le
        rcases Nat.lt_trichotomy j k with hlt | heq | hgt
        · refine Or.inr ⟨[], s.take k, s.take j, g, g', rfl, rfl, ?_⟩
          rw [List.length_take, List.length_take]
          omega
        · subst heq
          rcases h2 g' hg' with rfl | ⟨c, w, w', r, r', rfl, rfl, hl⟩
          · exact Or.inl rfl
          · exact Or.inr ⟨s.take j :: c, w, w', r, r', rfl, rfl, hl⟩
        · have := hj j hgt (by omega)
          rw [Option.map_eq_none_iff] at this
          exact absurd hg' ((ih (s.drop j)).2 this g')
      · intro h ws h'
        obtain ⟨j, hjn, g', hg', rfl⟩ := fits_star_iff.1 h'
        rw [List.findSome?_eq_none_iff] at h
        have := h j (List.mem_reverse.2 (List.mem_range.2 (by omega)))
        rw [Option.map_eq_none_iff] at this
        exact (ih (s.drop j)).2 this g' hg'
    · cases s with
      | nil =>
        refine ⟨fun ws h => ?_, fun _ ws h => ?_⟩
        · simp [matchHere] at h
        · generalize hs : ([] : Str) = t at h
          cases h with
          | star _ w s ws _ _ => exact hc rfl
          | char _ _ s' _ _ h => cases hs
      | cons d s =>
        have e : matchHere (c :: p) (d :: s) = if c = d then matchHere p s else none := by
          simp [matchHere]
        rw [e]
        by_cases hd : c = d
        · subst hd
          rw [if_pos rfl]
          have inv : ∀ ws, Fits (c :: p) (c :: s) ws ↔ Fits p s ws := by
            intro ws
            constructor
            · intro h
              generalize hs : c :: s = t at h
              cases h with
              | star _ w s' ws _ _ => exact absurd rfl hc
              | char _ _ s' _ _ h =>
                cases hs
                exact h
            · exact fun h => .char c p s ws hc h
          simp only [inv]
          exact ih s
        · rw [if_neg hd]
          refine ⟨fun ws h => (by cases h), fun _ ws h => ?_⟩
          generalize hs : d :: s = t at h
          cases h with
          | star _ w s' ws _ _ => exact hc rfl
          | char _ _ s' _ _ h =>
            cases hs
            exact hd rfl

/-- C75: the texts which the check goes by are what a regular expression finds for the stars. -/
theorem C75_stars (p key : Str) : Stars p key (wildcardValues p key) := by
  unfold wildcardValues
  by_cases hp : '*' ∈ p
  · rw [if_pos hp]
    right
    have key' : ∀ key : Str, (key.tails.findSome? (matchHere p) = none → ∀ pre s, key = pre ++ s → ∀ ws', ¬ Fits p s ws') ∧
        ∀ ws, key.tails.findSome? (matchHere p) = some ws → ∃ pre s, key = pre ++ s ∧ matchHere p s = some ws ∧
          ∀ pre' s', key = pre' ++ s' → pre'.length < pre.length → ∀ ws', ¬ Fits p s' ws' := by
      intro key
      induction key with
      | nil =>
        rw [List.tails, List.findSome?_cons]
        cases hm : matchHere p [] with
        | some ws =>
          refine ⟨fun h => (by cases h), fun ws' h => ?_⟩
          simp only [Option.some.injEq] at h
          subst h
          exact ⟨[], [], rfl, hm, fun _ _ _ h => by simp at h⟩
        | none =>
          refine ⟨fun _ pre s h ws' => ?_, fun ws' h => by simp at h⟩
          have : s = [] := by simpa using (List.append_eq_nil_iff.1 h.symm).2
          subst this
          exact (matchHere_spec p []).2 hm ws'
      | cons c key ih =>
        rw [List.tails, List.findSome?_cons]
        cases hm : matchHere p (c :: key) with
        | some ws =>
          refine ⟨fun h => (by cases h), fun ws' h => ?_⟩
          simp only [Option.some.injEq] at h
          subst h
          exact ⟨[], c :: key, rfl, hm, fun _ _ _ h => by simp at h⟩
        | none =>
          have here := (matchHere_spec p (c :: key)).2 hm
          simp only
          constructor
          · intro h pre s hs ws'
            cases pre with
            | nil =>
              rw [List.nil_append] at hs
              subst hs
              exact here ws'
            | cons d pre =>
              rw [List.cons_append, List.cons.injEq] at hs
              exact ih.1 h pre s hs.2 ws'
          · intro ws h
            obtain ⟨pre, s, h1, h2, h3⟩ := ih.2 ws h
            refine ⟨c :: pre, s, by rw [h1]; rfl, h2, fun pre' s' hs hl ws' => ?_⟩
            cases pre' with
            | nil =>
              rw [List.nil_append] at hs
              subst hs
              exact here ws'
            | cons d pre' =>
              rw [List.cons_append, List.cons.injEq] at hs
              exact h3 pre' s' hs.2 (by simpa using hl) ws'
    cases hf : key.tails.findSome? (matchHere p) with
    | none => exact Or.inl ⟨hp, rfl, (key' key).1 hf⟩
    | some ws =>
      obtain ⟨pre, s, h1, h2, h3⟩ := (key' key).2 ws hf
      obtain ⟨h4, h5⟩ := (matchHere_spec p s).1 ws h2
      exact Or.inr ⟨hp, pre, s, h1, h4, h5, h3⟩
  · rw [if_neg hp]
    exact Or.inl ⟨hp, rfl⟩

theorem Greedier.irrefl_pair {ws ws' : List Str} (h : Greedier ws ws') (h' : Greedier ws' ws) : False := by
  obtain ⟨c, w, w', r, r', rfl, rfl, hl⟩ := h
  obtain ⟨d, v, v', q, q', h1, h2, hl'⟩ := h'
  induction c generalizing d with
  | nil =>
    cases d with
    | nil =>
      simp only [List.nil_append, List.cons.injEq] at h1 h2
      rw [← h1.1, ← h2.1] at hl'
      omega
    | cons x d =>
      simp only [List.nil_append, List.cons_append, List.cons.injEq] at h1 h2
      rw [h1.1, h2.1] at hl
      omega
  | cons y c ih =>
    cases d with
    | nil =>
      simp only [List.nil_append, List.cons_append, List.cons.injEq] at h1 h2
      rw [← h1.1, ← h2.1] at hl'
      omega
    | cons x d =>
      simp only [List.cons_append, List.cons.injEq] at h1 h2
      exact ih d h1.2 h2.2

theorem Stars.unique {p key : Str} {ws ws' : List Str} (h : Stars p key ws) (h' : Stars p key ws') : ws = ws' := by
  rcases h with ⟨h1, h2⟩ | ⟨h1, h2, h3⟩ | ⟨h1, pre, s, e, hf, hg, hl⟩ <;> rcases h' with ⟨h1', h2'⟩ | ⟨h1', h2', h3'⟩ | ⟨h1', pre', s', e', hf', hg', hl'⟩
  · rw [h2, h2']
  · exact absurd h1' h1
  · exact absurd h1' h1
  · exact absurd h1 h1'
  · rw [h2, h2']
  · exact absurd hf' (h3 _ _ e' _)
  · exact absurd h1 h1'
  · exact absurd hf (h3' _ _ e _)
  · rcases Nat.lt_trichotomy pre.length pre'.length with hlt | heq | hgt
    · exact absurd hf (hl' _ _ e hlt _)
    · obtain ⟨_, hs⟩ := List.append_inj (e.symm.trans e') heq
      subst hs
      rcases hg _ hf' with h | h
      · exact h.symm
      · rcases hg' _ hf with h'' | h''
        · exact h''
        · exact absurd h'' (fun h'' => h.irrefl_pair h'')
    · exact absurd hf' (hl _ _ e' hgt _)

theorem Stars.iff {p key : Str} {ws : List Str} : Stars p key ws ↔ wildcardValues p key = ws :=
  ⟨fun h => (C75_stars p key).unique h, fun h => h ▸ C75_stars p key⟩

/-- C75: whenever the check says that a tensor can be made of a checkpoint's tensors, the conversion yields one. -/
theorem C75_check_sound {V : Type} (ts : List (Transform V)) (hts : ∀ t ∈ ts, Delivers t) (sources : List (Str × V)) (target : Str)
    (hne : ts ≠ [] ∨ target ∉ sources.map Prod.fst) (h : canConvert (ts.map Transform.keys) (sources.map Prod.fst) target = true) :
    ∃ v, convertTensors ts sources target = some v := by
  unfold canConvert at h
  unfold convertTensors
  by_cases hts0 : ts = []
  · subst hts0
    rw [if_neg (by simpa using hne)] at h
    simp at h
  · rw [if_neg (by simp [hts0])]
    split at h
    · rename_i hm
      exact convertLoop_present target ts sources hm
    · rw [if_neg (by simp [hts0])] at h
      rw [List.map_map] at h
      exact canLoop_converts target ts hts sources h

theorem sameSet_iff {a b : List (List Str)} : sameSet a b = true ↔ ∀ w, w ∈ a ↔ w ∈ b := by
  unfold sameSet
  simp only [Bool.and_eq_true, List.all_eq_true, decide_eq_true_eq]
  exact ⟨fun h w => ⟨h.1 w, h.2 w⟩, fun h => ⟨fun w => (h w).1, fun w => (h w).2⟩⟩

/-- C75: when the check accepts a tensor made by a converter, every expert that has one of the weights that go into it has all of them. -/
theorem C75_check_complete {V : Type} (t : Transform V) (hr : t.isRenaming = false) (hp : t.sourcePatterns ≠ [])
    (hpat : ∀ k p, (t.rename k).2 = some p → p ∈ t.sourcePatterns) (sources : List (Str × V)) (target : Str) (hnot : target ∉ sources.map Prod.fst) (h : canConvert [t.keys] (sources.map Prod.fst) target = true) :
    ∀ p ∈ t.sourcePatterns, ∀ q ∈ t.sourcePatterns, (∃ m ∈ relevant t sources target, m.sourcePattern = p) ∧
      ∀ m ∈ relevant t sources target, m.sourcePattern = p →
        ∃ m' ∈ relevant t sources target, m'.sourcePattern = q ∧ ∃ ws, Stars p m.sourceKey ws ∧ Stars q m'.sourceKey ws := by
  unfold canConvert at h
  rw [if_neg hnot, if_neg (by simp), canLoop] at h
  have er : t.keys.isRenaming = t.isRenaming := rfl
  rw [er, hr] at h
  have ek : ((sources.map Prod.fst).map (fun k => (k, k))) = sources.map (fun p => (p.1, p.1)) := by rw [List.map_map]; rfl
  rw [ek] at h
  have ek' : (sources.map (fun p => (p.1, p.1))).map Prod.fst = sources.map Prod.fst := by rw [List.map_map]; rfl
  simp only [Bool.false_eq_true, if_false] at h
  rw [ek', if_neg hnot, relevant_keys] at h
  have hg : ∀ ms : List (Match V), ∀ p, groupOf (ms.map (fun m => { sourceKey := m.sourceKey, renamedKey := m.renamedKey, sourcePattern := m.sourcePattern, value := m.sourceKey : Match Str })) p = groupOf ms p := by
    intro ms p
    unfold groupOf
    rw [List.filter_map, List.map_map]
    rfl
  have hin : ∀ m ∈ relevant t sources target, m.sourcePattern ∈ t.sourcePatterns := by
    intro m hm
    have hm1 := (List.mem_filter.1 hm).1
    unfold iterMatches at hm1
    obtain ⟨k, _, hk⟩ := List.mem_filterMap.1 hm1
    cases hq : (t.rename k).2 with
    | none => rw [hq] at hk; cases hk
    | some q =>
      rw [hq] at hk
      obtain ⟨v, _, hv⟩ := Option.map_eq_some_iff.1 hk
      rw [← hv]
      exact hpat k q hq
  generalize relevant t sources target = ms at h hin ⊢
  have esp : t.keys.sourcePatterns = t.sourcePatterns := rfl
  have mem_group : ∀ p w, w ∈ groupOf ms p ↔ ∃ m ∈ ms, m.sourcePattern = p ∧ wildcardValues p m.sourceKey = w := by
    intro p w
    unfold groupOf
    simp only [List.mem_map, List.mem_filter, decide_eq_true_eq]
    constructor
    · rintro ⟨m, ⟨hm, rfl⟩, rfl⟩
      exact ⟨m, hm, rfl, rfl⟩
    · rintro ⟨m, hm, rfl, rfl⟩
      exact ⟨m, ⟨hm, rfl⟩, rfl⟩
  cases hms : ms with
  | nil => rw [hms] at h; simp [judge, canLoop] at h
  | cons m0 ms0 =>
    rw [← hms]
    have hj : judge t.keys (ms.map (fun m => { sourceKey := m.sourceKey, renamedKey := m.renamedKey, sourcePattern := m.sourcePattern, value := m.sourceKey : Match Str })) =
        if t.sourcePatterns.all (fun p => decide (groupOf ms p ≠ [])) then
          match t.sourcePatterns with
          | [] => some false
          | p :: ps => if ps.all (fun q => sameSet (groupOf ms q) (groupOf ms p)) then some (completeGroup (groupOf ms p)) else some false
        else if t.sourcePatterns.length = 1 then some (completeGroup (groupOf ms m0.sourcePattern)) else none := by
      have e : ms.map (fun m => { sourceKey := m.sourceKey, renamedKey := m.renamedKey, sourcePattern := m.sourcePattern, value := m.sourceKey : Match Str }) =
          { sourceKey := m0.sourceKey, renamedKey := m0.renamedKey, sourcePattern := m0.sourcePattern, value := m0.sourceKey } ::
            ms0.map (fun m => { sourceKey := m.sourceKey, renamedKey := m.renamedKey, sourcePattern := m.sourcePattern, value := m.sourceKey : Match Str }) := by
        rw [hms]; rfl
      have hj0 : ∀ (u : Transform Str) (x : Match Str) (xs : List (Match Str)), judge u (x :: xs) =
          if u.sourcePatterns.all (fun p => decide (groupOf (x :: xs) p ≠ [])) then
            match u.sourcePatterns with
            | [] => some false
            | p :: ps => if ps.all (fun q => sameSet (groupOf (x :: xs) q) (groupOf (x :: xs) p)) then some (completeGroup (groupOf (x :: xs) p)) else some false
          else if u.sourcePatterns.length = 1 then some (completeGroup (groupOf (x :: xs) x.sourcePattern)) else none := fun _ _ _ => rfl
      rw [e, hj0, ← e, esp]
      simp only [hg]
    rw [hj] at h
    by_cases hall : t.sourcePatterns.all (fun p => decide (groupOf ms p ≠ [])) = true
    · rw [if_pos hall] at h
      have hall' : ∀ p ∈ t.sourcePatterns, groupOf ms p ≠ [] := by
        intro p hp
        have := List.all_eq_true.1 hall p hp
        simpa using this
      cases hsp : t.sourcePatterns with
      | nil => exact absurd hsp hp
      | cons p0 ps =>
        rw [hsp] at h
        simp only at h
        by_cases hs : ps.all (fun q => sameSet (groupOf ms q) (groupOf ms p0)) = true
        · have hsame : ∀ p ∈ p0 :: ps, ∀ w, w ∈ groupOf ms p ↔ w ∈ groupOf ms p0 := by
            intro p hp
            rcases List.mem_cons.1 hp with rfl | hp
            · exact fun w => Iff.rfl
            · exact sameSet_iff.1 (List.all_eq_true.1 hs p hp)
          intro p hp q hq
          constructor
          · have hne := hall' p (by rw [hsp]; exact hp)
            obtain ⟨w, hw⟩ := List.exists_mem_of_ne_nil _ hne
            obtain ⟨m, hm, h1, _⟩ := (mem_group p w).1 hw
            exact ⟨m, hm, h1⟩
          · intro m hm hmp
            have hw : wildcardValues p m.sourceKey ∈ groupOf ms p := (mem_group p _).2 ⟨m, hm, hmp, rfl⟩
            rw [hsame p hp, ← hsame q hq] at hw
            obtain ⟨m', hm', h1, h2⟩ := (mem_group q _).1 hw
            exact ⟨m', hm', h1, _, C75_stars _ _, Stars.iff.2 h2⟩
        · rw [if_neg hs] at h
          simp at h
    · exfalso
      rw [if_neg hall] at h
      by_cases hone : t.sourcePatterns.length = 1
      · obtain ⟨p0, hp0⟩ := List.length_eq_one_iff.1 hone
        apply hall
        rw [hp0]
        have hm0 := hin m0 (by rw [hms]; simp)
        rw [hp0, List.mem_singleton] at hm0
        have : wildcardValues p0 m0.sourceKey ∈ groupOf ms p0 := (mem_group p0 _).2 ⟨m0, by rw [hms]; simp, hm0, rfl⟩
        simp only [List.all_cons, List.all_nil, Bool.and_true, decide_eq_true_eq]
        intro h0
        rw [h0] at this
        cases this
      · rw [if_neg hone] at h
        simp [canLoop] at h

/-! ## Where they differ -/

/-- C75: for a single expert the check says no, although the conversion yields the tensor.  (All tensors found have the same expert number.) -/
theorem C75_single_expert {V : Type} (t : Transform V) (hr : t.isRenaming = false) (hd : Delivers t) (sources : List (Str × V)) (target : Str)
    (hnot : target ∉ sources.map Prod.fst) (hne : relevant t sources target ≠ []) (w : List Str) (hw : w ≠ [])
    (hsame' : ∀ m ∈ relevant t sources target, Stars m.sourcePattern m.sourceKey w) :
    canConvert [t.keys] (sources.map Prod.fst) target = false ∧ ∃ v, convertTensors [t] sources target = some v := by
  have hsame : ∀ m ∈ relevant t sources target, wildcardValues m.sourcePattern m.sourceKey = w := fun m hm => Stars.iff.1 (hsame' m hm)
  constructor
  · have hg : ∀ ms : List (Match V), ∀ p, groupOf (ms.map (fun m => { sourceKey := m.sourceKey, renamedKey := m.renamedKey, sourcePattern := m.sourcePattern, value := m.sourceKey : Match Str })) p = groupOf ms p := by
      intro ms p
      unfold groupOf
      rw [List.filter_map, List.map_map]
      rfl
    have ek : ((sources.map Prod.fst).map (fun k => (k, k))) = sources.map (fun p => (p.1, p.1)) := by rw [List.map_map]; rfl
    have ek' : (sources.map (fun p => (p.1, p.1))).map Prod.fst = sources.map Prod.fst := by rw [List.map_map]; rfl
    have er : t.keys.isRenaming = t.isRenaming := rfl
    unfold canConvert
    rw [if_neg hnot, if_neg (by simp), canLoop, er, hr, ek, ek', if_neg hnot, relevant_keys]
    simp only [Bool.false_eq_true, if_false]
    generalize relevant t sources target = ms at hne hsame
    have hgroup : ∀ p, completeGroup (groupOf ms p) = false := by
      intro p
      have hall : ∀ x ∈ groupOf ms p, x = w := by
        intro x hx
        unfold groupOf at hx
        obtain ⟨m, hm, rfl⟩ := List.mem_map.1 hx
        exact hsame m (List.mem_filter.1 hm).1
      generalize groupOf ms p = g at hall
      unfold completeGroup
      rw [Bool.or_eq_false_iff]
      constructor
      · cases hss : sameSet g [[]] with
        | false => rfl
        | true =>
          have := (sameSet_iff.1 hss []).2 (by simp)
          exact absurd (hall _ this).symm hw
      · rw [decide_eq_false_iff_not]
        cases g with
        | nil => simp
        | cons x g =>
          rw [List.eraseDups_cons]
          have : g.filter (fun b => !b == x) = [] := by
            rw [List.filter_eq_nil_iff]
            intro y hy
            rw [hall y (by simp [hy]), hall x (by simp)]
            simp
          rw [this]
          simp
    cases hms : ms with
    | nil => exact absurd hms hne
    | cons m0 ms0 =>
      have hfalse : judge t.keys (ms.map (fun m => { sourceKey := m.sourceKey, renamedKey := m.renamedKey, sourcePattern := m.sourcePattern, value := m.sourceKey : Match Str })) = some false ∨
          judge t.keys (ms.map (fun m => { sourceKey := m.sourceKey, renamedKey := m.renamedKey, sourcePattern := m.sourcePattern, value := m.sourceKey : Match Str })) = none := by
        have hj0 : ∀ (u : Transform Str) (xs : List (Match Str)), (∀ p, completeGroup (groupOf xs p) = false) → judge u xs = some false ∨ judge u xs = none := by
          intro u xs hx
          cases xs with
          | nil => right; rfl
          | cons x xs =>
            simp only [judge, hx]
            split
            · left
              split
              · rfl
              · split <;> rfl
            · split
              · left; rfl
              · right; rfl
        exact hj0 _ _ (fun p => by rw [hg]; exact hgroup p)
      rw [← hms]
      rcases hfalse with h | h <;> rw [h]
      rfl
  · unfold convertTensors
    rw [if_neg (by simp), convertLoop, if_neg (by simp [hr])]
    obtain ⟨v, hv⟩ := convertLayers_delivers hd sources target sources hne
    rw [hv]
    exact ⟨v, rfl⟩

/-! ## Examples -/

def likeW1 : Str := "mlp.experts.*.w1".toList
def likeW3 : Str := "mlp.experts.*.w3".toList
def likeTarget : Str := "mlp.experts.gate_up".toList
def likePack (g : List (List (List Str))) : List Str := (g.map List.flatten).flatten

/-- A converter like the library's for Mixtral's first and third weights, on texts instead of tensors; names of one layer only. -/
def mixtralLike : Transform (List Str) where
  isRenaming := false
  rename k :=
    if wildcardValues likeW1 k ≠ [] then (likeTarget, some likeW1)
    else if wildcardValues likeW3 k ≠ [] then (likeTarget, some likeW3)
    else (k, none)
  sourcePatterns := [likeW1, likeW3]
  targetPatterns := [likeTarget]
  run layer added := [(layer, likePack ([likeW1, likeW3].map (fun q => (added.filter (fun a => a.2.1 = q)).map (fun a => a.2.2))))]

theorem mixtralLike_delivers : Delivers mixtralLike := by
  intro layer added target _ h
  have e : expandedTargets layer mixtralLike.targetPatterns = [layer] := expandedTargets_single _ _
  rw [e, List.mem_singleton] at h
  subst h
  exact ⟨_, List.lookup_cons_self⟩

theorem mixtralLike_packs : Packs mixtralLike likePack likeTarget where
  converter := rfl
  one := ⟨_, rfl⟩
  run _ := rfl

/-- A converter that goes by the end of the name. -/
def suffixLike : Transform (List Str) where
  isRenaming := false
  rename k :=
    if [ '.', 'g' ].isSuffixOf k then (likeTarget, some likeW1)
    else if [ '.', 'u' ].isSuffixOf k then (likeTarget, some likeW3)
    else (k, none)
  sourcePatterns := [likeW1, likeW3]
  targetPatterns := [likeTarget]
  run layer added := [(layer, likePack ([likeW1, likeW3].map (fun q => (added.filter (fun a => a.2.1 = q)).map (fun a => a.2.2))))]

/-- The hypotheses of `C57_packed` are met, here for any number of experts. -/
example (n : Nat) (hn : 0 < n) : convertTensors [suffixLike]
    ((List.range n).flatMap (fun e => [['.', 'g'], ['.', 'u']].map (fun p => (['x', '.'] ++ Nat.toDigits 10 e ++ p, [Nat.toDigits 10 e ++ p])))) likeTarget =
    some (likePack ([['.', 'g'], ['.', 'u']].map (fun p => (List.range n).map (fun e => [Nat.toDigits 10 e ++ p])))) := by
  refine C57_packed [] [] suffixLike likePack likeTarget ['x', '.'] [['.', 'g'], ['.', 'u']]
    (fun p => if p = ['.', 'g'] then likeW1 else likeW3) (fun e p => [Nat.toDigits 10 e ++ p]) n hn ?_ (by decide) (by decide) ?_ (by decide) ?_
    ⟨rfl, ⟨_, rfl⟩, fun _ => rfl⟩ (by decide) (by decide) ?_
  · intro c hc
    cases hc
    decide
  · intro p hp c hc
    simp only [List.mem_cons, List.not_mem_nil, or_false] at hp
    rcases hp with rfl | rfl <;> (cases hc; decide)
  · intro u hu
    cases hu
  · intro e p hp
    have key : ∀ (x y : Str), x.length = 2 → y.length = 2 → ∀ z : Str, x.isSuffixOf (z ++ y) = decide (x = y) := by
      intro x y hx hy z
      rw [Bool.eq_iff_iff, List.isSuffixOf_iff_suffix, decide_eq_true_eq]
      constructor
      · rintro ⟨w, hw⟩
        exact (List.append_inj' hw (by rw [hx, hy])).2
      · rintro rfl
        exact List.suffix_append _ _
    simp only [List.mem_cons, List.not_mem_nil, or_false] at hp
    rcases hp with rfl | rfl
    · simp only [suffixLike]
      rw [key _ _ rfl rfl]
      simp
    · simp only [suffixLike]
      rw [key _ _ rfl rfl, key _ _ rfl rfl]
      simp

/-- Tensors of experts 0 and 1. -/
def twoExperts : List (Str × List Str) :=
  ["mlp.experts.0.w1", "mlp.experts.0.w3", "mlp.experts.1.w1", "mlp.experts.1.w3"].map (fun s => (s.toList, [s.toList]))

/-- The check accepts two complete experts. -/
example : canConvert [mixtralLike.keys] (twoExperts.map Prod.fst) likeTarget = true ∧
    convertTensors [mixtralLike] twoExperts likeTarget =
      some (["mlp.experts.0.w1", "mlp.experts.1.w1", "mlp.experts.0.w3", "mlp.experts.1.w3"].map String.toList) := by decide +kernel

/-- A single expert meets the hypotheses of `C75_single_expert`. -/
example : relevant mixtralLike (twoExperts.take 2) likeTarget ≠ [] ∧
    ∀ m ∈ relevant mixtralLike (twoExperts.take 2) likeTarget, Stars m.sourcePattern m.sourceKey ["0".toList] := by
  simp only [Stars.iff]
  decide +kernel

/-- C75: with a weight of an expert missing the check says no, but loading the tensor packs what there is, the experts out of step. -/
theorem C75_incomplete_packed :
    canConvert [mixtralLike.keys] ((twoExperts.eraseIdx 1).map Prod.fst) likeTarget = false ∧
    convertTensors [mixtralLike] (twoExperts.eraseIdx 1) likeTarget =
      some (["mlp.experts.0.w1", "mlp.experts.1.w1", "mlp.experts.1.w3"].map String.toList) := by decide +kernel

end Verif.Convert
