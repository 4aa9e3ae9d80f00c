import Verif.Model.Search
import Verif.Model.LoadTask
import Verif.Props.Evolve
import Verif.Props.EvolveScore
import Verif.Props.Genome
import Verif.Props.WholeMerge

/-! # C125: a search reports the best genotype it tried, whichever way genotypes are evaluated -/

namespace Verif.Search

open Verif.ModelRef (Str Ref ModelPath)
open Verif.Genome (Definition Genome Ops Input mergeConfig)
open Verif.Config (MergeConfig InSlice InModel OutSlice OutModule)
open Verif.Evolve (World Event)
open Verif.Resume (uniqueId)
open Verif.MultiMerge (pathJoin)

/-! ## Strategies -/

section
variable {G P R E : Type}

/-- Every genotype can be merged, and all evaluations of a model made of it agree: they give its score. -/
def Reliable (w : World G P R E) (score : G → R) : Prop :=
  (∀ i g, ∃ p, w.merge i g = .ok (some p)) ∧ ∀ i g p, w.merge i g = .ok (some p) → ∀ j, w.evaluate j p = .ok (score g)

theorem collect_map {A B : Type} (f : A → Option B) (h : A → B) (l : List A) (hf : ∀ a ∈ l, f a = some (h a)) :
    collect (l.map f) = some (l.map h) := by
  induction l with
  | nil => rfl
  | cons a l ih =>
    rw [List.map_cons, hf a (by simp), List.map_cons]
    unfold collect
    rw [ih (fun b hb => hf b (by simp [hb]))]
    rfl

theorem collect_some {A : Type} (l : List (Option A)) (r : List A) : collect l = some r ↔ l = r.map some := by
  induction l generalizing r with
  | nil => cases r <;> simp [collect]
  | cons a l ih =>
    cases a with
    | none => cases r <;> simp [collect]
    | some a =>
      unfold collect
      rw [Option.map_eq_some_iff]
      constructor
      · rintro ⟨t, ht, rfl⟩
        rw [(ih t).1 ht]
        rfl
      · intro h
        cases r with
        | nil => cases h
        | cons b r =>
          rw [List.map_cons, List.cons.injEq, Option.some.injEq] at h
          exact ⟨r, (ih r).2 h.2, by rw [h.1]⟩

theorem onDisk_reliable (w : World G P R E) (score : G → R) (hw : Reliable w score) (i : Nat) (u : Unit) (g : G) :
    onDisk w i u g = (some (some (score g)), ()) := by
  obtain ⟨p, hp⟩ := hw.1 i g
  unfold onDisk
  simp only [hp, hw.2 i g p hp i]

/-- A pool of any number of actors merging to disk gives the scores of the genotypes, in their order, whichever actor got which genotype. -/
theorem C125_pool {A : Type} [DecidableEq A] (w : World G P R E) (score : G → R) (hw : Reliable w score) (assign : Nat → A) (states : A → Unit)
    (xs : List G) : collect (pool (onDisk w) assign 0 states xs) = some (xs.map (fun g => some (score g))) := by
  suffices H : ∀ i states, collect (pool (onDisk w) assign i states xs) = some (xs.map (fun g => some (score g))) from H 0 states
  induction xs with
  | nil => intro i states; rfl
  | cons g gs ih =>
    intro i states
    unfold pool
    rw [onDisk_reliable w score hw]
    unfold collect
    rw [ih]
    rfl

/-- So does the serial strategy. -/
theorem C125_serial (w : World G P R E) (score : G → R) (hw : Reliable w score) (xs : List G) :
    collect (serial w xs) = some (xs.map (fun g => some (score g))) := by
  unfold serial
  rw [collect_map _ (fun e => some (score e.1))]
  · congr 1
    rw [show (fun e : G × Nat => some (score e.1)) = (fun g => some (score g)) ∘ Prod.fst from rfl, ← List.map_map]
    simp
  · intro e _
    obtain ⟨p, hp⟩ := hw.1 e.2 e.1
    unfold serialOne
    simp only [hp, hw.2 e.2 e.1 p hp e.2]

/-- So does the buffered one, in every generation: if the actor has been sent the genotypes `earlier` and then `xs`, then whatever the order in which
merges and evaluations completed, the answers handed back for `xs` - once they are all there - are the scores of `xs`. -/
theorem C125_buffered (gpus : Nat) (w : World G P R E) (score : G → R) (hw : Reliable w score) (es : List (Event G)) (earlier xs : List G)
    (hes : Evolve.genotypes es = earlier ++ xs) (l : List (Option R)) (h : buffered gpus w es earlier.length xs.length = some l) :
    l = xs.map (fun g => some (score g)) := by
  unfold buffered at h
  rw [collect_some] at h
  have hlen : xs.length = l.length := by simpa using congrArg List.length h
  refine List.ext_getElem (by simpa using hlen.symm) ?_
  intro i h1 h2
  have hi : i < xs.length := by simpa using h2
  have hget := congrArg (fun l => l[i]?) h
  simp only [List.getElem?_map, List.getElem?_range hi, Option.map_some, List.getElem?_eq_getElem h1, Option.some.injEq] at hget
  cases hl : (Evolve.run gpus w es).answers.lookup (earlier.length + i) with
  | none => rw [hl] at hget; cases hget
  | some x =>
    rw [hl] at hget
    have hx : some x = l[i] := by
      simpa using hget
    have hmem : (earlier.length + i, x) ∈ (Evolve.run gpus w es).answers := by
      obtain ⟨l₁, l₂, he, _⟩ := List.lookup_eq_some_iff.1 hl
      rw [he]
      simp
    obtain ⟨g, hg, a, b, p, hp, hq⟩ := Evolve.C85_own_result gpus w es _ x hmem
    rw [hes, List.getElem?_append_right (by omega), Nat.add_sub_cancel_left, List.getElem?_eq_getElem hi, Option.some.injEq] at hg
    rw [hw.2 a g p hp b] at hq
    injection hq with hq
    rw [List.getElem_map, ← hx, hg, hq]

/-- The answers are all there after two completions per genotype, if nothing ever fails. -/
theorem C125_buffered_answers (gpus : Nat) (w : World G P R E) (hw : Evolve.NeverFails w) (es : List (Event G)) (earlier xs : List G)
    (hes : Evolve.genotypes es = earlier ++ xs)
    (hc : Evolve.completions gpus w ({} : Evolve.State G R) es = 2 * (earlier ++ xs).length) :
    ∃ l, buffered gpus w es earlier.length xs.length = some l := by
  have hp := (Evolve.C85_finishes gpus w hw es).2.2.1 (by rw [hes]; exact hc)
  have key : ∀ i ∈ List.range xs.length, ∃ x, (Evolve.run gpus w es).answers.lookup (earlier.length + i) = some x := by
    intro i hi
    have hm : earlier.length + i ∈ (Evolve.run gpus w es).answers.map Prod.fst := by
      rw [hp.mem_iff, hes, List.mem_range, List.length_append]
      have := List.mem_range.1 hi
      omega
    cases hl : (Evolve.run gpus w es).answers.lookup (earlier.length + i) with
    | some x => exact ⟨x, rfl⟩
    | none =>
      rw [List.lookup_eq_none_iff] at hl
      obtain ⟨e, he, hee⟩ := List.mem_map.1 hm
      have := hl e he
      simp [hee] at this
  unfold buffered
  have : ∀ m ≤ xs.length, ∃ l : List (Option R),
      collect ((List.range m).map (fun i => ((Evolve.run gpus w es).answers.lookup (earlier.length + i)).map some)) = some l := by
    intro m hm
    induction m with
    | zero => exact ⟨[], rfl⟩
    | succ m ih =>
      obtain ⟨l, hl⟩ := ih (by omega)
      obtain ⟨x, hx⟩ := key m (List.mem_range.2 (by omega))
      refine ⟨l ++ [some x], ?_⟩
      rw [collect_some] at hl ⊢
      rw [List.range_succ, List.map_append, hl, List.map_append]
      simp [hx]
  exact this _ (le_refl _)

/-- An invalid genotype has no score in a pool, and makes the serial strategy raise; either way the search ends with an exception (C86). -/
theorem C125_invalid (w : World G P R E) (g : G) (h : ∀ i, w.merge i g = .ok none) (i : Nat) :
    (onDisk w i () g).1 = some none ∧ serialOne w i g = none := by
  unfold onDisk serialOne
  rw [h]
  exact ⟨rfl, rfl⟩

end

/-! ## In memory -/

section
variable {G V T R : Type} [DecidableEq V]

theorem load_eq (m params : List (Str × T)) (hd : (m.map Prod.fst).Nodup) (hn : ∀ e ∈ m, e.1 ∈ params.map Prod.fst) :
    Evolve.load m params = some (params.map (fun e => (e.1, (m.lookup e.1).getD e.2))) := by
  induction m generalizing params with
  | nil => simp [Evolve.load]
  | cons e m ih =>
    obtain ⟨name, t⟩ := e
    simp only [List.map_cons, List.nodup_cons] at hd
    unfold Evolve.load
    have hany : params.any (·.1 == name) = true := by
      obtain ⟨x, hx, he⟩ := List.mem_map.1 (hn (name, t) (by simp))
      exact List.any_eq_true.2 ⟨x, hx, by simpa using he⟩
    rw [if_pos hany, ih _ hd.2]
    · rw [List.map_map]
      congr 1
      refine List.map_congr_left ?_
      intro x _
      simp only [Function.comp]
      by_cases hx : x.1 = name
      · have h1 : m.lookup name = none := by
          rw [List.lookup_eq_none_iff]
          intro p hp
          by_contra hc
          exact hd.1 (List.mem_map.2 ⟨p, hp, by simpa using (by simpa using hc : name = p.1).symm⟩)
        simp [hx, h1]
      · have h2 : (x.1 == name) = false := by simpa using hx
        simp [h2, List.lookup_cons]
    · intro y hy
      have := hn y (by simp [hy])
      rw [List.map_map]
      have hcomp : (Prod.fst ∘ fun e : Str × T => if e.1 == name then (e.1, t) else e) = Prod.fst := by
        funext z
        simp only [Function.comp]
        split <;> rfl
      rw [hcomp]
      exact this

/-- The identifiers of special tokens, which may change without a new model. -/
def TokenId (k : Str) : Prop := ∃ a, k = a ++ cs!"_token_id"

/-- Entries that do not say what a model looks like. -/
def Unimportant (k : Str) : Prop := k ∈ [cs!"architectures", cs!"model_type", cs!"use_cache", cs!"torch_dtype"] ∨ TokenId k

/-- Two configurations are the same but for identifiers of tokens, which are not the defaults. -/
def SameModel (c c' : Cfg V) : Prop := c.diff = c'.diff ∧ ∀ k, c.attr k ≠ c'.attr k → TokenId k ∧ k ∈ c.diff

/-- The genotypes that describe a merge give models that can be told apart by an entry which is not the default of its class, or else are the same but
for identifiers of tokens, and then have the same parameters, of which the same ones are merged. -/
structure Comparable (m : Memory G V T R) (xs : List G) : Prop where
  tensors : ∀ g ∈ xs, ∀ c, m.config g = some c → ∃ ts, m.tensors g = some ts ∧ (ts.map Prod.fst).Nodup ∧
    ∀ n ∈ ts.map Prod.fst, n ∈ (m.fresh c).map Prod.fst
  pairs : ∀ g ∈ xs, ∀ g' ∈ xs, ∀ c c', m.config g = some c → m.config g' = some c' →
    (∃ k ∈ c.diff, ¬ Unimportant k ∧ c.attr k ≠ c'.attr k) ∨
    SameModel c c' ∧ m.fresh c = m.fresh c' ∧
      ∀ ts ts', m.tensors g = some ts → m.tensors g' = some ts' → ∀ n, n ∈ ts.map Prod.fst ↔ n ∈ ts'.map Prod.fst

/-- The parameters of a model with some of them replaced. -/
def overlay (ts params : List (Str × T)) : List (Str × T) := params.map (fun e => (e.1, (ts.lookup e.1).getD e.2))

/-- A genotype evaluated on its own: a new model of its configuration with the merged tensors in it. -/
def Alone (m : Memory G V T R) (i : Nat) (g : G) (r : Option (Option R)) : Prop :=
  (m.config g = none ∧ r = some none) ∨
  ∃ c ts, m.config g = some c ∧ m.tensors g = some ts ∧ r = (m.evaluate i c (overlay ts (m.fresh c))).map some

theorem isSuffixOf_token (k : Str) : (cs!"_token_id").isSuffixOf k = true ↔ TokenId k := by
  rw [List.isSuffixOf_iff_suffix]
  exact ⟨fun ⟨a, h⟩ => ⟨a, h.symm⟩, fun ⟨a, h⟩ => ⟨a, h.symm⟩⟩

theorem skipped_iff (k : Str) : skipped k = true ↔ Unimportant k := by
  unfold skipped Unimportant
  simp only [Bool.or_eq_true, decide_eq_true_eq, isSuffixOf_token, List.mem_cons, List.not_mem_nil, or_false]
  constructor
  · rintro ((((h | h) | h) | h) | h) <;> simp [h]
  · rintro ((h | h | h | h) | h) <;> simp [h]

theorem different_iff (c c' : Cfg V) : different c c' = true ↔ ∃ k ∈ c.diff, ¬ Unimportant k ∧ c.attr k ≠ c'.attr k := by
  unfold different
  simp only [List.any_eq_true, Bool.and_eq_true, Bool.not_eq_true', decide_eq_true_eq, ← skipped_iff, Bool.not_eq_true]

omit [DecidableEq V] in
theorem adopt_same (c c' : Cfg V) (h : SameModel c c') : adopt c c' = c := by
  obtain ⟨attr, diff⟩ := c
  obtain ⟨attr', diff'⟩ := c'
  obtain ⟨h1, h2⟩ := h
  dsimp only at h1 h2
  subst h1
  unfold adopt
  simp only [Cfg.mk.injEq, and_true]
  funext k
  by_cases hk : attr k = attr' k
  · split <;> simp [hk]
  · rw [if_pos ⟨(h2 k hk).2, (isSuffixOf_token k).2 (h2 k hk).1⟩]

/-- The parameters left behind are those of a new model but for the tensors merged. -/
def Leftover (m : Memory G V T R) (xs : List G) : Option (Cfg V × List (Str × T)) → Prop
  | none => True
  | some s => ∃ g ∈ xs, ∃ ts, m.config g = some s.1 ∧ m.tensors g = some ts ∧ s.2 = overlay ts (m.fresh s.1)

theorem lookup_mem (ts : List (Str × T)) (n : Str) (h : n ∈ ts.map Prod.fst) : ∃ t, ts.lookup n = some t := by
  cases hl : ts.lookup n with
  | some t => exact ⟨t, rfl⟩
  | none =>
    rw [List.lookup_eq_none_iff] at hl
    obtain ⟨e, he, hee⟩ := List.mem_map.1 h
    have := hl e he
    simp [hee] at this

theorem lookup_not_mem (ts : List (Str × T)) (n : Str) (h : n ∉ ts.map Prod.fst) : ts.lookup n = none := by
  rw [List.lookup_eq_none_iff]
  intro p hp
  by_contra hc
  exact h (List.mem_map.2 ⟨p, hp, by simpa using (by simpa using hc : n = p.1).symm⟩)

omit [DecidableEq V] in
theorem overlay_twice (ts ts' params : List (Str × T)) (h : ∀ n, n ∈ ts.map Prod.fst ↔ n ∈ ts'.map Prod.fst) :
    overlay ts (overlay ts' params) = overlay ts params := by
  unfold overlay
  rw [List.map_map]
  refine List.map_congr_left ?_
  intro e _
  simp only [Function.comp]
  by_cases hn : e.1 ∈ ts.map Prod.fst
  · obtain ⟨t, hl⟩ := lookup_mem ts e.1 hn
    simp [hl]
  · simp [lookup_not_mem ts e.1 hn, lookup_not_mem ts' e.1 (fun h' => hn ((h e.1).2 h'))]

theorem inMemory_step (m : Memory G V T R) (xs : List G) (hm : Comparable m xs) (g : G) (hg : g ∈ xs) (i : Nat)
    (s : Option (Cfg V × List (Str × T))) (hs : Leftover m xs s) :
    Alone m i g (inMemory m i s g).1 ∧ Leftover m xs (inMemory m i s g).2 := by
  cases hc : m.config g with
  | none =>
    have : inMemory m i s g = (some none, s) := by
      unfold inMemory
      rw [hc]
    rw [this]
    exact ⟨.inl ⟨hc, rfl⟩, hs⟩
  | some c =>
    obtain ⟨ts, ht, hnd, hnames⟩ := hm.tensors g hg c hc
    have hfresh : Evolve.load ts (m.fresh c) = some (overlay ts (m.fresh c)) :=
      load_eq ts _ hnd (fun e he => hnames _ (List.mem_map_of_mem he))
    have key : inMemory m i s g = ((m.evaluate i c (overlay ts (m.fresh c))).map some, some (c, overlay ts (m.fresh c))) := by
      cases s with
      | none =>
        unfold inMemory
        rw [hc]
        simp only [ht, hfresh]
        cases m.evaluate i c (overlay ts (m.fresh c)) <;> rfl
      | some s =>
        obtain ⟨old, params⟩ := s
        obtain ⟨g', hg', ts', hc', ht', h2⟩ := hs
        dsimp only at hc' h2
        rcases hm.pairs g hg g' hg' c old hc hc' with hdiff | ⟨hsame, hfr, hall⟩
        · have hd := (different_iff c old).2 hdiff
          unfold inMemory
          rw [hc]
          simp only [hd, if_true, ht, hfresh]
          cases m.evaluate i c (overlay ts (m.fresh c)) <;> rfl
        · have hd : different c old = false := by
            rw [← Bool.not_eq_true, different_iff]
            rintro ⟨k, _, hk, hne⟩
            exact hk (.inr (hsame.2 k hne).1)
          have hload : Evolve.load ts params = some (overlay ts (m.fresh c)) := by
            rw [load_eq ts params hnd ?_, h2, ← hfr]
            · exact congrArg some (overlay_twice ts ts' _ (hall ts ts' ht ht'))
            · intro e he
              rw [h2, ← hfr]
              unfold overlay
              rw [List.map_map]
              exact hnames _ (List.mem_map_of_mem he)
          unfold inMemory
          rw [hc]
          simp only [hd, Bool.false_eq_true, if_false, adopt_same c old hsame, ht, hload]
          cases m.evaluate i c (overlay ts (m.fresh c)) <;> rfl
    rw [key]
    exact ⟨.inr ⟨c, ts, hc, ht, rfl⟩, g, hg, ts, hc, ht, rfl⟩

/-- In a pool of any number of actors merging in memory, whichever actor gets which genotype and whatever it evaluated before, a genotype's result is
that of a new model of its own configuration with its tensors, and a genotype that describes no merge has no score. -/
theorem C125_pool_memory {A : Type} [DecidableEq A] (m : Memory G V T R) (xs : List G) (hm : Comparable m xs) (assign : Nat → A) :
    (pool (inMemory m) assign 0 (fun _ => none) xs).length = xs.length ∧
    ∀ i g r, xs[i]? = some g → (pool (inMemory m) assign 0 (fun _ => none) xs)[i]? = some r → Alone m i g r := by
  suffices H : ∀ (ys : List G), (∀ g ∈ ys, g ∈ xs) → ∀ j states, (∀ a, Leftover m xs (states a)) →
      (pool (inMemory m) assign j states ys).length = ys.length ∧
      ∀ i g r, ys[i]? = some g → (pool (inMemory m) assign j states ys)[i]? = some r → Alone m (j + i) g r by
    have := H xs (fun _ h => h) 0 (fun _ => none) (fun _ => trivial)
    simpa using this
  intro ys
  induction ys with
  | nil =>
    intro _ j states _
    exact ⟨rfl, fun i g r h => by simp at h⟩
  | cons y ys ih =>
    intro hsub j states hst
    obtain ⟨h1, h2⟩ := inMemory_step m xs hm y (hsub y (by simp)) j _ (hst (assign j))
    obtain ⟨i1, i2⟩ := ih (fun y hy => hsub y (by simp [hy])) (j + 1) (Function.update states (assign j) (inMemory m j (states (assign j)) y).2) (by
      intro a
      rw [Function.update_apply]
      split
      · exact h2
      · exact hst a)
    unfold pool
    refine ⟨by simp [i1], ?_⟩
    intro i g r hg hr
    cases i with
    | zero =>
      simp only [List.getElem?_cons_zero, Option.some.injEq] at hg hr
      subst hg hr
      exact h1
    | succ i =>
      simp only [List.getElem?_cons_succ] at hg hr
      have := i2 i g r hg hr
      rwa [show j + (i + 1) = j + 1 + i by omega]

end

/-! ## The search -/

section
variable {K : Type} [Field K] [LinearOrder K] [IsStrictOrderedRing K]

/-- The genotypes tried in `n` generations with what the optimiser is told about them, minus the score: nothing else enters. -/
def tried (ask : List (List K × K) → List (List K)) (score : List K → K) : Nat → List (List K × K)
  | 0 => []
  | n + 1 => tried ask score n ++ (ask (tried ask score n)).map (fun x => (x, -score x))

/-- A strategy that gives every genotype its score. -/
def Right (evaluate : Nat → List (List K) → Option (List (Option K))) (score : List K → K) : Prop :=
  ∀ n xs, evaluate n xs = some (xs.map (fun x => some (score x)))

/-- The first of the genotypes with the highest score. -/
def IsBest (l : List (List K × K)) (score : List K → K) (x : List K) : Prop :=
  ∃ i : Nat, l[i]? = some (x, -score x) ∧ (∀ e ∈ l, score e.1 ≤ score x) ∧ ∀ j < i, ∀ e, l[j]? = some e → score e.1 < score x

omit [IsStrictOrderedRing K] in
theorem costs_right (xs : List (List K)) (score : List K → K) :
    Evolve.costs (xs.map (fun x => some (score x))) = .ok (xs.map (fun x => -score x)) := by
  have := (Evolve.costs_ok (xs.map (fun x => some (score x))) (xs.map (fun x => -score x))).2 ⟨xs.map score, by simp, by simp⟩
  exact this

omit [IsStrictOrderedRing K] in
theorem zip_costs (xs : List (List K)) (score : List K → K) :
    xs.zip (xs.map (fun x => -score x)) = xs.map (fun x => (x, -score x)) := by
  induction xs with
  | nil => rfl
  | cons x xs ih => simp [ih]

omit [IsStrictOrderedRing K] in
theorem tried_scores (ask : List (List K × K) → List (List K)) (score : List K → K) (n : Nat) :
    ∀ e ∈ tried ask score n, e.2 = -score e.1 := by
  induction n with
  | zero => intro e he; cases he
  | succ n ih =>
    intro e he
    rcases List.mem_append.1 he with he | he
    · exact ih e he
    · obtain ⟨x, _, rfl⟩ := List.mem_map.1 he
      rfl

omit [IsStrictOrderedRing K] in
/-- The best of a list of reports, as the optimiser keeps it. -/
theorem esBest_fold (l : List (List K × K)) :
    match l.foldl esBest none with
    | none => l = []
    | some f => ∃ i : Nat, l[i]? = some f ∧ (∀ e ∈ l, f.2 ≤ e.2) ∧ ∀ j < i, ∀ e : List K × K, l[j]? = some e → f.2 < e.2 := by
  induction l using List.reverseRecOn with
  | nil => rfl
  | append_singleton l a ih =>
    rw [List.foldl_append]
    cases hf : l.foldl esBest none with
    | none =>
      rw [hf] at ih
      subst ih
      exact ⟨0, rfl, by simp, by simp⟩
    | some f =>
      rw [hf] at ih
      obtain ⟨i, h1, h3, h4⟩ := ih
      have hi : i < l.length := (List.getElem?_eq_some_iff.1 h1).1
      simp only [List.foldl_cons, List.foldl_nil, esBest]
      by_cases hlt : a.2 < f.2
      · rw [if_pos hlt]
        refine ⟨l.length, by simp, ?_, ?_⟩
        · intro e he
          rcases List.mem_append.1 he with he | he
          · exact le_of_lt (lt_of_lt_of_le hlt (h3 e he))
          · simp only [List.mem_singleton] at he; subst he; exact le_refl _
        · intro j hj e he
          rw [List.getElem?_append_left hj] at he
          exact lt_of_lt_of_le hlt (h3 e (List.mem_of_getElem? he))
      · rw [if_neg hlt]
        refine ⟨i, by rw [List.getElem?_append_left hi]; exact h1, ?_, ?_⟩
        · intro e he
          rcases List.mem_append.1 he with he | he
          · exact h3 e he
          · simp only [List.mem_singleton] at he; subst he; exact not_lt.1 hlt
        · intro j hj e he
          rw [List.getElem?_append_left (by omega)] at he
          exact h4 j hj e he

/-- What holds between generations. -/
structure Inv (ops : Ops K) (g : Genome) (x0 : List K) (l : List (List K × K)) (s : State K) : Prop where
  seen : s.seen = l
  es : s.es = l.foldl esBest none
  best : match s.es with
    | none => s.best = (x0, none) ∧ s.file = none
    | some e => s.best = (e.1, some e.2) ∧ ∃ cfg, s.file = some cfg ∧ mergeConfig ops g (.flat e.1) = .ok cfg

omit [IsStrictOrderedRing K] in
theorem esBest_grows (l : List (List K × K)) (f : List K × K) :
    ∃ e, l.foldl esBest (some f) = some e ∧ (e = f ∨ e.2 < f.2) ∧ (e = f ∨ e ∈ l) := by
  induction l generalizing f with
  | nil => exact ⟨f, rfl, Or.inl rfl, Or.inl rfl⟩
  | cons a l ih =>
    rw [List.foldl_cons]
    simp only [esBest]
    by_cases h : a.2 < f.2
    · rw [if_pos h]
      obtain ⟨e, he, h1, h2⟩ := ih a
      refine ⟨e, he, Or.inr ?_, Or.inr ?_⟩
      · rcases h1 with rfl | h1
        · exact h
        · exact lt_trans h1 h
      · rcases h2 with rfl | h2
        · simp
        · simp [h2]
    · rw [if_neg h]
      obtain ⟨e, he, h1, h2⟩ := ih f
      exact ⟨e, he, h1, h2.imp id (fun h => List.mem_cons_of_mem _ h)⟩

omit [IsStrictOrderedRing K] in
theorem callback_inv (ops : Ops K) (g : Genome) (x0 : List K) (l : List (List K × K)) (m : List (List K × K)) (s : State K)
    (hi : Inv ops g x0 l s) (s' : State K) (h : callback ops g { s with es := m.foldl esBest s.es, seen := s.seen ++ m } = some s') :
    Inv ops g x0 (l ++ m) s' := by
  have hes : m.foldl esBest s.es = (l ++ m).foldl esBest none := by rw [List.foldl_append, hi.es]
  cases hb : m.foldl esBest s.es with
  | none =>
    unfold callback at h
    simp only [hb] at h
    injection h with h
    subst h
    have hs : s.es = none := by
      cases hs : s.es with
      | none => rfl
      | some f =>
        rw [hs] at hb
        obtain ⟨e, he, _⟩ := esBest_grows m f
        rw [he] at hb
        cases hb
    refine ⟨by rw [hi.seen], by rw [← hes, hb], ?_⟩
    have := hi.best
    rw [hs] at this
    exact this
  | some e =>
    unfold callback at h
    simp only [hb] at h
    split at h
    case isTrue hlt =>
      cases hc : mergeConfig ops g (.flat e.1) with
      | error x => rw [hc] at h; cases h
      | ok cfg =>
        rw [hc] at h
        dsimp only at h
        injection h with h
        subst h
        exact ⟨by rw [hi.seen], by rw [← hes, hb], ⟨rfl, cfg, rfl, hc⟩⟩
    case isFalse hlt =>
      injection h with h
      subst h
      refine ⟨by rw [hi.seen], by rw [← hes, hb], ?_⟩
      have hbest := hi.best
      cases hs : s.es with
      | none =>
        rw [hs] at hbest
        rw [hbest.1] at hlt
        simp [improves] at hlt
      | some f =>
        rw [hs] at hbest hb
        obtain ⟨e', he', h1, _⟩ := esBest_grows m f
        rw [he'] at hb
        injection hb with hb
        subst hb
        rw [hbest.1] at hlt
        rcases h1 with rfl | h1
        · exact hbest
        · exact absurd h1 (by simpa [improves] using hlt)

omit [IsStrictOrderedRing K] in
theorem search_inv (ops : Ops K) (g : Genome) (evaluate : Nat → List (List K) → Option (List (Option K))) (score : List K → K)
    (he : Right evaluate score) (ask : List (List K × K) → List (List K)) (x0 : List K) (n : Nat) (s : State K)
    (h : search ops g evaluate ask x0 n = some s) : Inv ops g x0 (tried ask score n) s := by
  induction n generalizing s with
  | zero =>
    unfold search at h
    injection h with h
    subst h
    exact ⟨rfl, rfl, rfl, rfl⟩
  | succ n ih =>
    unfold search at h
    cases hn : search ops g evaluate ask x0 n with
    | none => rw [hn] at h; cases h
    | some t =>
      rw [hn] at h
      dsimp only at h
      have hi := ih t hn
      unfold generation at h
      rw [he n (ask t.seen)] at h
      dsimp only at h
      rw [costs_right] at h
      dsimp only at h
      rw [zip_costs] at h
      have := callback_inv ops g x0 _ _ t hi s h
      rw [hi.seen] at this
      exact this

/-- Whatever the optimiser asks for, and however the genotypes are scored, after any number of generations: the genotypes tried are those the optimiser
asks for when told their scores, the genotype reported - whether the search has come to its end or is interrupted - is the first of those
with the highest score, and `best_config.yaml` holds the configuration of that genotype. -/
theorem C125_search (ops : Ops K) (g : Genome) (evaluate : Nat → List (List K) → Option (List (Option K))) (score : List K → K)
    (he : Right evaluate score) (ask : List (List K × K) → List (List K)) (x0 : List K) (n : Nat) (s : State K)
    (h : search ops g evaluate ask x0 n = some s) (hne : tried ask score n ≠ []) :
    s.seen = tried ask score n ∧
    ∃ x cfg, IsBest (tried ask score n) score x ∧ (∀ interrupted, chosen interrupted s = some x) ∧ s.best = (x, some (-score x)) ∧
      s.file = some cfg ∧ mergeConfig ops g (.flat x) = .ok cfg := by
  have hi := search_inv ops g evaluate score he ask x0 n s h
  refine ⟨hi.seen, ?_⟩
  have hfold := esBest_fold (tried ask score n)
  rw [← hi.es] at hfold
  have hb := hi.best
  cases hs : s.es with
  | none => rw [hs] at hfold; exact absurd hfold hne
  | some f =>
    rw [hs] at hfold hb
    obtain ⟨i, h1, h2, h3⟩ := hfold
    obtain ⟨hb1, cfg, hb2, hb3⟩ := hb
    have hf : f.2 = -score f.1 := tried_scores ask score n f (List.mem_of_getElem? h1)
    refine ⟨f.1, cfg, ⟨i, by rw [h1, ← hf], ?_, ?_⟩, ?_, by rw [hb1, hf], hb2, hb3⟩
    · intro e hm
      have := h2 e hm
      rw [hf, tried_scores ask score n e hm] at this
      exact neg_le_neg_iff.1 this
    · intro j hj e hm
      have := h3 j hj e hm
      rw [hf, tried_scores ask score n e (List.mem_of_getElem? hm)] at this
      exact neg_lt_neg_iff.1 this
    · intro interrupted
      unfold chosen
      cases interrupted <;> simp [hs, hb1]

omit [IsStrictOrderedRing K] in
/-- The search goes on as long as every genotype tried describes a merge. -/
theorem C125_goes_on (ops : Ops K) (g : Genome) (evaluate : Nat → List (List K) → Option (List (Option K))) (score : List K → K)
    (he : Right evaluate score) (ask : List (List K × K) → List (List K)) (x0 : List K) (n : Nat)
    (hc : ∀ e ∈ tried ask score n, ∃ cfg, mergeConfig ops g (.flat e.1) = .ok cfg) : ∃ s, search ops g evaluate ask x0 n = some s := by
  induction n with
  | zero => exact ⟨_, rfl⟩
  | succ n ih =>
    obtain ⟨t, ht⟩ := ih (fun e h => hc e (List.mem_append_left _ h))
    have hi := search_inv ops g evaluate score he ask x0 n t ht
    unfold search
    rw [ht]
    dsimp only
    unfold generation
    rw [he n (ask t.seen)]
    dsimp only
    rw [costs_right]
    dsimp only
    rw [zip_costs]
    unfold callback
    dsimp only
    cases hb : List.foldl esBest t.es (List.map (fun x => (x, -score x)) (ask t.seen)) with
    | none => exact ⟨_, rfl⟩
    | some e =>
      dsimp only
      have hm : e ∈ tried ask score (n + 1) := by
        have hfold := esBest_fold (tried ask score (n + 1))
        unfold tried at hfold
        rw [List.foldl_append, ← hi.es, ← hi.seen, hb] at hfold
        obtain ⟨i, h1, _⟩ := hfold
        unfold tried
        rw [← hi.seen]
        exact List.mem_of_getElem? h1
      obtain ⟨cfg, hcfg⟩ := hc e hm
      rw [hcfg]
      split
      · exact ⟨_, rfl⟩
      · exact ⟨_, rfl⟩

end

/-- The ways a population may be scored: by a pool, serially, or by the buffered actor, to which other genotypes may have been sent before. -/
inductive ByStrategy {G P R E : Type} (w : World G P R E) (xs : List G) : Option (List (Option R)) → Prop
  | pool (A : Type) (dec : DecidableEq A) (assign : Nat → A) : ByStrategy w xs (collect (Search.pool (onDisk w) assign 0 (fun _ => ()) xs))
  | serial : ByStrategy w xs (collect (Search.serial w xs))
  | buffered (gpus : Nat) (es : List (Event G)) (earlier : List G) (l : List (Option R)) : Evolve.genotypes es = earlier ++ xs →
      Search.buffered gpus w es earlier.length xs.length = some l → ByStrategy w xs (some l)

/-- Whichever strategy is used in each generation, every genotype is given its score: all strategies find the same. -/
theorem C125_strategies {K P E : Type} (w : World (List K) P K E) (score : List K → K) (hw : Reliable w score)
    (evaluate : Nat → List (List K) → Option (List (Option K))) (he : ∀ n xs, ByStrategy w xs (evaluate n xs)) : Right evaluate score := by
  intro n xs
  have h := he n xs
  generalize evaluate n xs = r at h
  cases h with
  | pool A dec assign => exact C125_pool w score hw assign _ xs
  | serial => exact C125_serial w score hw xs
  | buffered gpus es earlier l h1 h2 => rw [C125_buffered gpus w score hw es earlier xs h1 l h2]

/-! ## The same configuration with other references -/

section
variable {K : Type} [Field K] [LinearOrder K]

/-- A source with another reference. -/
def renameSource (f : Ref → Ref) (s : InSlice K) : InSlice K := { s with model := f s.model }

/-- A slice with other references. -/
def renameSlice (f : Ref → Ref) (s : OutSlice K) : OutSlice K :=
  { s with sources := s.sources.map (renameSource f), baseModel := s.baseModel.map f }

/-- A model with another reference. -/
def renameModel (f : Ref → Ref) (s : InModel K) : InModel K := { s with model := f s.model }

/-- A configuration with other references, everything else the same. -/
def renameConfig (f : Ref → Ref) (c : MergeConfig K) : MergeConfig K :=
  { c with
    modules := c.modules.map (fun l => l.map (fun e => (e.1, { e.2 with slices := e.2.slices.map (fun l => l.map (renameSlice f)),
                                                                        models := e.2.models.map (fun l => l.map (renameModel f)) })))
    slices := c.slices.map (fun l => l.map (renameSlice f))
    models := c.models.map (fun l => l.map (renameModel f))
    baseModel := c.baseModel.map f }

theorem mapM_rename {A A' B B' E : Type} (φ : A → A') (ρ : B → B') (F : A → Except E B) (F' : A' → Except E B') (l : List A)
    (h : ∀ a ∈ l, F' (φ a) = (F a).map ρ) : (l.map φ).mapM F' = (l.mapM F).map (fun r => r.map ρ) := by
  induction l with
  | nil => rfl
  | cons a l ih =>
    rw [List.map_cons, List.mapM_cons, List.mapM_cons, h a (by simp), ih (fun b hb => h b (by simp [hb]))]
    cases F a with
    | error e => rfl
    | ok b =>
      cases l.mapM F with
      | error e => rfl
      | ok r => rfl

theorem mapM_rename' {A B B' E : Type} (ρ : B → B') (F : A → Except E B) (F' : A → Except E B') (l : List A)
    (h : ∀ a ∈ l, F' a = (F a).map ρ) : l.mapM F' = (l.mapM F).map (fun r => r.map ρ) := by
  have := mapM_rename id ρ F F' l h
  rwa [List.map_id] at this

/-- The references of a definition are told apart by their new names. -/
def Apart (f : Ref → Ref) (d : Definition) : Prop :=
  ∀ a ∈ d.baseModel.toList ++ d.models, ∀ b ∈ d.baseModel.toList ++ d.models, f a = f b → a = b

/-- The definition with all references renamed. -/
def renamed (f : Ref → Ref) (d : Definition) : Definition := withRefs d (d.models.map f) (d.baseModel.map f)

theorem extraBase_rename (f : Ref → Ref) (d : Definition) (hf : Apart f d) :
    Genome.extraBase (renamed f d) = (Genome.extraBase d).map f := by
  unfold Genome.extraBase renamed withRefs
  dsimp only
  cases hb : d.baseModel with
  | none => rfl
  | some b =>
    simp only [Option.map_some]
    have hiff : f b ∈ d.models.map f ↔ b ∈ d.models := by
      constructor
      · intro h
        obtain ⟨a, ha, hab⟩ := List.mem_map.1 h
        have := hf a (by simp [ha]) b (by simp [hb]) hab
        rwa [← this]
      · exact List.mem_map_of_mem
    by_cases h : b ∈ d.models
    · rw [if_pos h, if_pos (hiff.2 h)]; rfl
    · rw [if_neg h, if_neg (fun h' => h (hiff.1 h'))]; rfl

theorem baseSources_rename (f : Ref → Ref) (g : Genome) (hf : Apart f g.definition) (i : Nat) :
    Genome.baseSources (K := K) ⟨renamed f g.definition, g.numLayers⟩ i = (Genome.baseSources g i).map (renameSource f) := by
  unfold Genome.baseSources
  rw [show Genome.extraBase (Genome.mk (renamed f g.definition) g.numLayers).definition = (Genome.extraBase g.definition).map f from
    extraBase_rename f _ hf, List.map_map, List.map_map]
  rfl

theorem source_rename (f : Ref → Ref) (g : Genome) (x : Genome.Geno K) (i : Nat) (e : Ref × Nat) :
    Genome.source ⟨renamed f g.definition, g.numLayers⟩ x i (f e.1, e.2) = (Genome.source g x i e).map (renameSource f) := by
  have h : Genome.modelParams (renamed f g.definition) x.sets (Genome.groupValue (renamed f g.definition) x i e.2) =
      Genome.modelParams g.definition x.sets (Genome.groupValue g.definition x i e.2) := rfl
  unfold Genome.source
  dsimp only
  rw [h]
  cases Genome.modelParams g.definition x.sets (Genome.groupValue g.definition x i e.2) with
  | error _ => rfl
  | ok ps => rfl

theorem zipIdx_rename (f : Ref → Ref) (l : List Ref) (k : Nat) : (l.map f).zipIdx k = (l.zipIdx k).map (fun e => (f e.1, e.2)) := by
  induction l generalizing k with
  | nil => rfl
  | cons a l ih => simp [List.zipIdx_cons, ih]

theorem discreteSlice_rename (f : Ref → Ref) (g : Genome) (hf : Apart f g.definition) (x : Genome.Geno K) (i : Nat) :
    Genome.discreteSlice ⟨renamed f g.definition, g.numLayers⟩ x i = (Genome.discreteSlice g x i).map (renameSlice f) := by
  unfold Genome.discreteSlice
  rw [baseSources_rename f g hf i]
  rw [show (Genome.mk (renamed f g.definition) g.numLayers).definition.models.zipIdx = (g.definition.models.zipIdx).map (fun e => (f e.1, e.2)) from
    zipIdx_rename f _ 0]
  rw [mapM_rename _ (renameSource f) (Genome.source g x i) _ _ (fun e _ => source_rename f g x i e)]
  cases g.definition.models.zipIdx.mapM (Genome.source g x i) with
  | error _ => rfl
  | ok ss =>
    simp only [Except.map, renameSlice, List.map_append, Option.map_none]

theorem smoothModels_rename (f : Ref → Ref) (d : Definition) (hf : Apart f d) (x : Genome.Geno K) :
    Genome.smoothModels (renamed f d) x = (Genome.smoothModels d x).map (fun l => l.map (renameModel f)) := by
  unfold Genome.smoothModels
  rw [extraBase_rename f d hf, show (renamed f d).models.zipIdx = (d.models.zipIdx).map (fun e => (f e.1, e.2)) from zipIdx_rename f _ 0]
  rw [mapM_rename _ (renameModel f) (Genome.smoothModel d x)]
  · cases d.models.zipIdx.mapM (Genome.smoothModel d x) with
    | error _ => rfl
    | ok ms =>
      simp only [Except.map, List.map_append, List.map_map]
      rfl
  · intro e _
    have h : Genome.modelParams (renamed f d) x.sets (Genome.smoothValue (renamed f d) x e.2) =
        Genome.modelParams d x.sets (Genome.smoothValue d x e.2) := rfl
    unfold Genome.smoothModel
    dsimp only
    rw [h]
    cases Genome.modelParams d x.sets (Genome.smoothValue d x e.2) with
    | error _ => rfl
    | ok ps => rfl

theorem slerpSource_rename (f : Ref → Ref) (g : Genome) (i : Nat) (weight : K) (m : Nat) :
    Genome.slerpSource ⟨renamed f g.definition, g.numLayers⟩ i weight m = (Genome.slerpSource g i weight m).map (renameSource f) := by
  unfold Genome.slerpSource
  rw [show (Genome.mk (renamed f g.definition) g.numLayers).definition.models[m]? = g.definition.models[m]?.map f by
    simp [renamed, withRefs]]
  cases g.definition.models[m]? with
  | none => rfl
  | some r => rfl

theorem slerpSlice_rename (ops : Ops K) (f : Ref → Ref) (g : Genome) (hf : Apart f g.definition) (x : Genome.Geno K) (i : Nat) :
    Genome.slerpSlice ops ⟨renamed f g.definition, g.numLayers⟩ x i = (Genome.slerpSlice ops g x i).map (renameSlice f) := by
  unfold Genome.slerpSlice
  by_cases h0 : x.sets = 0
  · rw [if_pos h0, if_pos h0]; rfl
  · rw [if_neg h0, if_neg h0]
    by_cases h2 : x.models < 2
    · rw [if_pos h2, if_pos h2]; rfl
    · rw [if_neg h2, if_neg h2]
      unfold Genome.slerpWith
      rw [slerpSource_rename, slerpSource_rename, baseSources_rename f g hf i]
      generalize Genome.slerpSource g i _ (ops.topk (Genome.weightsOf x i)).1 = a
      generalize Genome.slerpSource g i _ (ops.topk (Genome.weightsOf x i)).2 = b
      cases a with
      | error _ => cases b <;> rfl
      | ok a =>
        cases b with
        | error _ => rfl
        | ok b => simp [Except.map, renameSlice, renameSource]

/-- Giving the models other names, distinct ones, changes nothing but the names in the configuration a genotype describes: what is found with the
converted models is meant of the originals. -/
theorem C125_references (ops : Ops K) (f : Ref → Ref) (g : Genome) (hf : Apart f g.definition) (x : Input K) :
    mergeConfig ops ⟨renamed f g.definition, g.numLayers⟩ x = (mergeConfig ops g x).map (renameConfig f) := by
  have htorch : (Genome.mk (renamed f g.definition) g.numLayers).toTorch x = g.toTorch x := by
    unfold Genome.toTorch
    have h1 : (Genome.mk (renamed f g.definition) g.numLayers).definition.models.length = g.definition.models.length := by
      simp [renamed, withRefs]
    have h2 : (Genome.mk (renamed f g.definition) g.numLayers).groups = g.groups := rfl
    have h3 : (Genome.mk (renamed f g.definition) g.numLayers).sets = g.sets := rfl
    cases x with
    | four y => rfl
    | other => rfl
    | flat l => simp only [h1, h2, h3]
  unfold mergeConfig
  rw [htorch]
  cases g.toTorch x with
  | error _ => rfl
  | ok y =>
    dsimp only
    have hshape : Genome.shapeOk (Genome.mk (renamed f g.definition) g.numLayers) y = Genome.shapeOk g y := by
      unfold Genome.shapeOk
      rw [show (Genome.mk (renamed f g.definition) g.numLayers).definition.models.length = g.definition.models.length by simp [renamed, withRefs]]
      rfl
    rw [hshape]
    by_cases hs : Genome.shapeOk g y
    · rw [if_pos hs, if_pos hs]
      have hsec : Genome.sections ops (Genome.mk (renamed f g.definition) g.numLayers) y =
          (Genome.sections ops g y).map (fun p => (p.1.map (fun l => l.map (renameSlice f)), p.2.map (fun l => l.map (renameModel f)))) := by
        unfold Genome.sections
        rw [show (Genome.mk (renamed f g.definition) g.numLayers).definition.method = g.definition.method from rfl,
          show (Genome.mk (renamed f g.definition) g.numLayers).definition.smooth = g.definition.smooth from rfl]
        by_cases hm : g.definition.method = .slerp
        · rw [if_pos hm, if_pos hm, mapM_rename' (renameSlice f) (Genome.slerpSlice ops g y) _ _ (fun i _ => slerpSlice_rename ops f g hf y i)]
          cases (List.range y.groups).mapM (Genome.slerpSlice ops g y) <;> rfl
        · rw [if_neg hm, if_neg hm]
          by_cases hsm : g.definition.smooth = true
          · rw [if_pos hsm, if_pos hsm, smoothModels_rename f g.definition hf y]
            cases Genome.smoothModels g.definition y <;> rfl
          · rw [if_neg hsm, if_neg hsm, mapM_rename' (renameSlice f) (Genome.discreteSlice g y) _ _ (fun i _ => discreteSlice_rename f g hf y i)]
            cases (List.range y.groups).mapM (Genome.discreteSlice g y) <;> rfl
      rw [hsec]
      cases Genome.sections ops g y with
      | error _ => rfl
      | ok p =>
        have hasm : Genome.assemble (K := K) (renamed f g.definition)
            (p.1.map (fun l => l.map (renameSlice f)), p.2.map (fun l => l.map (renameModel f))) =
            renameConfig f (Genome.assemble g.definition p) := rfl
        have htr : ∀ {A B : Type} (h : A → B) (l : Option (List A)), Config.truthy (l.map (fun l => l.map h)) = Config.truthy l := by
          intro A B h l
          rcases l with _ | _ | ⟨a, l⟩ <;> rfl
        have hval : (renameConfig f (Genome.assemble g.definition p)).valid = (Genome.assemble (K := K) g.definition p).valid := by
          unfold MergeConfig.valid
          have h1 : (renameConfig f (Genome.assemble g.definition p)).validInputs = (Genome.assemble (K := K) g.definition p).validInputs := by
            unfold MergeConfig.validInputs renameConfig
            simp only [htr]
          rw [h1]
          rfl
        simp only [Except.map]
        rw [hasm, hval]
        by_cases hv : (Genome.assemble (K := K) g.definition p).valid = true
        · rw [if_pos hv, if_pos hv]
        · rw [if_neg hv, if_neg hv]
    · rw [if_neg hs, if_neg hs]
      rfl

end

/-! ## Converted models -/

section
open Verif.LoadTask

/-- A model whose tensors have all been stored in `bfloat16`. -/
def halved {T : Type} (c : Casts T) (l : Loader T) : Loader T :=
  { names := l.names
    fetch := fun n => (l.fetch n).map (c.cast .bfloat16)
    convert := fun n => (l.convert n).map (fun x => x.map (c.cast .bfloat16)) }

/-- What conversions do: the result has the type asked for, and converting to the type a tensor already has changes nothing. -/
structure Proper {T : Type} (c : Casts T) : Prop where
  type : ∀ d x, c.dtypeOf (c.cast d x) = d
  same : ∀ d x, c.dtypeOf x = d → c.cast d x = x

theorem resolve_halved {T : Type} (c : Casts T) (l : Loader T) (t : LoadTensor) : t.resolve (halved c l) = t.resolve l := rfl

theorem convertFirst_halved {T : Type} (c : Casts T) (l : Loader T) (ns : List String) :
    convertFirst (halved c l) ns = (convertFirst l ns).map (fun x => x.map (c.cast .bfloat16)) := by
  induction ns with
  | nil => rfl
  | cons n ns ih =>
    unfold convertFirst
    rw [show (halved c l).convert n = (l.convert n).map (fun x => x.map (c.cast .bfloat16)) from rfl]
    cases l.convert n with
    | error e => rfl
    | ok x =>
      cases x with
      | none => exact ih
      | some x => rfl

theorem raw_halved {T : Type} (c : Casts T) (l : Loader T) (t : LoadTensor) :
    t.raw (halved c l) = (t.raw l).map (fun x => x.map (c.cast .bfloat16)) := by
  unfold LoadTensor.raw
  rw [resolve_halved]
  cases t.resolve l with
  | none => exact convertFirst_halved c l _
  | some n =>
    dsimp only
    by_cases hn : n = ""
    · rw [if_pos hn, if_pos hn]
      exact convertFirst_halved c l _
    · rw [if_neg hn, if_neg hn, show (halved c l).fetch n = (l.fetch n).map (c.cast .bfloat16) from rfl]
      cases l.fetch n <;> rfl

theorem toDtype_halved {T : Type} (c : Casts T) (hc : Proper c) (x : T) :
    toDtype c (some "bfloat16") (c.cast .bfloat16 x) = toDtype c (some "bfloat16") x := by
  have hb : dtypeFromName "bfloat16" = .ok .bfloat16 := by decide +kernel
  unfold toDtype
  simp only [hb, show ("bfloat16" = "") = False from by simp, if_false]
  rw [hc.type]
  simp only [not_true_eq_false, ne_eq, if_false]
  by_cases h : DType.bfloat16 = c.dtypeOf x
  · simp [h.symm, hc.same .bfloat16 x h.symm]
  · simp [h]

theorem execute_halved {T : Type} (c : Casts T) (hc : Proper c) (l : Loader T) (t : LoadTensor) (ht : t.dtype = some "bfloat16") :
    t.execute c (halved c l) = t.execute c l := by
  unfold LoadTensor.execute
  rw [raw_halved]
  cases t.raw l with
  | error e => rfl
  | ok x =>
    cases x with
    | none => rfl
    | some x =>
      simp only [Except.map, Option.map_some]
      rw [ht, toDtype_halved c hc]


/-- What a merge reads of its models when it works in `bfloat16`, as every merge of a search does, is the same for the converted models as for the
originals: unless a weight is always read in a type of its own. -/
theorem C125_converted {T : Type} (c : Casts T) (hc : Proper c) (loaders : Ref → Loader T) (ws : List (Ref × WeightInfo))
    (hf : ∀ e ∈ ws, e.2.forceDtype = none) :
    gather c (fun r => halved c (loaders r)) (some "bfloat16") ws = gather c loaders (some "bfloat16") ws := by
  have key : ∀ l : List (Str × (Ref × LoadTensor)), (∀ e ∈ l, e.2.2.dtype = some "bfloat16") →
      evalArguments c (fun r => halved c (loaders r)) l = evalArguments c loaders l := by
    intro l
    induction l with
    | nil => intro _; rfl
    | cons e l ih =>
      obtain ⟨k, m, t⟩ := e
      intro h
      unfold evalArguments
      rw [execute_halved c hc _ t (h (k, m, t) (by simp)), ih (fun e he => h e (by simp [he]))]
  unfold gather
  rw [key]
  intro e he
  unfold gatherArguments at he
  obtain ⟨w, hw, rfl⟩ := List.mem_map.1 (WholeMerge.dictOf_mem he)
  unfold loadOf
  rw [hf w hw]

end

/-- What the loop over the models leaves on disk: every reference it returns names a directory with the converted model, and nothing else is
touched; provided that what was there already is right, and that models which share a directory are the same. -/
theorem C125_reshard {D : Type} (crc : Str → Nat) (storage cache : Str) (convert : Ref → Option D) (disk disk' : Str → Option D) (rs refs : List Ref)
    (h : reshardAll crc storage cache convert disk rs = (disk', some refs))
    (hold : ∀ r ∈ rs, ∀ d, disk (reshardPath crc storage cache r) = some d → convert r = some d)
    (hsame : ∀ r ∈ rs, ∀ r' ∈ rs, reshardPath crc storage cache r = reshardPath crc storage cache r' → convert r = convert r') :
    List.Forall₂ (fun r r' => r'.lora = none ∧ convert r ≠ none ∧ disk' r'.model.path = convert r) rs refs ∧
    (∀ p, (∀ r ∈ refs, r.model.path ≠ p) → disk' p = disk p) ∧ ∀ p d, disk p = some d → disk' p = some d := by
  induction rs generalizing disk refs with
  | nil =>
    cases h
    exact ⟨.nil, fun _ _ => rfl, fun _ _ h => h⟩
  | cons r rs ih =>
    unfold reshardAll at h
    have hstep : ∃ disk1, reshard crc storage cache convert none disk r = (disk1, some (resharded crc storage cache r)) ∧
        disk1 (reshardPath crc storage cache r) = convert r ∧ convert r ≠ none ∧
        (∀ p, p ≠ reshardPath crc storage cache r → disk1 p = disk p) ∧ ∀ p d, disk p = some d → disk1 p = some d := by
      unfold reshard at h ⊢
      dsimp only at h ⊢
      cases hd : disk (reshardPath crc storage cache r) with
      | some d =>
        have := hold r (by simp) d hd
        exact ⟨disk, rfl, by rw [hd, this], by rw [this]; simp, fun _ _ => rfl, fun _ _ h => h⟩
      | none =>
        rw [hd] at h
        dsimp only at h
        cases hc : convert r with
        | none => rw [hc] at h; cases h
        | some d =>
          refine ⟨_, rfl, Function.update_self .., by simp, fun p hp => Function.update_of_ne hp .., ?_⟩
          intro p d' hp
          rw [Function.update_of_ne]
          · exact hp
          · rintro rfl
            rw [hd] at hp
            cases hp
    obtain ⟨disk1, h1, h2, h3, h4, h5⟩ := hstep
    rw [h1] at h
    dsimp only at h
    cases hrest : reshardAll crc storage cache convert disk1 rs with
    | mk disk2 o =>
      rw [hrest] at h
      cases o with
      | none => cases h
      | some l =>
        cases h
        obtain ⟨i1, i2, i3⟩ := ih disk1 l hrest
          (by
            intro r' hr' d hd
            by_cases hp : reshardPath crc storage cache r' = reshardPath crc storage cache r
            · rw [hp, h2] at hd
              rw [hsame r' (by simp [hr']) r (by simp) hp, hd]
            · rw [h4 _ hp] at hd
              exact hold r' (by simp [hr']) d hd)
          (fun a ha b hb => hsame a (by simp [ha]) b (by simp [hb]))
        refine ⟨.cons ⟨rfl, h3, ?_⟩ i1, ?_, fun p d hp => i3 p d (h5 p d hp)⟩
        · cases hc : convert r with
          | none => exact absurd hc h3
          | some d => exact i3 (reshardPath crc storage cache r) d (h2.trans hc)
        · intro p hp
          rw [i2 p (fun r' hr' => hp r' (by simp [hr']))]
          exact h4 p (fun he => hp (resharded crc storage cache r) List.mem_cons_self he.symm)

/-- All models being convertible, the loop comes to its end. -/
theorem C125_reshard_ends {D : Type} (crc : Str → Nat) (storage cache : Str) (convert : Ref → Option D) (disk : Str → Option D) (rs : List Ref)
    (h : ∀ r ∈ rs, convert r ≠ none) : ∃ disk' refs, reshardAll crc storage cache convert disk rs = (disk', some refs) := by
  induction rs generalizing disk with
  | nil => exact ⟨_, _, rfl⟩
  | cons r rs ih =>
    have hstep : ∃ disk1 r', reshard crc storage cache convert none disk r = (disk1, some r') := by
      unfold reshard
      dsimp only
      cases disk (reshardPath crc storage cache r) with
      | some d => exact ⟨_, _, rfl⟩
      | none =>
        cases hc : convert r with
        | none => exact absurd hc (h r (by simp))
        | some d => exact ⟨_, _, rfl⟩
    obtain ⟨disk1, r', h1⟩ := hstep
    obtain ⟨disk2, refs, h2⟩ := ih disk1 (fun r hr => h r (by simp [hr]))
    refine ⟨disk2, r' :: refs, ?_⟩
    unfold reshardAll
    rw [h1]
    dsimp only
    rw [h2]
    rfl

/-- C125 does not hold of a search started again after its conversion of a model was interrupted: what the interrupted run left is taken for the
converted model, whatever it is. -/
theorem C125_interrupted {D : Type} (crc : Str → Nat) (storage cache : Str) (convert : Ref → Option D) (disk : Str → Option D) (r : Ref) (d part : D)
    (hnew : disk (reshardPath crc storage cache r) = none) (hd : convert r = some d) :
    ∃ r', (reshard crc storage cache convert none (reshard crc storage cache convert (some part) disk r).1 r).2 = some r' ∧
      (reshard crc storage cache convert none (reshard crc storage cache convert (some part) disk r).1 r).1 r'.model.path = some part := by
  have h1 : (reshard crc storage cache convert (some part) disk r).1 = Function.update disk (reshardPath crc storage cache r) (some part) := by
    unfold reshard
    dsimp only
    rw [hnew, hd]
  rw [h1]
  refine ⟨resharded crc storage cache r, ?_, ?_⟩
  · unfold reshard
    simp
  · unfold reshard resharded
    simp

/-- Nor of models whose architecture is overridden in the definition: the converted models have the architecture that their files say. -/
theorem C125_override_lost {D : Type} (crc : Str → Nat) (storage cache : Str) (convert : Ref → Option D) (cut : Option D) (disk : Str → Option D) (r r' : Ref)
    (h : (reshard crc storage cache convert cut disk r).2 = some r') : r'.overrideArchitecture = none := by
  unfold reshard at h
  dsimp only at h
  split at h
  · cases h; rfl
  · split at h
    · cases h
    · split at h
      · cases h
      · cases h; rfl

theorem pathJoin_inj {a b c : Str} (hb : b.head? ≠ some '/') (hc : c.head? ≠ some '/') (h : pathJoin a b = pathJoin a c) : b = c := by
  unfold pathJoin at h
  rw [if_neg hb, if_neg hc] at h
  split at h
  · exact List.append_cancel_left h
  · have := List.append_cancel_left h
    exact (List.cons.inj this).2

theorem uniqueId_head (crc : Str → Nat) (m : ModelPath) : (uniqueId crc m).head? ≠ some '/' := by
  unfold uniqueId
  intro h
  cases hb : Resume.basename m.path with
  | nil => rw [hb] at h; cases h
  | cons a l =>
    rw [hb] at h
    simp only [List.cons_append, List.head?_cons, Option.some.injEq] at h
    have ha : a ∈ Resume.basename m.path := by rw [hb]; simp
    unfold Resume.basename at ha
    have hall := List.all_takeWhile (l := m.path.reverse) (p := fun ch => ch != '/')
    have := List.all_eq_true.1 hall a (List.mem_reverse.1 ha)
    rw [h] at this
    simp at this

/-- Models are told apart after conversion if the names and checksums they are kept under are not the same. -/
theorem C125_apart (crc : Str → Nat) (storage cache : Str) (d : Definition)
    (h : ∀ a ∈ d.baseModel.toList ++ d.models, ∀ b ∈ d.baseModel.toList ++ d.models,
      uniqueId crc (mergedRef crc cache a).model = uniqueId crc (mergedRef crc cache b).model → a = b) :
    Apart (resharded crc storage cache) d := by
  intro a ha b hb hab
  apply h a ha b hb
  have : reshardPath crc storage cache a = reshardPath crc storage cache b := congrArg (fun r : Ref => r.model.path) hab
  exact pathJoin_inj (uniqueId_head _ _) (uniqueId_head _ _) this

/-- The whole: a search over the converted models, by any strategies, reports the first of the best genotypes tried; the configuration printed at the
end, with the original references, differs from the one in `best_config.yaml` only by the references. -/
theorem C125_report {K P E : Type} [Field K] [LinearOrder K] [IsStrictOrderedRing K] (ops : Ops K) (f : Ref → Ref) (g : Genome)
    (hf : Apart f g.definition) (w : World (List K) P K E) (score : List K → K) (hw : Reliable w score)
    (evaluate : Nat → List (List K) → Option (List (Option K))) (he : ∀ n xs, ByStrategy w xs (evaluate n xs))
    (ask : List (List K × K) → List (List K)) (x0 : List K) (n : Nat) (s : State K)
    (h : search ops ⟨renamed f g.definition, g.numLayers⟩ evaluate ask x0 n = some s) (hne : tried ask score n ≠ []) :
    ∃ x cfg, IsBest (tried ask score n) score x ∧ (∀ interrupted, chosen interrupted s = some x) ∧
      mergeConfig ops g (.flat x) = .ok cfg ∧ s.file = some (renameConfig f cfg) := by
  obtain ⟨_, x, cfg, h1, h2, _, h3, h4⟩ := C125_search ops _ evaluate score (C125_strategies w score hw evaluate he) ask x0 n s h hne
  rw [C125_references ops f g hf] at h4
  cases hc : mergeConfig ops g (.flat x) with
  | error e => rw [hc] at h4; cases h4
  | ok cfg' =>
    rw [hc] at h4
    cases h4
    exact ⟨x, cfg', h1, h2, hc, h3⟩

/-! ## Cases -/

/-- Models are made of genotypes as they are; the score is best at a quarter and three quarters. -/
def aim : List ℚ → ℚ
  | [x, y] => -((x - 1/4) ^ 2 + (y - 3/4) ^ 2)
  | _ => 0

def steady : World (List ℚ) (List ℚ) ℚ Unit where
  merge _ g := .ok (some g)
  evaluate _ p := .ok (aim p)

theorem steady_reliable : Reliable steady aim :=
  ⟨fun _ g => ⟨g, rfl⟩, fun _ _ _ h _ => by cases h; rfl⟩

/-- An optimiser that first tries the corners and then, twice, the middle. -/
def corners : List (List ℚ × ℚ) → List (List ℚ)
  | [] => [[1, 0], [0, 1]]
  | _ => [[1/2, 1/2], [1, 1]]

def twoModels : Genome := ⟨{ models := [Genome.named cs!"m/a", Genome.named cs!"m/b"], method := .linear }, 2⟩

def someOps : Ops ℚ := ⟨fun _ => (0, 1), fun x => x⟩

/-- The hypotheses of `C125_search` are met: three generations; the second of the corners and the middle are equally good, the first of them is
reported. -/
example : tried corners aim 3 = [([1, 0], 9/8), ([0, 1], 1/8), ([1/2, 1/2], 1/8), ([1, 1], 5/8), ([1/2, 1/2], 1/8), ([1, 1], 5/8)] ∧
    (search someOps twoModels (fun _ xs => collect (serial steady xs)) corners [1/2, 1/2] 3).map (fun s => (s.best, chosen false s, chosen true s)) =
      some (([0, 1], some (1/8)), some [0, 1], some [0, 1]) := by
  constructor <;> decide +kernel

/-- Those of `C125_strategies`: a pool of three actors in even generations, the serial strategy in odd ones. -/
example : ∀ n xs, ByStrategy steady xs
    (if n % 2 = 0 then collect (pool (onDisk steady) (fun i => (i * i + n) % 3) 0 (fun _ => ()) xs) else collect (serial steady xs)) := by
  intro n xs
  split
  · exact .pool Nat inferInstance _
  · exact .serial

/-- Those of `C125_buffered` and `C125_buffered_answers`: three genotypes sent to an actor with two devices, the last two asked about. -/
example : ∃ (w : World Nat Nat Nat Unit) (score : Nat → Nat) (es : List (Event Nat)), Reliable w score ∧ Evolve.NeverFails w ∧
    Evolve.genotypes es = [4] ++ [6, 10] ∧ buffered 2 w es 1 2 = some [some 70, some 110] ∧
    Evolve.completions 2 w ({} : Evolve.State Nat Nat) es = 2 * ([4] ++ [6, 10]).length := by
  refine ⟨⟨fun _ g => .ok (some (g + 1)), fun _ p => .ok (10 * p)⟩, fun g => 10 * (g + 1), Evolve.sampleHistory,
    ⟨fun _ g => ⟨g + 1, rfl⟩, fun _ _ _ h _ => by cases h; rfl⟩, ⟨fun _ g => ⟨g + 1, rfl⟩, fun _ p => ⟨10 * p, rfl⟩⟩, ?_, ?_, ?_⟩ <;> decide

/-- Models of two sizes, with a parameter `b` that is not merged; the identifier of a token is the genotype's; the genotype 0 describes no merge. -/
def inRam : Memory Nat Nat Nat Nat where
  config g := if g = 0 then none else
    some ⟨fun k => if k = cs!"hidden_size" then some (g % 2) else if k = cs!"bos_token_id" then some g else none, [cs!"hidden_size", cs!"bos_token_id"]⟩
  tensors g := some [(cs!"w", g)]
  fresh c := [(cs!"w", 0), (cs!"b", 70 + 100 * (c.attr cs!"hidden_size").getD 0)]
  evaluate _ c ps := some ((ps.map Prod.snd).sum + 1000 * (c.attr cs!"bos_token_id").getD 0)

/-- The hypotheses of `C125_pool_memory` are met. -/
example : pool (inMemory inRam) (fun i => i / 3) 0 (fun _ => none) [3, 5, 0, 2, 7, 2] =
    [some (some 3173), some (some 5175), some none, some (some 2072), some (some 7177), some (some 2072)] := by decide +kernel

example (xs : List Nat) : Comparable inRam xs where
  tensors g _ c hc := ⟨[(cs!"w", g)], rfl, by simp, by
    intro n hn
    simp only [List.map_cons, List.map_nil, List.mem_singleton] at hn
    subst hn
    simp [inRam]⟩
  pairs g _ g' _ c c' hc hc' := by
    unfold inRam at hc hc'
    dsimp only at hc hc'
    split at hc
    · cases hc
    · split at hc'
      · cases hc'
      · rename_i h0 h0'
        simp only [Option.some.injEq] at hc hc'
        subst hc hc'
        by_cases hp : g % 2 = g' % 2
        · refine .inr ⟨⟨rfl, ?_⟩, ?_, ?_⟩
          · intro k hk
            dsimp only at hk
            by_cases h1 : k = cs!"hidden_size"
            · simp [h1, hp] at hk
            · by_cases h2 : k = cs!"bos_token_id"
              · subst h2
                exact ⟨⟨cs!"bos", by decide⟩, by simp⟩
              · simp [h1, h2] at hk
          · simp [inRam, hp]
          · intro ts ts' ht ht' n
            cases ht
            cases ht'
            simp
        · refine .inl ⟨cs!"hidden_size", by simp, ?_, by simpa using hp⟩
          rw [← skipped_iff]
          decide

/-- C125 does not hold of evaluators in memory if genotypes give models of different configurations: only entries that differ from the defaults of
the class are compared, so a model of another size stays in use when the new one has the size that is the default. -/
theorem C125_memory_default : ∃ (m : Memory Nat Nat Nat Nat) (old new : Nat),
    (inMemory m 0 none new).1 = some (some 4) ∧
    (inMemory m 1 (inMemory m 0 none old).2 new).1 = some (some 8) := by
  refine ⟨{ config := fun g => some ⟨fun _ => some (4 * g), if g = 1 then [] else [cs!"hidden_size"]⟩
            tensors := fun _ => some []
            fresh := fun _ => []
            evaluate := fun _ c _ => c.attr cs!"hidden_size" }, 2, 1, ?_, ?_⟩ <;> decide +kernel

/-- The hypotheses of `C125_references` and `C125_report` are met. -/
example : Apart (resharded List.length cs!"storage" cs!"cache") twoModels.definition := by
  apply C125_apart
  decide +kernel

section
open Verif.LoadTask

/-- Numbers with a type; converting to another halves them. -/
def halving : Casts (DType × Nat) where
  dtypeOf := Prod.fst
  cast d x := if x.1 = d then x else (d, x.2 / 2)

theorem halving_proper : Proper halving where
  type d x := by
    unfold halving
    dsimp only
    split
    · assumption
    · rfl
  same d x h := if_pos h

def oneTensor : Loader (DType × Nat) where
  names := ["w"]
  fetch n := if n = "w" then .ok (.float32, 6) else .error .read
  convert _ := .ok none

/-- The hypotheses of `C125_converted` are met. -/
example : gather halving (fun _ => oneTensor) (some "bfloat16") [(Genome.named cs!"m", { name := cs!"w" })] =
    .ok [(Genome.named cs!"m", (.bfloat16, 3))] := by decide +kernel

/-- C125 does not hold of weights that are always read in a type of their own: the converted model has lost what `bfloat16` does not hold. -/
theorem C125_forced_rounded : ∃ (c : Casts (DType × Nat)) (l : Loader (DType × Nat)) (ws : List (Ref × WeightInfo)), Proper c ∧
    gather c (fun _ => halved c l) (some "bfloat16") ws ≠ gather c (fun _ => l) (some "bfloat16") ws :=
  ⟨halving, oneTensor, [(Genome.named cs!"m", { name := cs!"w", forceDtype := some "float32" })], halving_proper, by decide +kernel⟩

end

/-- The hypotheses of `C125_reshard` are met: a model, the same with an adapter, and one that was converted before. -/
example : let rs : List Ref := [Genome.named cs!"m/a", { model := ⟨cs!"m/a", none⟩, lora := some ⟨cs!"l/b", none⟩ }, Genome.named cs!"m/old"]
    let convert : Ref → Option (Str × Bool) := fun r => some (r.model.path, r.lora.isSome)
    let disk : Str → Option (Str × Bool) := fun p => if p = cs!"st/input_models/old_5" then some (cs!"m/old", false) else none
    (∀ r ∈ rs, ∀ d, disk (reshardPath List.length cs!"st" cs!"c" r) = some d → convert r = some d) ∧
    (∀ r ∈ rs, ∀ r' ∈ rs, reshardPath List.length cs!"st" cs!"c" r = reshardPath List.length cs!"st" cs!"c" r' → convert r = convert r') ∧
    (reshardAll List.length cs!"st" cs!"c" convert disk rs).2 =
      some [Genome.named cs!"st/input_models/a_3", Genome.named cs!"st/input_models/a_3_b_3_9", Genome.named cs!"st/input_models/old_5"] := by
  refine ⟨?_, ?_, ?_⟩
  · intro r hr d
    simp only [List.mem_cons, List.not_mem_nil, or_false] at hr
    rcases hr with rfl | rfl | rfl <;> revert d <;> decide +kernel
  · decide +kernel
  · decide +kernel

end Verif.Search
