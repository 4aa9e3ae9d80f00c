import Verif.Model.Evolve
import Mathlib.Algebra.BigOperators.Group.List.Basic
import Mathlib.Algebra.Order.Group.Defs
import Mathlib.Algebra.Ring.Defs
import Mathlib.Algebra.Order.Ring.Rat
import Mathlib.Data.List.Perm.Basic
import Mathlib.Data.List.Dedup
import Mathlib.Data.List.Induction
import Mathlib.Tactic.Ring

/-! # C86, C87, C88: scores, benchmark guard, evaluation in memory -/

namespace Verif.Evolve

open Verif.ModelRef (Str)

/-! ## C86: scores -/

section
variable {K : Type} [CommRing K]

theorem score_from (results : Str → Str → Option K) (tasks : List (Task K)) (a : K) :
    (∀ values : List K, tasks.map (fun t => results t.name t.metric) = values.map some →
      tasks.foldlM (addTask results) a = .ok (a + ((tasks.zip values).map (fun e => e.2 * e.1.weight)).sum)) ∧
    ((∃ t ∈ tasks, results t.name t.metric = none) →
      tasks.foldlM (addTask results) a = .error .missing) := by
  induction tasks generalizing a with
  | nil =>
    constructor
    · intro values h
      cases values with
      | nil => simp; rfl
      | cons v vs => simp at h
    · rintro ⟨t, ht, _⟩; simp at ht
  | cons t tasks ih =>
    constructor
    · intro values h
      cases values with
      | nil => simp at h
      | cons v vs =>
        simp only [List.map_cons, List.cons.injEq] at h
        rw [List.foldlM_cons, addTask, h.1]
        refine ((ih (a + v * t.weight)).1 vs h.2).trans ?_
        simp only [List.zip_cons_cons, List.map_cons, List.sum_cons]
        rw [add_assoc]
    · rintro ⟨u, hu, hn⟩
      rw [List.foldlM_cons, addTask]
      cases hr : results t.name t.metric with
      | none => rfl
      | some x =>
        rcases List.mem_cons.1 hu with rfl | hu
        · rw [hr] at hn; cases hn
        · exact (ih (a + x * t.weight)).2 ⟨u, hu, hn⟩

/-- The score of a model is the sum over the configured tasks of the task's metric times its weight — a task listed twice counts
twice — and there is none exactly if a configured metric is missing from the results. -/
theorem C86_score (results : Str → Str → Option K) (tasks : List (Task K)) :
    (∀ values : List K, tasks.map (fun t => results t.name t.metric) = values.map some →
      score results tasks = .ok ((tasks.zip values).map (fun e => e.2 * e.1.weight)).sum) ∧
    ((∃ t ∈ tasks, results t.name t.metric = none) → score results tasks = .error .missing) := by
  constructor
  · intro values h
    unfold score
    rw [(score_from results tasks 0).1 values h, zero_add]
  · exact (score_from results tasks 0).2

/-- The order in which tasks are listed does not matter. -/
theorem C86_order (results : Str → Str → Option K) (tasks tasks' : List (Task K)) (h : tasks.Perm tasks') :
    score results tasks = score results tasks' := by
  by_cases hn : ∃ t ∈ tasks, results t.name t.metric = none
  · obtain ⟨t, ht, htn⟩ := hn
    rw [(C86_score results tasks).2 ⟨t, ht, htn⟩, (C86_score results tasks').2 ⟨t, h.mem_iff.1 ht, htn⟩]
  · have key : ∀ l : List (Task K), (∀ t ∈ l, results t.name t.metric ≠ none) →
        score results l = .ok (l.map (fun t => (results t.name t.metric).getD 0 * t.weight)).sum := by
      intro l hl
      have h1 : l.map (fun t => results t.name t.metric) = (l.map (fun t => (results t.name t.metric).getD 0)).map some := by
        rw [List.map_map]
        refine List.map_congr_left ?_
        intro t ht
        cases hr : results t.name t.metric with
        | none => exact absurd hr (hl t ht)
        | some x => simp [hr]
      rw [(C86_score results l).1 _ h1]
      congr 2
      rw [List.zip_map_right, List.map_map]
      clear h1 hl
      induction l with
      | nil => rfl
      | cons a l ih => simp only [List.zip_cons_cons, List.map_cons, ih]; rfl
    push Not at hn
    rw [key tasks hn, key tasks' (fun t ht => hn t (h.mem_iff.2 ht)), (h.map _).sum_eq]

omit [CommRing K] in
theorem eraseDups_nodup (n : Nat) (l : List Str) (h : l.length ≤ n) : l.eraseDups.Nodup := by
  induction n generalizing l with
  | zero => cases l with | nil => simp | cons a l => simp at h
  | succ n ih =>
    cases l with
    | nil => simp
    | cons a l =>
      rw [List.eraseDups_cons, List.nodup_cons]
      have hl := List.length_filter_le (fun b => !b == a) l
      refine ⟨?_, ih _ (by simp only [List.length_cons] at h; omega)⟩
      rw [List.mem_eraseDups]
      simp

omit [CommRing K] in
/-- Each benchmark is run once however often it is listed. -/
theorem C86_run_once (tasks : List (Task K)) :
    (evaluated tasks).Nodup ∧ ∀ n, n ∈ evaluated tasks ↔ ∃ t ∈ tasks, t.name = n := by
  unfold evaluated
  constructor
  · exact eraseDups_nodup _ _ (le_refl _)
  · intro n
    simp [List.mem_eraseDups]

end

section
variable {K : Type}

theorem costs_ok [Neg K] (scores : List (Option K)) (cs : List K) :
    costs scores = .ok cs ↔ ∃ l : List K, scores = l.map some ∧ cs = l.map (fun x => -x) := by
  unfold costs
  induction scores generalizing cs with
  | nil =>
    rw [List.mapM_nil]
    constructor
    · intro h
      injection h with h
      exact ⟨[], rfl, h.symm⟩
    · rintro ⟨l, hl, rfl⟩
      cases l with
      | nil => rfl
      | cons a l => simp at hl
  | cons s scores ih =>
    rw [List.mapM_cons]
    cases s with
    | none =>
      constructor
      · intro h; cases h
      · rintro ⟨l, hl, _⟩
        cases l <;> simp at hl
    | some x =>
      cases hm : scores.mapM (costOf : Option K → Except Err K) with
      | error e =>
        constructor
        · intro h; cases h
        · rintro ⟨l, hl, rfl⟩
          cases l with
          | nil => simp at hl
          | cons y l =>
            simp only [List.map_cons, List.cons.injEq] at hl
            have := (ih (l.map (fun x => -x))).2 ⟨l, hl.2, rfl⟩
            rw [hm] at this; cases this
      | ok t =>
        obtain ⟨l, hl, ht⟩ := (ih t).1 hm
        constructor
        · intro h
          have : (-x :: t) = cs := by
            change (.ok (-x :: t) : Except Err (List K)) = .ok cs at h
            injection h
          exact ⟨x :: l, by simp [hl], by simp [← this, ht]⟩
        · rintro ⟨l', hl', rfl⟩
          cases l' with
          | nil => simp at hl'
          | cons y l' =>
            simp only [List.map_cons, List.cons.injEq, Option.some.injEq] at hl'
            obtain ⟨rfl, hl2⟩ := hl'
            have : l = l' := by
              rw [hl2] at hl
              exact (List.map_injective_iff.2 (fun a b h => by simpa using h) hl).symm
            subst this ht
            rfl

/-- The optimiser minimises: of two genotypes the one with the higher score gets the lower cost. -/
theorem C86_maximizes [AddCommGroup K] [LinearOrder K] [IsOrderedAddMonoid K] (scores : List (Option K)) (cs : List K)
    (h : costs scores = .ok cs) (i j : Nat) (x y : K) (hx : scores[i]? = some (some x)) (hy : scores[j]? = some (some y)) :
    ∃ c d, cs[i]? = some c ∧ cs[j]? = some d ∧ (c < d ↔ y < x) := by
  obtain ⟨l, rfl, rfl⟩ := (costs_ok scores cs).1 h
  simp only [List.getElem?_map, Option.map_eq_some_iff, Option.some.injEq] at hx hy
  obtain ⟨_, hx, rfl⟩ := hx
  obtain ⟨_, hy, rfl⟩ := hy
  exact ⟨-_, -_, by simp [hx], by simp [hy], neg_lt_neg_iff⟩

/-- A single genotype without a score — an invalid one — aborts the optimisation of its whole population: no cost is returned for any
of the others. -/
theorem C86_invalid_aborts [Neg K] (scores : List (Option K)) (h : none ∈ scores) : ∃ e, costs scores = .error e := by
  cases hc : costs scores with
  | error e => exact ⟨e, rfl⟩
  | ok cs =>
    obtain ⟨l, rfl, _⟩ := (costs_ok scores cs).1 hc
    simp at h

/-- The configuration kept on disk belongs to the lowest cost reported so far, and to the first report of that cost. -/
theorem C86_best {X : Type} [LinearOrder K] (x0 : X) (found : List (X × K)) (hf : found ≠ []) :
    ∃ (i : Nat) (f : X × K), found[i]? = some f ∧ found.foldl remember (x0, none) = (f.1, some f.2) ∧
      (∀ e ∈ found, f.2 ≤ e.2) ∧ ∀ j < i, ∀ e : X × K, found[j]? = some e → f.2 < e.2 := by
  induction found using List.reverseRecOn with
  | nil => exact absurd rfl hf
  | append_singleton l a ih =>
    rw [List.foldl_append]
    by_cases hl : l = []
    · subst hl
      refine ⟨0, a, rfl, rfl, by simp, by simp⟩
    · obtain ⟨i, f, h1, h2, h3, h4⟩ := ih hl
      rw [h2]
      have hi : i < l.length := (List.getElem?_eq_some_iff.1 h1).1
      by_cases hlt : a.2 < f.2
      · refine ⟨l.length, a, by simp, by simp [remember, hlt], ?_, ?_⟩
        · intro e he
          rcases List.mem_append.1 he with he | he
          · exact le_of_lt (lt_of_lt_of_le hlt (h3 e he))
          · simp only [List.mem_singleton] at he; subst he; exact le_refl _
        · intro j hj e he
          rw [List.getElem?_append_left hj] at he
          exact lt_of_lt_of_le hlt (h3 e (List.mem_of_getElem? he))
      · refine ⟨i, f, by rw [List.getElem?_append_left hi]; exact h1, by simp [remember, hlt], ?_, ?_⟩
        · intro e he
          rcases List.mem_append.1 he with he | he
          · exact h3 e he
          · simp only [List.mem_singleton] at he; subst he; exact not_lt.1 hlt
        · intro j hj e he
          rw [List.getElem?_append_left (by omega)] at he
          exact h4 j hj e he

end

/-- The temporary model of a genotype is gone after its evaluation, failed or not — unless the merge itself failed: its directory then
stays for ever. -/
theorem C86_temporary {D : Type} [DecidableEq D] (fresh : List D → D) (hf : ∀ l, fresh l ∉ l) (invalid mergeFails evalFails : Bool)
    (dirs : List D) :
    ((evaluateOnDisk fresh invalid mergeFails evalFails dirs).2 = true ↔ invalid = false ∧ mergeFails = false ∧ evalFails = false) ∧
    ((evaluateOnDisk fresh invalid mergeFails evalFails dirs).1 = dirs ↔ invalid = true ∨ mergeFails = false) := by
  have he : (dirs ++ [fresh dirs]).erase (fresh dirs) = dirs := by
    rw [List.erase_append_right _ (hf dirs)]; simp
  cases invalid <;> cases mergeFails <;> cases evalFails <;> simp [evaluateOnDisk, he]

/-! ## C87: benchmarks are refused -/

/-- A task belongs to a common benchmark and is not the training part of one. -/
def Benchmark (name : Str) : Prop :=
  (∃ p ∈ benchmarkPrefixes, p <+: name) ∧ ¬ cs!"_train" <:+ name

theorem guardTask_none (allow : Bool) (name : Str) (ps : List Str) (n : Nat) :
    guardTask allow name ps n = none ↔ allow = false ∧ (∃ p ∈ ps, p <+: name) ∧ ¬ cs!"_train" <:+ name := by
  induction ps generalizing n with
  | nil => simp [guardTask]
  | cons p ps ih =>
    unfold guardTask
    by_cases h1 : p <+: name
    · rw [if_pos (List.isPrefixOf_iff_prefix.2 h1)]
      by_cases h2 : cs!"_train" <:+ name
      · rw [if_pos (List.isSuffixOf_iff_suffix.2 h2), ih]
        simp [h2]
      · rw [if_neg (fun h => h2 (List.isSuffixOf_iff_suffix.1 h))]
        cases allow with
        | false => simp [h1, h2]
        | true => simp [ih]
    · rw [if_neg (fun h => h1 (List.isPrefixOf_iff_prefix.1 h)), ih]
      simp [h1]

/-- An optimisation is refused exactly if it is not explicitly allowed and some task is a common benchmark. -/
theorem C87_refused (allow : Bool) (tasks : List Str) (n : Nat) :
    guard allow tasks n = none ↔ allow = false ∧ ∃ t ∈ tasks, Benchmark t := by
  induction tasks generalizing n with
  | nil => simp [guard]
  | cons t ts ih =>
    unfold guard
    cases h : guardTask allow t benchmarkPrefixes n with
    | none =>
      have := (guardTask_none _ _ _ _).1 h
      simp only [true_iff]
      exact ⟨this.1, t, by simp, this.2⟩
    | some m =>
      simp only
      rw [ih]
      constructor
      · rintro ⟨a, u, hu, hb⟩
        exact ⟨a, u, by simp [hu], hb⟩
      · rintro ⟨a, u, hu, hb⟩
        refine ⟨a, ?_⟩
        rcases List.mem_cons.1 hu with rfl | hu
        · have := (guardTask_none allow u benchmarkPrefixes n).2 ⟨a, hb⟩
          rw [h] at this; cases this
        · exact ⟨u, hu, hb⟩

/-- When it is allowed, there is a warning for every benchmark task (one per prefix it starts with), and none otherwise. -/
theorem C87_warned (tasks : List Str) :
    ∃ k, guard true tasks 0 = some k ∧ (k = 0 ↔ ∀ t ∈ tasks, ¬ Benchmark t) := by
  have task : ∀ (name : Str) (ps : List Str) (n : Nat), ∃ k, guardTask true name ps n = some k ∧ n ≤ k ∧
      (k = n ↔ ¬ ((∃ p ∈ ps, p <+: name) ∧ ¬ cs!"_train" <:+ name)) := by
    intro name ps
    induction ps with
    | nil => intro n; exact ⟨n, rfl, le_refl _, by simp⟩
    | cons p ps ih =>
      intro n
      unfold guardTask
      by_cases h1 : p <+: name
      · rw [if_pos (List.isPrefixOf_iff_prefix.2 h1)]
        by_cases h2 : cs!"_train" <:+ name
        · rw [if_pos (List.isSuffixOf_iff_suffix.2 h2)]
          obtain ⟨k, hk, hle, hiff⟩ := ih n
          exact ⟨k, hk, hle, by simp [hiff, h2]⟩
        · rw [if_neg (fun h => h2 (List.isSuffixOf_iff_suffix.1 h))]
          obtain ⟨k, hk, hle, hiff⟩ := ih (n + 1)
          refine ⟨k, by simpa using hk, by omega, ?_⟩
          constructor
          · intro h; omega
          · intro h; exact absurd ⟨⟨p, by simp, h1⟩, h2⟩ h
      · rw [if_neg (fun h => h1 (List.isPrefixOf_iff_prefix.1 h))]
        obtain ⟨k, hk, hle, hiff⟩ := ih n
        exact ⟨k, hk, hle, by simp [hiff, h1]⟩
  have all : ∀ (ts : List Str) (n : Nat), ∃ k, guard true ts n = some k ∧ n ≤ k ∧ (k = n ↔ ∀ t ∈ ts, ¬ Benchmark t) := by
    intro ts
    induction ts with
    | nil => intro n; exact ⟨n, rfl, le_refl _, by simp⟩
    | cons t ts ih =>
      intro n
      obtain ⟨m, hm, hle, hiff⟩ := task t benchmarkPrefixes n
      obtain ⟨k, hk, hle', hiff'⟩ := ih m
      refine ⟨k, by simp only [guard, hm]; exact hk, by omega, ?_⟩
      simp only [List.mem_cons, forall_eq_or_imp]
      constructor
      · intro h
        have h1 : m = n := by omega
        have h2 : k = m := by omega
        exact ⟨hiff.1 h1, hiff'.1 h2⟩
      · rintro ⟨h1, h2⟩
        have := hiff.2 h1
        have := hiff'.2 h2
        omega
  obtain ⟨k, hk, _, hiff⟩ := all tasks 0
  exact ⟨k, hk, hiff⟩

/-- The flag that allows benchmarks never causes a refusal. -/
example : Benchmark cs!"gsm8k_cot" ∧ ¬ Benchmark cs!"gsm8k_train" ∧ ¬ Benchmark cs!"my_task" := by
  refine ⟨⟨⟨cs!"gsm8k", by decide, by decide⟩, by decide⟩, fun h => h.2 (by decide), ?_⟩
  rintro ⟨⟨p, hp, h⟩, _⟩
  revert p
  decide

/-! ## C88: evaluation in memory -/

section
variable {T : Type}

/-- What a parameter holds: the value under the first entry of its name. -/
def held (params : List (Str × T)) (name : Str) : Option T := params.lookup name

theorem lookup_replace (params : List (Str × T)) (name n : Str) (t : T) :
    held (params.map (fun e => if e.1 == name then (e.1, t) else e)) n =
      if n = name then (held params n).map (fun _ => t) else held params n := by
  unfold held
  induction params with
  | nil => simp
  | cons e params ih =>
    obtain ⟨a, b⟩ := e
    simp only [List.map_cons, List.lookup_cons]
    by_cases hn : n = a
    · subst hn
      by_cases hm : n = name
      · subst hm; simp
      · simp [hm]
    · have h1 : (n == a) = false := by simpa using hn
      rw [h1]
      by_cases ha : a == name
      · simp only [ha, if_true, List.lookup_cons, h1]
        exact ih
      · simp only [ha, Bool.false_eq_true, if_false, List.lookup_cons, h1]
        exact ih

theorem replace_names (params : List (Str × T)) (name : Str) (t : T) :
    (params.map (fun e => if e.1 == name then (e.1, t) else e)).map Prod.fst = params.map Prod.fst := by
  rw [List.map_map]
  refine List.map_congr_left ?_
  intro e _
  simp only [Function.comp_apply]
  split <;> rfl

theorem load_names (m params q : List (Str × T)) (h : load m params = some q) : q.map Prod.fst = params.map Prod.fst := by
  induction m generalizing params with
  | nil => simp only [load, Option.some.injEq] at h; rw [h]
  | cons e m ih =>
    unfold load at h
    split at h
    · rw [ih _ h, replace_names]
    · cases h

theorem held_none (params : List (Str × T)) (n : Str) : held params n = none ↔ n ∉ params.map Prod.fst := by
  unfold held
  rw [List.lookup_eq_none_iff]
  simp only [List.mem_map, not_exists, not_and]
  constructor
  · intro h e he hn
    have := h e he
    simp [hn] at this
  · intro h e he
    have := h e he
    simpa using fun hn => this hn.symm

theorem load_held (m params q : List (Str × T)) (h : load m params = some q) (hd : (m.map Prod.fst).Nodup) (n : Str) :
    held q n = if n ∈ m.map Prod.fst then held m n else held params n := by
  induction m generalizing params with
  | nil => simp only [load, Option.some.injEq] at h; simp [h]
  | cons e m ih =>
    obtain ⟨name, t⟩ := e
    simp only [List.map_cons, List.nodup_cons] at hd
    unfold load at h
    split at h
    case isFalse => cases h
    case isTrue hany =>
      rw [ih _ h hd.2, lookup_replace]
      by_cases hn : n = name
      · subst hn
        rw [if_neg hd.1, if_pos rfl, if_pos (by simp)]
        have hmem : n ∈ params.map Prod.fst := by
          rw [List.any_eq_true] at hany
          obtain ⟨e, he, hen⟩ := hany
          exact List.mem_map.2 ⟨e, he, by simpa using hen⟩
        cases hp : held params n with
        | none => exact absurd hmem ((held_none params n).1 hp)
        | some v => simp [held, List.lookup_cons]
      · have h1 : (n == name) = false := by simpa using hn
        have h2 : held ((name, t) :: m) n = held m n := by
          unfold held
          rw [List.lookup_cons]
          simp only [h1]
        rw [h2]
        simp only [List.map_cons, List.mem_cons, hn, false_or, if_false]

/-- Loading succeeds exactly if the model has a parameter for every merged tensor. -/
theorem C88_known (m params : List (Str × T)) : (load m params).isSome ↔ ∀ e ∈ m, e.1 ∈ params.map Prod.fst := by
  induction m generalizing params with
  | nil => simp [load]
  | cons e m ih =>
    unfold load
    have hany : params.any (·.1 == e.1) = true ↔ e.1 ∈ params.map Prod.fst := by
      rw [List.any_eq_true, List.mem_map]
      constructor
      · rintro ⟨x, hx, h⟩; exact ⟨x, hx, by simpa using h⟩
      · rintro ⟨x, hx, h⟩; exact ⟨x, hx, by simpa using h⟩
    split
    case isTrue h =>
      rw [ih, replace_names]
      simp only [List.mem_cons, forall_eq_or_imp, hany.1 h, true_and]
    case isFalse h =>
      simp only [Option.isSome_none, Bool.false_eq_true, false_iff]
      intro hall
      exact h (hany.2 (hall e (by simp)))

/-- Models evaluated in memory, one after another in the same model, are seen as if each had been loaded into a new one, provided all
merges give the same tensors: every parameter given holds this merge's tensor, the others what the model started with. -/
theorem C88_history (names : List Str) (ms : List (List (Str × T))) (params : List (Str × T))
    (hms : ∀ m ∈ ms, (m.map Prod.fst).Nodup ∧ (m.map Prod.fst).Perm names)
    (hn : ∀ n ∈ names, n ∈ params.map Prod.fst) :
    (evaluateAll ms params).length = ms.length ∧
    ∀ (i : Nat) m, ms[i]? = some m → ∃ q, (evaluateAll ms params)[i]? = some (some q) ∧
      q.map Prod.fst = params.map Prod.fst ∧
      ∀ n, held q n = if n ∈ names then held m n else held params n := by
  suffices H : ∀ (start : List (Str × T)), start.map Prod.fst = params.map Prod.fst →
      (∀ n, n ∉ names → held start n = held params n) →
      (evaluateAll ms start).length = ms.length ∧
      ∀ (i : Nat) m, ms[i]? = some m → ∃ q, (evaluateAll ms start)[i]? = some (some q) ∧
        q.map Prod.fst = params.map Prod.fst ∧
        ∀ n, held q n = if n ∈ names then held m n else held params n from H params rfl (fun _ _ => rfl)
  induction ms with
  | nil => intro start _ _; simp [evaluateAll]
  | cons m ms ih =>
    intro start hstart hheld
    have hm := hms m (by simp)
    have hsome : (load m start).isSome := by
      rw [C88_known]
      intro e he
      rw [hstart]
      exact hn _ (hm.2.mem_iff.1 (List.mem_map_of_mem he))
    obtain ⟨q, hq⟩ := Option.isSome_iff_exists.1 hsome
    have hqn : q.map Prod.fst = params.map Prod.fst := (load_names m start q hq).trans hstart
    have hqh : ∀ n, held q n = if n ∈ names then held m n else held params n := by
      intro n
      rw [load_held m start q hq hm.1 n]
      by_cases h : n ∈ names
      · rw [if_pos (hm.2.mem_iff.2 h), if_pos h]
      · rw [if_neg (fun h' => h (hm.2.mem_iff.1 h')), if_neg h]
        exact hheld n h
    obtain ⟨h1, h2⟩ := ih (fun m' hm' => hms m' (by simp [hm'])) q hqn (fun n h => by rw [hqh n, if_neg h])
    unfold evaluateAll
    simp only [hq]
    refine ⟨by simp [h1], ?_⟩
    intro i m' hi
    cases i with
    | zero =>
      simp only [List.getElem?_cons_zero, Option.some.injEq] at hi ⊢
      subst hi
      exact ⟨q, rfl, hqn, hqh⟩
    | succ i =>
      simp only [List.getElem?_cons_succ] at hi ⊢
      exact h2 i m' hi

/-- Otherwise earlier genotypes leak into later ones: a parameter given by the first merge but not by the second is evaluated, with
the second, at the value of the first — whatever that is. -/
theorem C88_leaks (m₁ m₂ params : List (Str × T)) (n : Str) (h₁ : (m₁.map Prod.fst).Nodup) (h₂ : (m₂.map Prod.fst).Nodup)
    (hk : ∀ e ∈ m₁ ++ m₂, e.1 ∈ params.map Prod.fst) (hn₁ : n ∈ m₁.map Prod.fst) (hn₂ : n ∉ m₂.map Prod.fst) :
    ∃ q₁ q₂, evaluateAll [m₁, m₂] params = [some q₁, some q₂] ∧ held q₂ n = held m₁ n := by
  obtain ⟨q₁, hq₁⟩ := Option.isSome_iff_exists.1 ((C88_known m₁ params).2 (fun e he => hk e (by simp [he])))
  have hnames := load_names m₁ params q₁ hq₁
  obtain ⟨q₂, hq₂⟩ := Option.isSome_iff_exists.1 ((C88_known m₂ q₁).2 (fun e he => by rw [hnames]; exact hk e (by simp [he])))
  refine ⟨q₁, q₂, by simp [evaluateAll, hq₁, hq₂], ?_⟩
  rw [load_held m₂ q₁ q₂ hq₂ h₂ n, if_neg hn₂, load_held m₁ params q₁ hq₁ h₁ n, if_pos hn₁]

end

/-! ## Examples -/

/-- Two tasks, one of them with half the weight. -/
def sampleTasks : List (Task ℚ) :=
  [⟨cs!"a", 1, cs!"acc,none"⟩, ⟨cs!"b", 1 / 2, cs!"acc,none"⟩, ⟨cs!"a", 2, cs!"f1,none"⟩]

/-- Results for them. -/
def sampleResults (t m : Str) : Option ℚ :=
  if t = cs!"a" then if m = cs!"acc,none" then some 3 else some 5 else if t = cs!"b" then some 4 else none

example : sampleTasks.map (fun t => sampleResults t.name t.metric) = [3, 4, 5].map some ∧
    score sampleResults sampleTasks = .ok 15 ∧ evaluated sampleTasks = [cs!"a", cs!"b"] := by
  refine ⟨by decide +kernel, by decide +kernel, by decide +kernel⟩

example : costs [some (1 : ℚ), some 3] = .ok [-1, -3] ∧ costs [some (1 : ℚ), none] = .error .noScore := by
  refine ⟨by decide +kernel, by decide +kernel⟩

example : [((1 : Nat), (5 : ℚ)), (2, 3), (3, 3), (4, 4)].foldl remember (0, none) = (2, some 3) := by decide +kernel

example : (∀ l : List Nat, l.foldr max 0 + 1 ∉ l) := by
  intro l h
  have : ∀ (l : List Nat) x, x ∈ l → x ≤ l.foldr max 0 := by
    intro l
    induction l with
    | nil => simp
    | cons a l ih =>
      intro x hx
      rcases List.mem_cons.1 hx with rfl | hx
      · simp
      · have := ih x hx
        simp only [List.foldr_cons]; omega
  have := this l _ h
  omega

/-- The hypotheses of `C88_history` (first two) and of `C88_leaks` (the first and the third). -/
example : let params := [(cs!"w", 0), (cs!"b", 0), (cs!"z", 9)]
    let m₁ := [(cs!"w", 1), (cs!"b", 2)]
    let m₂ := [(cs!"b", 4), (cs!"w", 3)]
    let m₃ := [(cs!"w", 5)]
    (∀ m ∈ [m₁, m₂], (m.map Prod.fst).Nodup ∧ (m.map Prod.fst).Perm [cs!"w", cs!"b"]) ∧
    (∀ n ∈ [cs!"w", cs!"b"], n ∈ params.map Prod.fst) ∧
    (m₃.map Prod.fst).Nodup ∧ (∀ e ∈ m₁ ++ m₃, e.1 ∈ params.map Prod.fst) ∧ cs!"b" ∉ m₃.map Prod.fst ∧
    evaluateAll [m₁, m₃] params = [some [(cs!"w", 1), (cs!"b", 2), (cs!"z", 9)], some [(cs!"w", 5), (cs!"b", 2), (cs!"z", 9)]] := by
  decide

end Verif.Evolve
