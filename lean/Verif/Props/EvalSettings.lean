import Verif.Props.MainEvolve
import Verif.Model.EvolveCalls

/-! # C147: how models are evaluated during a search -/

set_option linter.unusedSectionVars false
set_option linter.unusedSimpArgs false

namespace Verif.Main

open Verif.ModelRef (Str)
open Verif.CommandLine (Line)
open Verif.Evolve (Arg EvalCall Downloads patchShuffle maxModelLen)

variable {K D : Type}

/-- An argument that may be missing. -/
inductive Given : Option Int → Option Arg → Prop
  | no : Given none (some .none)
  | yes (i : Int) : Given (some i) (some (.int i))

/-- The settings that do not depend on how the model is loaded: every task once, the directories to look for tasks in, the number of shots, the limit, the batch size, and how prompts are made. -/
structure SettingsReach (q : EvoLine K) (c : EvoConf K) (e : EvalCall) : Prop where
  tasks : ∀ n, n ∈ e.tasks ↔ ∃ t ∈ c.tasks, t.name = n
  once : e.tasks.Nodup
  search : e.search = q.taskPaths
  fewshot : Given c.fewshot (e.kwargs.lookup cs!"num_fewshot")
  limit : Given c.limit (e.kwargs.lookup cs!"limit")
  batch : Given q.batch (e.kwargs.lookup cs!"batch_size")
  chat : e.kwargs.lookup cs!"apply_chat_template" = some (.bool c.chat)
  multiturn : e.kwargs.lookup cs!"fewshot_as_multiturn" = some (.bool c.multiturn)

/-- A model on disk is loaded from its path, in bfloat16, by the library asked for. -/
structure LoadedFrom (q : EvoLine K) (path : Str) (e : EvalCall) : Prop where
  kind : (q.vllm = true → e.kind = some cs!"vllm") ∧ (q.vllm = false → e.kind = some cs!"huggingface")
  path : e.modelArgs.lookup cs!"pretrained" = some (.text path)
  dtype : e.modelArgs.lookup cs!"dtype" = some (.text cs!"bfloat16")

/-- It is loaded with the number of bits asked for. -/
def Bits (q : EvoLine K) (e : EvalCall) : Prop :=
  e.modelArgs.lookup cs!"quantization_config" = if q.four = true ∨ q.eight = true then some (.quant q.eight q.four) else none

theorem given_ofInt (o : Option Int) : Given o (some (Arg.ofInt o)) := by
  cases o with
  | none => exact .no
  | some i => exact .yes i

theorem lookup_bnb {q : EvoLine K} : (bnbConfig q).lookup cs!"quantization_config" = if q.four = true ∨ q.eight = true then some (.quant q.eight q.four) else none := by
  unfold bnbConfig
  cases q.four <;> cases q.eight <;> rfl

theorem bnb_other {q : EvoLine K} {k : Str} (hk : k ≠ cs!"quantization_config") : (bnbConfig q).lookup k = none := by
  unfold bnbConfig
  split
  · rw [List.lookup_cons, beq_eq_false_iff_ne.2 hk]
    rfl
  · rfl

theorem tasks_reach (ts : List (Evolve.Task K)) : (∀ n, n ∈ (ts.map (·.name)).dedup ↔ ∃ t ∈ ts, t.name = n) ∧ (ts.map (·.name)).dedup.Nodup :=
  ⟨fun n => by rw [List.mem_dedup]; exact List.mem_map, List.nodup_dedup _⟩

/-- **C147** Whichever strategy is chosen, every evaluation gets the tasks, the directories, the number of shots, the limit, the batch size and the settings of prompts; a model on disk is loaded from its
path in bfloat16 by the library asked for.  Only evaluation in memory with the strategies that do not support it is refused. -/
theorem C147_settings (q : EvoLine K) (c : EvoConf K) (path : Str) :
    (evoCall q c path = none ↔ q.strategy ≠ cs!"pool" ∧ q.inMemory = true) ∧
    ∀ e, evoCall q c path = some e → SettingsReach q c e ∧ (q.inMemory = false → LoadedFrom q path e) ∧ (q.inMemory = true → e.kind = none) := by
  obtain ⟨t1, t2⟩ := tasks_reach c.tasks
  have hkind : (q.vllm = true → some (if q.vllm = true then cs!"vllm" else cs!"huggingface") = some cs!"vllm") ∧
      (q.vllm = false → some (if q.vllm = true then cs!"vllm" else cs!"huggingface") = some cs!"huggingface") := by
    constructor <;> intro h <;> rw [h] <;> rfl
  have hd : SettingsReach q c (diskCall q c path) ∧ LoadedFrom q path (diskCall q c path) :=
    ⟨⟨t1, t2, rfl, given_ofInt _, given_ofInt _, given_ofInt _, rfl, rfl⟩, hkind, rfl, rfl⟩
  have hb : SettingsReach q c (bufferedCall q c path) ∧ LoadedFrom q path (bufferedCall q c path) :=
    ⟨⟨t1, t2, rfl, given_ofInt _, given_ofInt _, given_ofInt _, rfl, rfl⟩, hkind, rfl, rfl⟩
  have hs : SettingsReach q c (serialCall q c path) ∧ LoadedFrom q path (serialCall q c path) :=
    ⟨⟨t1, t2, rfl, given_ofInt _, given_ofInt _, given_ofInt _, rfl, rfl⟩, hkind, rfl, rfl⟩
  have hm : SettingsReach q c (memoryCall q c) := ⟨t1, t2, rfl, given_ofInt _, given_ofInt _, given_ofInt _, rfl, rfl⟩
  unfold evoCall
  by_cases hp : q.strategy = cs!"pool"
  · rw [if_pos hp]
    cases hi : q.inMemory with
    | true =>
      refine ⟨by simp [hp], ?_⟩
      intro e he
      cases he
      exact ⟨hm, (fun h => absurd h (by decide)), fun _ => rfl⟩
    | false =>
      refine ⟨by simp, ?_⟩
      intro e he
      cases he
      exact ⟨hd.1, fun _ => hd.2, fun h => absurd h (by decide)⟩
  · rw [if_neg hp]
    cases hi : q.inMemory with
    | true =>
      refine ⟨by simp [hp], ?_⟩
      intro e he
      cases he
    | false =>
      simp only [Bool.false_eq_true, if_false]
      split
      · refine ⟨by simp, ?_⟩
        intro e he
        cases he
        exact ⟨hb.1, fun _ => hb.2, fun h => absurd h (by decide)⟩
      · refine ⟨by simp, ?_⟩
        intro e he
        cases he
        exact ⟨hs.1, fun _ => hs.2, fun h => absurd h (by decide)⟩

/-- **C147** A pool of actors also shuffles the data exactly if the document says so, and on disk loads models with the bits asked for. -/
theorem C147_pool (q : EvoLine K) (c : EvoConf K) (path : Str) (hq : q.strategy = cs!"pool") :
    ∃ e, evoCall q c path = some e ∧ e.shuffled = c.shuffle ∧ (q.inMemory = false → Bits q e) := by
  unfold evoCall
  rw [if_pos hq]
  cases hi : q.inMemory with
  | true => exact ⟨_, rfl, rfl, fun h => absurd h (by decide)⟩
  | false =>
    refine ⟨_, rfl, rfl, fun _ => ?_⟩
    unfold Bits
    rw [← lookup_bnb]
    unfold bnbConfig
    cases hv : q.vllm <;> cases h4 : q.four <;> cases h8 : q.eight <;>
      simp [diskCall, Evolve.evaluateModel, Evolve.evalModel, bnbConfig, hv, h4, h8, List.lookup_cons]

/-- **C147** fails for the other strategies: data are never shuffled, whatever the document says; and models are never loaded with fewer bits: the setting is given to the evaluation instead, as a keyword. -/
theorem C147_others (q : EvoLine K) (c : EvoConf K) (path : Str) (hq : q.strategy ≠ cs!"pool") (e : EvalCall) (he : evoCall q c path = some e) :
    e.shuffled = false ∧ e.modelArgs.lookup cs!"quantization_config" = none ∧ (e.kwargs.lookup cs!"quantization_config" ≠ none ↔ q.four = true ∨ q.eight = true) := by
  have key : ∀ e : EvalCall, e = bufferedCall q c path ∨ e = serialCall q c path →
      e.shuffled = false ∧ e.modelArgs.lookup cs!"quantization_config" = none ∧ (e.kwargs.lookup cs!"quantization_config" ≠ none ↔ q.four = true ∨ q.eight = true) := by
    intro e h
    have hk : e.kwargs.lookup cs!"quantization_config" = (bnbConfig q).lookup cs!"quantization_config" := by
      rcases h with rfl | rfl <;> rfl
    refine ⟨by rcases h with rfl | rfl <;> rfl, ?_, ?_⟩
    · rcases h with rfl | rfl <;> cases hv : q.vllm <;> simp [bufferedCall, serialCall, Evolve.evaluateModel, Evolve.evalModel, hv, List.lookup_cons]
    · rw [hk, lookup_bnb]
      split <;> simp_all
  unfold evoCall at he
  rw [if_neg hq] at he
  split at he
  · cases he
  · split at he
    · cases he
      exact key _ (Or.inl rfl)
    · cases he
      exact key _ (Or.inr rfl)

/-- **C147** fails for code that comes with models: that it may be run never reaches the evaluation of a model on disk. -/
theorem C147_trust (q : EvoLine K) (c : EvoConf K) (path : Str) (e : EvalCall) (he : evoCall q c path = some e) :
    e.modelArgs.lookup cs!"trust_remote_code" = none ∧ e.kwargs.lookup cs!"trust_remote_code" = none := by
  have hb : (bnbConfig q).lookup cs!"trust_remote_code" = none := bnb_other (by decide)
  have hkw : ∀ l : List (Str × Arg), l.lookup cs!"trust_remote_code" = none →
      ([(cs!"num_fewshot", Arg.ofInt c.fewshot), (cs!"limit", Arg.ofInt c.limit), (cs!"batch_size", Arg.ofInt q.batch)] ++ (chatArgs c ++ l)).lookup cs!"trust_remote_code" = none := fun l h => h
  have hargs : ∀ l : List (Str × Arg), l.lookup cs!"trust_remote_code" = none →
      ([(cs!"pretrained", Arg.text path), (cs!"dtype", Arg.text cs!"bfloat16")] ++ l ++
        (if q.vllm then [(cs!"gpu_memory_utilization", Arg.text cs!"0.8"), (cs!"tensor_parallel_size", Arg.int 1), (cs!"batch_size", Arg.text cs!"auto"), (cs!"max_model_len", Arg.int 4096)]
         else [(cs!"use_cache", Arg.bool true)])).lookup cs!"trust_remote_code" = none := by
    intro l h
    have e1 : ∀ l2 : List (Str × Arg), l2.lookup cs!"trust_remote_code" = none → (l ++ l2).lookup cs!"trust_remote_code" = none := by
      intro l2 h2
      rw [List.lookup_append, h, h2]
      rfl
    cases q.vllm
    · exact e1 _ rfl
    · exact e1 _ rfl
  unfold evoCall at he
  split at he
  · split at he
    · cases he
      exact ⟨rfl, rfl⟩
    · cases he
      exact ⟨hargs _ hb, rfl⟩
  · split at he
    · cases he
    · split at he
      · cases he
        exact ⟨hargs [] rfl, hkw _ hb⟩
      · cases he
        exact ⟨hargs [] rfl, hkw _ hb⟩

/-- **C147** However often a process is told to shuffle, every download is shuffled once. -/
theorem C147_shuffles_once (shuffle : D → D) (l : Downloads D) (hl : l.marked = false) (n : Nat) :
    ((patchShuffle shuffle)^[n + 1] l).task = shuffle ∘ l.task ∧ ((patchShuffle shuffle)^[n + 1] l).configurable = shuffle ∘ l.configurable := by
  have h1 : patchShuffle shuffle l = ⟨shuffle ∘ l.task, shuffle ∘ l.configurable, true⟩ := by
    unfold patchShuffle
    rw [hl]
    rfl
  have hfix : ∀ m : Nat, (patchShuffle shuffle)^[m] ⟨shuffle ∘ l.task, shuffle ∘ l.configurable, true⟩ = ⟨shuffle ∘ l.task, shuffle ∘ l.configurable, true⟩ := by
    intro m
    induction m with
    | zero => rfl
    | succ m ih => rw [Function.iterate_succ_apply]; exact ih
  rw [Function.iterate_succ_apply, h1, hfix]
  exact ⟨rfl, rfl⟩

/-- **C147** With vLLM in memory the length of sequences is the largest that neither the model's positions, nor its window, nor 8192 forbid; a model that does not say its number of positions counts as one
of 1024 if it has a window. -/
theorem C147_length (positions window : Option Int) (hp : ∀ p, positions = some p → 0 < p) (hw : ∀ w, window = some w → 0 < w) :
    (maxModelLen positions window = none ↔ positions = none ∧ window = none) ∧
    ∀ m, maxModelLen positions window = some m → 0 < m ∧ ∀ k : Int, k ≤ m ↔ k ≤ 8192 ∧ (∀ p, positions = some p → k ≤ p) ∧ (∀ w, window = some w → k ≤ w) ∧
      (positions = none → k ≤ 1024) := by
  unfold maxModelLen
  cases positions with
  | none =>
    cases window with
    | none => simp
    | some w =>
      have := hw w rfl
      constructor
      · simp only [reduceCtorEq, and_false, iff_false]
        split <;> simp
      · intro m hm
        simp only at hm
        split at hm
        · rename_i h
          omega
        · cases hm
          refine ⟨by omega, fun k => ?_⟩
          simp only [reduceCtorEq, false_imp_iff, implies_true, true_and, Option.some.injEq, forall_eq', forall_const]
          omega
  | some p =>
    have hp := hp p rfl
    cases window with
    | none =>
      constructor
      · simp only [reduceCtorEq, false_and, iff_false]
        split <;> simp
      · intro m hm
        simp only at hm
        split at hm
        · cases hm
          refine ⟨by omega, fun k => ?_⟩
          simp only [reduceCtorEq, false_imp_iff, implies_true, true_and, Option.some.injEq, forall_eq', and_true]
          omega
        · cases hm
          refine ⟨by omega, fun k => ?_⟩
          simp only [reduceCtorEq, false_imp_iff, implies_true, true_and, Option.some.injEq, forall_eq', and_true]
          omega
    | some w =>
      have := hw w rfl
      constructor
      · simp only [reduceCtorEq, and_false, iff_false]
        rw [if_pos (show p ≠ 0 by omega)]
        split <;> simp
      · intro m hm
        simp only at hm
        rw [if_pos (show p ≠ 0 by omega)] at hm
        split at hm
        · cases hm
          refine ⟨by omega, fun k => ?_⟩
          simp only [reduceCtorEq, false_imp_iff, implies_true, true_and, Option.some.injEq, forall_eq', and_true]
          omega
        · cases hm
          refine ⟨by omega, fun k => ?_⟩
          simp only [reduceCtorEq, false_imp_iff, implies_true, true_and, Option.some.injEq, forall_eq', and_true]
          omega

/-! ## Cases -/

/-- A line as `click` gives it. -/
def evalLine (strategy : Str) : EvoLine ℚ where
  storage := cs!"st"
  maxFevals := 100
  strategy := strategy
  vllm := false
  inMemory := false
  numGpus := none
  cuda := true
  trust := true
  crimes := false
  seed := 0
  batch := some 4
  sigma := 1 / 6
  wandb := false
  taskPaths := [cs!"tasks"]
  allow := false
  save := true
  reshard := true
  timeout := none
  eight := false
  four := true
  popsize := none

/-- A document with two metrics of one task, and shuffling. -/
def evalConf : EvoConf ℚ where
  genome := { models := [Genome.named cs!"m/a"], method := .linear }
  tasks := [⟨cs!"t", 1, cs!"acc,none"⟩, ⟨cs!"t", 1 / 2, cs!"f1,none"⟩]
  limit := some 100
  fewshot := none
  shuffle := true
  randomInit := false
  chat := true
  multiturn := false

/-- The hypotheses are met: with a pool the data are shuffled and the model is loaded in four bits; with the serial strategy, for the same document and line, neither is the case. -/
theorem C147_case : ∃ e e', evoCall (evalLine cs!"pool") evalConf cs!"st/merged/x" = some e ∧ e.shuffled = true ∧ e.tasks = [cs!"t"] ∧
      e.modelArgs.lookup cs!"quantization_config" = some (.quant false true) ∧
    evoCall (evalLine cs!"serial") evalConf cs!"st/merged/x" = some e' ∧ e'.shuffled = false ∧ e'.tasks = [cs!"t"] ∧ e'.modelArgs.lookup cs!"quantization_config" = none ∧
      e'.kwargs.lookup cs!"quantization_config" = some (.quant false true) :=
  ⟨_, _, rfl, rfl, by decide +kernel, by decide +kernel, rfl, rfl, by decide +kernel, by decide +kernel, by decide +kernel⟩

example : maxModelLen (some 32768) (some 4096) = some 4096 ∧ maxModelLen (some 32768) none = some 8192 ∧ maxModelLen none (some 4096) = some 1024 := by decide

example : ((patchShuffle (List.reverse (α := Nat)))^[3] ⟨fun l => l ++ [1], fun l => l ++ [2], false⟩).task [5, 6] = [1, 6, 5] := by decide

end Verif.Main
