import Verif.Model.Options

/-! # C102: options for devices and writing mean what their help says -/

namespace Verif.Options

open Verif.ModelRef (Str)

variable {α : Type}

/-- What `auto` stands for. -/
def found (m : Machine) : Str := if m.cuda then cs!"cuda" else if m.xpu then cs!"xpu" else cs!"cpu"

/-- The device asked for, as the help describes it. -/
def wanted (m : Machine) (v : Given α) : Str :=
  match v.device with
  | none | some [] => if v.cuda = some true ∨ v.gpuRich = some true then cs!"cuda" else cs!"cpu"
  | some d => if d = cs!"auto" then found m else d

theorem handleDevice_eq (m : Machine) (v : Given α) : handleDevice m v = { v with device := some (wanted m v) } := by
  obtain ⟨r, g, c, l, rd, mg, d, a, w⟩ := v
  unfold handleDevice deviceUnset deviceAuto wanted
  cases d with
  | none =>
    by_cases h : c = some true ∨ g = some true
    · simp [h]
    · simp [h]
  | some d =>
    cases d with
    | nil =>
      by_cases h : c = some true ∨ g = some true
      · simp [h]
      · simp [h]
    | cons x xs =>
      have hu : ¬ (some (x :: xs) = (none : Option Str) ∨ some (x :: xs) = some []) := by
        rintro (h | h) <;> cases h
      simp only [if_neg hu]
      by_cases h : (x :: xs) = cs!"auto"
      · simp only [h, if_true]
        unfold found
        cases m.cuda <;> cases m.xpu <;> rfl
      · have h' : ¬ (some (x :: xs) = some cs!"auto") := fun e => h (Option.some.inj e)
        simp only [if_neg h, if_neg h']

/-- C102: the device after validation is the one asked for. -/
theorem C102_device (m : Machine) (v : Given α) : (validate m v).device = some (wanted m v) := by
  unfold validate
  rw [handleDevice_eq]
  unfold handleGpuRich
  split <;> rfl

/-- C102: an explicit device is kept, whatever the other options and the machine. -/
theorem C102_explicit (m : Machine) (v : Given α) {d : Str} (hd : v.device = some d) (h0 : d ≠ []) (ha : d ≠ cs!"auto") : (validate m v).device = some d := by
  rw [C102_device]
  unfold wanted
  rw [hd]
  cases d with
  | nil => exact absurd rfl h0
  | cons x xs => simp only [if_neg ha]

/-- C102: the device is never left open. -/
theorem C102_device_set (m : Machine) (v : Given α) : ∃ d, (validate m v).device = some d ∧ d ≠ [] ∧ d ≠ cs!"auto" := by
  refine ⟨_, C102_device m v, ?_⟩
  unfold wanted
  cases v.device with
  | none => simp only; split <;> decide
  | some d =>
    cases d with
    | nil => simp only; split <;> decide
    | cons x xs =>
      simp only
      split
      · unfold found
        split
        · decide
        · split <;> decide
      · rename_i h
        exact ⟨List.cons_ne_nil _ _, h⟩

/-- C102: --gpu-rich means the same as its four options together. -/
theorem C102_gpu_rich (m : Machine) (v : Given α) :
    validate m { v with gpuRich := some true } =
      { validate m { v with gpuRich := none, cuda := some true, lowCpuMemory := some true, readToGpu := some true, multiGpu := some true } with gpuRich := true } := by
  unfold validate
  rw [handleDevice_eq, handleDevice_eq]
  obtain ⟨r, g, c, l, rd, mg, d, a, w⟩ := v
  cases d with
  | none => simp [handleGpuRich, fill, wanted]
  | some d =>
    cases d with
    | nil => simp [handleGpuRich, fill, wanted]
    | cons x xs => simp [handleGpuRich, fill, wanted]

/-- C102: otherwise every option is as given, or its default. -/
theorem C102_plain (m : Machine) (v : Given α) (h : v.gpuRich ≠ some true) :
    validate m v = ⟨v.rest, false, v.cuda.getD false, v.lowCpuMemory.getD false, v.readToGpu.getD false, v.multiGpu.getD false, some (wanted m v),
      v.asyncWrite.getD false, v.writeThreads.getD 1⟩ := by
  unfold validate
  rw [handleDevice_eq]
  unfold handleGpuRich
  rw [if_neg h]
  unfold fill
  cases hg : v.gpuRich with
  | none => simp
  | some b =>
    cases b with
    | false => simp
    | true => exact absurd hg h

/-- C102: --gpu-rich sets nothing but its four options and the device. -/
theorem C102_gpu_rich_all (m : Machine) (v : Given α) (h : v.gpuRich = some true) :
    validate m v = ⟨v.rest, true, true, true, true, true, some (wanted m v), v.asyncWrite.getD false, v.writeThreads.getD 1⟩ := by
  unfold validate
  rw [handleDevice_eq]
  unfold handleGpuRich
  rw [if_pos h]
  unfold fill
  simp [h]

/-- C102: the order of the validators does not matter. -/
theorem C102_order (m : Machine) (v : Given α) : fill (handleDevice m (handleGpuRich v)) = validate m v := by
  unfold validate
  rw [handleDevice_eq, handleDevice_eq]
  by_cases h : v.gpuRich = some true
  · obtain ⟨r, g, c, l, rd, mg, d, a, w⟩ := v
    simp only at h
    subst h
    cases d with
    | none => simp [handleGpuRich, fill, wanted]
    | some d =>
      cases d with
      | nil => simp [handleGpuRich, fill, wanted]
      | cons x xs => simp [handleGpuRich, fill, wanted]
  · unfold handleGpuRich
    rw [if_neg h, if_neg h]

/-- Options given again as they are. -/
def again (o : Opts α) : Given α :=
  ⟨o.rest, some o.gpuRich, some o.cuda, some o.lowCpuMemory, some o.readToGpu, some o.multiGpu, o.device, some o.asyncWrite, some o.writeThreads⟩

/-- C102: validated options may be given again, even on another machine, and stay the same. -/
theorem C102_again (m m' : Machine) (v : Given α) : validate m' (again (validate m v)) = validate m v := by
  obtain ⟨d, hd, h0, ha⟩ := C102_device_set m v
  have hw : wanted m' (again (validate m v)) = d := by
    have := C102_device m' (again (validate m v))
    rw [C102_explicit m' (again (validate m v)) (d := d) hd h0 ha] at this
    exact (Option.some.inj this).symm
  by_cases h : v.gpuRich = some true
  · have h' : (again (validate m v)).gpuRich = some true := by rw [C102_gpu_rich_all m v h]; rfl
    rw [C102_gpu_rich_all m' _ h', hw]
    rw [C102_gpu_rich_all m v h] at hd ⊢
    simp only at hd
    rw [hd]
    rfl
  · have h' : (again (validate m v)).gpuRich ≠ some true := by rw [C102_plain m v h]; simp [again]
    rw [C102_plain m' _ h', hw]
    rw [C102_plain m v h] at hd ⊢
    simp only at hd
    rw [hd]
    rfl

/-- C102: without --multi-gpu a merge computes on the device asked for, keeps results there with --low-cpu-memory and in memory otherwise, and reads weights
to it exactly with --read-to-gpu. -/
theorem C102_merge (m : Machine) (v : Given α) (h1 : v.gpuRich ≠ some true) (h2 : v.multiGpu ≠ some true) :
    mergeExec (validate m v) = .single (some (wanted m v)) (some (if v.lowCpuMemory = some true then wanted m v else cs!"cpu")) ∧
    rawExec (validate m v) = mergeExec (validate m v) ∧
    readDevice (validate m v) = if v.readToGpu = some true then some (wanted m v) else none := by
  rw [C102_plain m v h1]
  unfold mergeExec rawExec readDevice
  have h2' : v.multiGpu.getD false = false := by
    cases h : v.multiGpu with
    | none => rfl
    | some b => cases b with
      | false => rfl
      | true => exact absurd h h2
  simp only [h2', Bool.false_eq_true, if_false]
  have hl : v.lowCpuMemory.getD false = true ↔ v.lowCpuMemory = some true := by cases v.lowCpuMemory <;> simp
  have hr : v.readToGpu.getD false = true ↔ v.readToGpu = some true := by cases v.readToGpu <;> simp
  by_cases a : v.lowCpuMemory = some true <;> by_cases b : v.readToGpu = some true <;> simp [hl, hr, a, b]

/-- C102: with --multi-gpu a merge runs on all accelerators, and results stay where they are computed exactly with --low-cpu-memory. -/
theorem C102_multi (m : Machine) (v : Given α) (h1 : v.gpuRich ≠ some true) (h2 : v.multiGpu = some true) :
    mergeExec (validate m v) = .multi (if v.lowCpuMemory = some true then none else some cs!"cpu") := by
  rw [C102_plain m v h1]
  unfold mergeExec
  simp only [h2, Option.getD_some, if_true]
  cases h : v.lowCpuMemory with
  | none => rfl
  | some b => cases b <;> rfl

/-- C102: with --gpu-rich a merge runs on all accelerators, keeps results there, and reads weights to the device. -/
theorem C102_rich (m : Machine) (v : Given α) (h : v.gpuRich = some true) :
    mergeExec (validate m v) = .multi none ∧ readDevice (validate m v) = some (wanted m v) := by
  rw [C102_gpu_rich_all m v h]
  exact ⟨rfl, rfl⟩

/-- C102: with an explicit device, --cuda has no effect: the same devices are used with and without it. -/
theorem C102_cuda_without_effect (m : Machine) (v : Given α) {d : Str} (hd : v.device = some d) (h0 : d ≠ []) (b : Option Bool) :
    mergeExec (validate m { v with cuda := b }) = mergeExec (validate m v) ∧ rawExec (validate m { v with cuda := b }) = rawExec (validate m v) ∧
    readDevice (validate m { v with cuda := b }) = readDevice (validate m v) := by
  have hw : wanted m { v with cuda := b } = wanted m v := by
    unfold wanted
    simp only [hd]
  by_cases h : v.gpuRich = some true
  · rw [C102_gpu_rich_all m v h, C102_gpu_rich_all m { v with cuda := b } h, hw]
    exact ⟨rfl, rfl, rfl⟩
  · rw [C102_plain m v h, C102_plain m { v with cuda := b } h, hw]
    exact ⟨rfl, rfl, rfl⟩

/-- C102: mixtures of experts and tokensurgeon write with the number of threads asked for. -/
theorem C102_threads_partial (m : Machine) (v : Given α) (h : v.asyncWrite = some true) {n : Nat} (hn : v.writeThreads = some (n + 1 : Nat)) :
    moePool (validate m v) = .ok (some (n + 1)) := by
  have : (validate m v).asyncWrite = true ∧ (validate m v).writeThreads = (n + 1 : Nat) := by
    by_cases hg : v.gpuRich = some true
    · rw [C102_gpu_rich_all m v hg, h, hn]; exact ⟨rfl, rfl⟩
    · rw [C102_plain m v hg, h, hn]; exact ⟨rfl, rfl⟩
  unfold moePool pool
  rw [this.1, this.2, if_pos rfl, if_neg (by omega)]
  rfl

/-- C102, refuted for merges: they write with one thread whatever number is asked for (not even a negative one is refused). -/
theorem C102_threads_ignored (m : Machine) (v : Given α) :
    mergePool (validate m v) = .ok (if v.asyncWrite = some true then some 1 else none) := by
  have : (validate m v).asyncWrite = v.asyncWrite.getD false := by
    by_cases hg : v.gpuRich = some true
    · rw [C102_gpu_rich_all m v hg]
    · rw [C102_plain m v hg]
  have ht : ∀ n, taskThreads [(cs!"max_write_threads", n)] = 1 := fun n => rfl
  unfold mergePool pool
  rw [this, ht]
  cases h : v.asyncWrite with
  | none => rfl
  | some b => cases b <;> rfl

/-- C102: without --async-write no thread is started. -/
theorem C102_sync (m : Machine) (v : Given α) (h : v.asyncWrite ≠ some true) : mergePool (validate m v) = .ok none ∧ moePool (validate m v) = .ok none := by
  refine ⟨by rw [C102_threads_ignored, if_neg h], ?_⟩
  have : (validate m v).asyncWrite = false := by
    have h' : v.asyncWrite.getD false = false := by
      cases ha : v.asyncWrite with
      | none => rfl
      | some b => cases b with
        | false => rfl
        | true => exact absurd ha h
    by_cases hg : v.gpuRich = some true
    · rw [C102_gpu_rich_all m v hg]; exact h'
    · rw [C102_plain m v hg]; exact h'
  unfold moePool pool
  rw [this]
  rfl

/-- C102: mergekit-evolve merges on the GPU exactly with --merge-cuda, on one device, and keeps tensors there unless the model is kept in memory. -/
theorem C102_evolve (m : Machine) (rest : α) (c i : Bool) :
    mergeExec (validate m (evolveGiven rest c i)) =
      .single (some (if c then cs!"cuda" else cs!"cpu")) (some (if c && !i then cs!"cuda" else cs!"cpu")) ∧
    readDevice (validate m (evolveGiven rest c i)) = if c && !i then some cs!"cuda" else none := by
  cases c <;> cases i <;> exact ⟨rfl, rfl⟩

/-- `--cuda --device cpu` computes on the CPU. -/
example : mergeExec (validate ⟨true, false⟩ { rest := (), cuda := some true, device := some cs!"cpu" }) = .single (some cs!"cpu") (some cs!"cpu") := by decide +kernel

/-- `--device auto` on a machine with an XPU. -/
example : mergeExec (validate ⟨false, true⟩ { rest := (), device := some cs!"auto", lowCpuMemory := some true }) = .single (some cs!"xpu") (some cs!"xpu") := by
  decide +kernel

/-- `--gpu-rich --async-write --write-threads 8`. -/
example : (match mergePool (validate ⟨true, false⟩ { rest := (), gpuRich := some true, asyncWrite := some true, writeThreads := some 8 }) with
    | .ok x => x
    | .error _ => none) = some 1 := by decide +kernel

end Verif.Options
