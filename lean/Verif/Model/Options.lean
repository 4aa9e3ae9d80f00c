import Verif.Model.Chars
import Verif.Model.ModelRef

/-! # Options of every command (`/repo/mergekit/options.py`) and what they choose -/

namespace Verif.Options

open Verif.ModelRef (Str)

/-- The dictionary given to `MergeOptions` (options.py:19-42): `none` stands for an absent key.  Only the options for devices and writing are kept apart;
`rest` stands for all others, which no validator reads.  Values are already of the declared types (pydantic's conversions are not modelled); a `device`
of `None` counts as absent. -/
structure Given (α : Type) where
  rest : α
  gpuRich : Option Bool := none
  cuda : Option Bool := none
  lowCpuMemory : Option Bool := none
  readToGpu : Option Bool := none
  multiGpu : Option Bool := none
  device : Option Str := none
  asyncWrite : Option Bool := none
  writeThreads : Option Int := none

/-- `handle_gpu_rich`, options.py:60-67. -/
def handleGpuRich {α : Type} (v : Given α) : Given α :=
  if v.gpuRich = some true then { v with cuda := some true, lowCpuMemory := some true, readToGpu := some true, multiGpu := some true } else v

/-- What torch finds on the machine, options.py:84-87: `torch.cuda.is_available()` and `torch.xpu.is_available()`. -/
structure Machine where
  cuda : Bool
  xpu : Bool

/-- The part of `handle_device_setting` for a device that is not set (or empty), options.py:75-79. -/
def deviceUnset {α : Type} (v : Given α) : Given α :=
  if v.device = none ∨ v.device = some [] then
    if v.cuda = some true ∨ v.gpuRich = some true then { v with device := some cs!"cuda" } else { v with device := some cs!"cpu" }
  else v

/-- The part of `handle_device_setting` for `auto`, options.py:82-88. -/
def deviceAuto {α : Type} (m : Machine) (v : Given α) : Given α :=
  if v.device = some cs!"auto" then
    if m.cuda then { v with device := some cs!"cuda" } else if m.xpu then { v with device := some cs!"xpu" } else { v with device := some cs!"cpu" }
  else v

/-- `handle_device_setting`, options.py:69-89. -/
def handleDevice {α : Type} (m : Machine) (v : Given α) : Given α := deviceAuto m (deviceUnset v)

/-- The fields of `MergeOptions`, options.py:19-42. -/
structure Opts (α : Type) where
  rest : α
  gpuRich : Bool
  cuda : Bool
  lowCpuMemory : Bool
  readToGpu : Bool
  multiGpu : Bool
  device : Option Str
  asyncWrite : Bool
  writeThreads : Int

/-- Absent keys get the defaults of options.py:24-42. -/
def fill {α : Type} (v : Given α) : Opts α where
  rest := v.rest
  gpuRich := v.gpuRich.getD false
  cuda := v.cuda.getD false
  lowCpuMemory := v.lowCpuMemory.getD false
  readToGpu := v.readToGpu.getD false
  multiGpu := v.multiGpu.getD false
  device := v.device
  asyncWrite := v.asyncWrite.getD false
  writeThreads := v.writeThreads.getD 1

/-- `MergeOptions(**v)`, options.py:19-89: pydantic runs the validator of mode "before" that is defined last first. -/
def validate {α : Type} (m : Machine) (v : Given α) : Opts α := fill (handleGpuRich (handleDevice m v))

/-- The executor and its devices: merge.py:71-81, scripts/extract_lora.py:147-158. -/
inductive Exec where
  | multi (storage : Option Str)
  | single (math : Option Str) (storage : Option Str)
  deriving DecidableEq

/-- merge.py:71-81; scripts/extract_lora.py:147-158 makes the same choice. -/
def mergeExec {α : Type} (o : Opts α) : Exec :=
  if o.multiGpu then .multi (if o.lowCpuMemory then none else some cs!"cpu")
  else .single o.device (if o.lowCpuMemory then o.device else some cs!"cpu")

/-- scripts/merge_raw_pytorch.py:252-258. -/
def rawExec {α : Type} (o : Opts α) : Exec := .single o.device (if o.lowCpuMemory then o.device else some cs!"cpu")

/-- The device tensors are read to, plan.py:207 (`None`: wherever the file says). -/
def readDevice {α : Type} (o : Opts α) : Option Str := if o.readToGpu then o.device else none

/-- A thread pool of `TensorWriter.__init__`, io/tensor_writer.py:58-59: none for synchronous writing; python's `ThreadPoolExecutor` refuses a number of
threads that is not positive. -/
def pool (async : Bool) (threads : Int) : Except Unit (Option Nat) :=
  if async then (if threads ≤ 0 then .error () else .ok (some threads.toNat)) else .ok none

/-- `TensorWriterTask(**kwargs)`, io/tasks.py:178-197, as regards its field `write_threads` (default 1): pydantic ignores keys that are not fields. -/
def taskThreads (kwargs : List (Str × Int)) : Int := (kwargs.lookup cs!"write_threads").getD 1

/-- The pool of a merge, plan.py:337-343; scripts/merge_raw_pytorch.py:91-97 and scripts/extract_lora.py:363-370 build the same task. -/
def mergePool {α : Type} (o : Opts α) : Except Unit (Option Nat) :=
  pool o.asyncWrite (taskThreads [(cs!"max_write_threads", o.writeThreads)])

/-- The pool of a mixture of experts, moe/common.py:35-41; scripts/tokensurgeon.py:765-771 builds the same writer. -/
def moePool {α : Type} (o : Opts α) : Except Unit (Option Nat) := pool o.asyncWrite o.writeThreads

/-- The options of mergekit-evolve, scripts/evolve.py:195-208. -/
def evolveGiven {α : Type} (rest : α) (mergeCuda inMemory : Bool) : Given α :=
  { rest, cuda := some mergeCuda, lowCpuMemory := some (mergeCuda && !inMemory), readToGpu := some (mergeCuda && !inMemory) }

end Verif.Options
