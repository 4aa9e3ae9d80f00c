import Verif.Model.Chars
import Verif.Model.ModelRef
import Mathlib.Algebra.Order.Floor.Ring
import Mathlib.Algebra.Order.Field.Basic

/-! # Command line wrappers (`/repo/mergekit/scripts/layershuffle.py`, `legacy.py`)

The output is the configuration that is then merged (`run_merge`).  Models are values of an abstract type `M`. -/

namespace Verif.Scripts

open Verif.ModelRef (Str)

/-- How a run can fail.  [scripts/layershuffle.py:58-128, scripts/legacy.py:72-126] -/
inductive Err where
  /-- `IndexError` -/
  | index
  /-- `ValueError` -/
  | value
  /-- an `assert` -/
  | assertion
deriving DecidableEq

/-! ## Shuffling layers -/

/-- An output slice with its only source: model and layer range.  [config.py:55-70, scripts/layershuffle.py:70-107] -/
structure Slice (M : Type) where
  model : M
  start : Nat
  stop : Nat
deriving DecidableEq

variable {M K : Type} [Field K] [LinearOrder K] [FloorRing K]

/-- `list(accumulate(weights))`: cumulative sums, starting from `acc`.  [scripts/layershuffle.py:90] -/
def cumulative (acc : K) : List K → List K
  | [] => []
  | w :: ws => (acc + w) :: cumulative (acc + w) ws

/-- `bisect(cum_weights, x, 0, hi)` with `hi` the last index: the first index below the last whose sum exceeds `x`, else the last.  (Binary search
and this one agree on sorted lists, so for weights that are not negative.)  [scripts/layershuffle.py:90] -/
def bisect (x : K) : List K → Nat
  | [] => 0
  | [_] => 0
  | c :: c' :: cs => if x < c then 0 else bisect x (c' :: cs) + 1

/-- `random.choices(models, weights=weight, k=1)[0]`, layershuffle.py:90, `r` being the random number (`random() * total` is looked up; the
number of weights must be that of the models and the total positive). -/
def choose (models : List M) (weights : List K) (r : K) : Except Err M :=
  if weights.length ≠ models.length then .error .value
  else
    let total := (cumulative 0 weights).getLast?.getD 0
    if total ≤ 0 then .error .value
    else
      match models[bisect (r * total) (cumulative 0 weights)]? with
      | some m => .ok m
      | none => .error .index

/-- `out_slices[-1].sources[0].model == str(src_model)`, layershuffle.py:91: the left side is a `ModelReference` (the field's type), the right side
a `str`; they are never equal. -/
def equalsText (_ _ : M) : Bool := false

/-- One step of the loop, layershuffle.py:89-107: the slices so far are in reverse. -/
def addLayer (rev : List (Slice M)) (m : M) (i : Nat) : List (Slice M) :=
  match rev with
  | [] => [{ model := m, start := i, stop := i + 1 }]
  | last :: rest => if equalsText last.model m then { last with stop := i + 1 } :: rest else { model := m, start := i, stop := i + 1 } :: last :: rest

/-- The loop from layer `i` on, `r` the random number of each layer.  [scripts/layershuffle.py:88-107] -/
def shuffleFrom (models : List M) (weights : List K) (r : Nat → K) (rev : List (Slice M)) (i : Nat) : Nat → Except Err (List (Slice M))
  | 0 => .ok rev.reverse
  | k + 1 =>
    match choose models weights (r i) with
    | .error e => .error e
    | .ok m => shuffleFrom models weights r (addLayer rev m i) (i + 1) k

/-- `layershuffle` without `--full-random`, layershuffle.py:62-66, 88-107; `layers` is the number of layers of each model, that of the first one
counts. -/
def shuffle (models : List M) (layers : M → Nat) (weights : List K) (r : Nat → K) : Except Err (List (Slice M)) :=
  match models with
  | [] => .error .index
  | m0 :: _ => shuffleFrom models weights r [] 0 (layers m0)

/-- `range(int(x))`: how many numbers; `int` cuts decimals off.  [scripts/layershuffle.py:70-86] -/
def intCount (x : K) : Nat := (⌊x⌋).toNat

/-- The slices of one model with `--full-random`, layershuffle.py:70-86; `draw j` is `random.randrange(0, num_layers)`. -/
def randomSlices (m : M) (k : Nat) (draw : Nat → Nat) : List (Slice M) :=
  (List.range k).map (fun j => { model := m, start := draw j, stop := draw j + 1 })

/-- The loop over models and weights (`zip`: the shorter of the two lists counts), `draw m j` for the model in position `m`.  [scripts/layershuffle.py:69-87] -/
def randomFrom (layers : M → Nat) (draw : Nat → Nat → Nat) (i : Nat) : List M → List K → List (Slice M)
  | m :: ms, f :: fs => randomSlices m (intCount (layers m * f)) (draw i) ++ randomFrom layers draw (i + 1) ms fs
  | _, _ => []

/-- `layershuffle --full-random`, layershuffle.py:69-87; `mix` is `random.shuffle`. -/
def fullRandom (models : List M) (layers : M → Nat) (weights : List K) (draw : Nat → Nat → Nat) (mix : List (Slice M) → List (Slice M)) :
    Except Err (List (Slice M)) :=
  match models with
  | [] => .error .index
  | _ :: _ => .ok (mix (randomFrom layers draw 0 models weights))

/-! ## Legacy options -/

/-- A model of the configuration with its parameters.  [scripts/legacy.py:79-99] -/
structure Entry (K : Type) where
  model : Str
  density : Option K := none
  weight : Option K := none
deriving DecidableEq

/-- The configuration, without the flags that are handed on as they are.  [scripts/legacy.py:78-114] -/
structure Legacy (K : Type) where
  models : List (Entry K)
  t : Option K := none
  base : Option Str := none
deriving DecidableEq

/-- `for idx, d in enumerate(values): models[idx].parameters[...] = d`, legacy.py:88-89, 98-99. -/
def assign {K : Type} (set : Entry K → K → Entry K) : List (Entry K) → List K → Except Err (List (Entry K))
  | ms, [] => .ok ms
  | [], _ :: _ => .error .index
  | m :: ms, v :: vs => (assign set ms vs).map (set m v :: ·)

/-- A single value is meant for all models, legacy.py:86-87, 96-97. -/
def broadcast {K : Type} (n : Nat) : List K → List K
  | [v] => List.replicate n v
  | vs => vs

/-- The models, without parameters, legacy.py:79-81. -/
def legacyModels {K : Type} (merge : List Str) : Option Str → List (Entry K)
  | some b =>
    if b ≠ [] ∧ b ∉ merge then merge.map (fun m => { model := m }) ++ [{ model := b }] else merge.map (fun m => { model := m })
  | none => merge.map (fun m => { model := m })

/-- Weights, legacy.py:91-99. -/
def legacyWeights {K : Type} (base : Option Str) (weight : List K) (slerp : Bool) (models : List (Entry K)) : Except Err (Legacy K) :=
  if slerp then
    match weight with
    | [w] => .ok { models := models, t := some w, base := base }
    | _ => .error .assertion
  else
    match assign (fun e w => { e with weight := some w }) models (broadcast models.length weight) with
    | .error e => .error e
    | .ok models => .ok { models := models, base := base }

/-- `main`, legacy.py:78-114. -/
def legacy {K : Type} (merge : List Str) (base : Option Str) (density weight : List K) (slerp : Bool) : Except Err (Legacy K) :=
  match assign (fun e d => { e with density := some d }) (legacyModels merge base) (broadcast (legacyModels (K := K) merge base).length density) with
  | .error e => .error e
  | .ok models => legacyWeights base weight slerp models

end Verif.Scripts
