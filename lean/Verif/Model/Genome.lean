import Verif.Model.Config
import Verif.Model.Chars

/-! # Genomes of the evolutionary search (`/repo/mergekit/evo/genome.py`)

Numbers are elements of an ordered field (exact arithmetic instead of floating point). -/

namespace Verif.Genome

open Verif.ModelRef (Str Ref)
open Verif.Config (Scalar Cond Elem Setting Params InSlice InModel OutSlice MergeConfig)

/-- How making a configuration may fail.  [evo/genome.py:97-154, 318-341] -/
inductive Err where
  /-- `InvalidGenotypeError`, genome.py:335-339 -/
  | invalidGenotype
  /-- `AssertionError` -/
  | assertion
  /-- `RuntimeError` of torch: impossible view, too few elements for `topk` -/
  | runtime
  /-- `TypeError`: `None + [None]` -/
  | type
  /-- `IndexError` -/
  | index
  /-- `ValidationError` of pydantic -/
  | validation
deriving DecidableEq

/-- The merge methods of `METHOD_PARAM_MAPS`, genome.py:16-22. -/
inductive Method where
  | linear
  | taskArithmetic
  | ties
  | dareTies
  | slerp
deriving DecidableEq

/-- `METHOD_PARAM_MAPS`, genome.py:16-22. -/
def Method.params : Method → List Str
  | .linear => [cs!"weight"]
  | .taskArithmetic => [cs!"weight"]
  | .ties => [cs!"weight", cs!"density"]
  | .dareTies => [cs!"weight", cs!"density"]
  | .slerp => [cs!"t"]

/-- `ModelGenomeDefinition`, genome.py:29-38.  The method is one of the known ones (the first assertion of `validate`,
genome.py:42, is thereby met); `tokenizer_source` only as "given (non-empty) or not". -/
structure Definition where
  models : List Ref
  method : Method
  baseModel : Option Ref := none
  tokenizerSource : Bool := false
  granularity : Int := 0
  normalize : Option Bool := none
  allowNegative : Bool := false
  filters : Option (List Str) := none
  smooth : Bool := false

/-- `ModelGenomeDefinition.validate`, genome.py:40-53. -/
def Definition.valid (d : Definition) : Bool :=
  (match d.method with
    | .ties | .dareTies | .taskArithmetic => d.baseModel.isSome
    | _ => true) &&
  (match d.method with
    | .slerp => !d.smooth && (d.filters.getD []).isEmpty
    | _ => true)

/-- `ModelGenome`, genome.py:56-59: the definition and the layer count of the first model. -/
structure Genome where
  definition : Definition
  numLayers : Nat

/-- `ModelGenome.__init__`, genome.py:61-74; `layersOf` is `model.config().num_hidden_layers`. -/
def create (d : Definition) (layersOf : Ref → Nat) : Except Err Genome :=
  match d.models with
  | [] => .error .index
  | m :: _ =>
    if d.granularity < 1 ∨ (layersOf m : Int) % d.granularity = 0 then .ok ⟨d, layersOf m⟩ else .error .assertion

/-- The number of layer groups, genome.py:78-81, 323-327. -/
def Genome.groups (g : Genome) : Nat :=
  if g.definition.granularity > 0 then g.numLayers / g.definition.granularity.toNat else 1

/-- `len(self.definition.filters or []) + 1`, genome.py:82, 331. -/
def Genome.sets (g : Genome) : Nat := (g.definition.filters.getD []).length + 1

/-- `layer_step`, genome.py:164-168, 268-272. -/
def Genome.step (g : Genome) : Nat :=
  if g.definition.granularity > 0 then g.definition.granularity.toNat else g.numLayers

/-- A tensor of four dimensions: layer groups, models, parameter sets, parameters.  [evo/genome.py:318-341] -/
structure Geno (K : Type) where
  groups : Nat
  models : Nat
  sets : Nat
  params : Nat
  at' : Nat → Nat → Nat → Nat → K

/-- What is handed to `genotype_merge_config`: a vector, a tensor of four dimensions or one of another number of dimensions.  [evo/genome.py:97-100, 318-341] -/
inductive Input (K : Type) where
  | flat (values : List K)
  | four (g : Geno K)
  | other

/-- What is used of torch: the positions of the two largest elements (`topk(_, 2).indices`) and the exponential inside
`softmax`.  [evo/genome.py:156-316] -/
structure Ops (K : Type) where
  topk : List K → Nat × Nat
  exp : K → K

section
variable {K : Type} [Field K] [LinearOrder K]

/-- `initial_genotype(random=False)`, genome.py:76-95. -/
def Genome.initial (g : Genome) : Geno K :=
  { groups := g.groups, models := g.definition.models.length, sets := g.sets, params := g.definition.method.params.length,
    at' := fun _ _ _ p => if p = 0 then 1 / (g.definition.models.length : K) else 1 }

/-- `_to_torch`, genome.py:318-341. -/
def Genome.toTorch (g : Genome) : Input K → Except Err (Geno K)
  | .four x => .ok x
  | .other => .error .invalidGenotype
  | .flat l =>
    let d := g.groups * g.definition.models.length * g.sets
    if d = 0 ∨ l.length % d ≠ 0 then .error .runtime
    else
      let p := l.length / d
      .ok { groups := g.groups, models := g.definition.models.length, sets := g.sets, params := p,
            at' := fun i m s q => (l[((i * g.definition.models.length + m) * g.sets + s) * p + q]?).getD 0 }

/-- genome.py:118-127: a number of the genotype as value of a parameter. -/
def processed (allowNegative : Bool) (param : Str) (x : K) : K :=
  let x := if param = cs!"density" then min (max |x| 0) 1 else x
  if !allowNegative ∧ (param = cs!"weight" ∨ param = cs!"t") then |x| else x

/-- `(self.definition.filters + [None])[set_idx]`, genome.py:182, 232. -/
def filterAt (d : Definition) (s : Nat) : Except Err (Option Str) :=
  match d.filters with
  | none => .error .type
  | some fs =>
    match (fs.map some ++ [none])[s]? with
    | none => .error .index
    | some f => .ok f

/-- One entry of a conditional parameter, genome.py:182-185, 232-238. -/
def entry (d : Definition) (value : Nat → Scalar K ⊕ List (Scalar K)) (s : Nat) : Except Err (Elem K) :=
  match filterAt d s with
  | .error e => .error e
  | .ok f => .ok (.cond ⟨value s, f⟩)

/-- The setting of one parameter of one model from the values of its parameter sets, genome.py:173-192, 227-243. -/
def setting (d : Definition) (sets : Nat) (value : Nat → Scalar K ⊕ List (Scalar K)) : Except Err (Setting K) :=
  if 1 < sets then
    match (List.range sets).mapM (entry d value) with
    | .error e => .error e
    | .ok es => .ok (.list es)
  else if sets = 0 then .error .index
  else match value 0 with
    | .inl x => .ok (.scalar x)
    | .inr l => .ok (.list (l.map .scalar))

/-- One parameter with its setting; `e` is the parameter and its position.  [evo/genome.py:220-257] -/
def oneParam (d : Definition) (sets : Nat) (value : Str → Nat → Nat → Scalar K ⊕ List (Scalar K)) (e : Str × Nat) :
    Except Err (Str × Setting K) :=
  match setting d sets (value e.1 e.2) with
  | .error x => .error x
  | .ok s => .ok (e.1, s)

/-- The parameters of one model; `value param param_idx set_idx` is the value of a parameter set.  [evo/genome.py:220-257] -/
def modelParams (d : Definition) (sets : Nat) (value : Str → Nat → Nat → Scalar K ⊕ List (Scalar K)) :
    Except Err (Params K) :=
  d.method.params.zipIdx.mapM (oneParam d sets value)

/-- The values of a single layer group, genome.py:177-181, 188-192. -/
def groupValue (d : Definition) (x : Geno K) (i m : Nat) (param : Str) (p s : Nat) : Scalar K ⊕ List (Scalar K) :=
  .inl (.num (processed d.allowNegative param (x.at' i m s p)))

/-- `_unpack_single_element`, genome.py:368-371. -/
def unpack : List (Scalar K) → Scalar K ⊕ List (Scalar K)
  | [x] => .inl x
  | l => .inr l

/-- The values of all layer groups, genome.py:231, 236, 241-243. -/
def smoothValue (d : Definition) (x : Geno K) (m : Nat) (param : Str) (p s : Nat) : Scalar K ⊕ List (Scalar K) :=
  unpack ((List.range x.groups).map (fun i => .num (processed d.allowNegative param (x.at' i m s p))))

/-- `self.definition.base_model and self.definition.base_model not in self.definition.models`, genome.py:205-207, 253-255,
302-304. -/
def extraBase (d : Definition) : List Ref :=
  match d.baseModel with
  | none => []
  | some b => if b ∈ d.models then [] else [b]

/-- A source of slice `i`, genome.py:194-203, 276-286; `e` is the model and its position. -/
def source (g : Genome) (x : Geno K) (i : Nat) (e : Ref × Nat) : Except Err (InSlice K) :=
  match modelParams g.definition x.sets (groupValue g.definition x i e.2) with
  | .error err => .error err
  | .ok ps => .ok { model := e.1, start := (i * g.step : Nat), stop := ((i + 1) * g.step : Nat), parameters := ps }

/-- The source added for a base model that is not among the models, genome.py:205-216, 302-313. -/
def baseSources (g : Genome) (i : Nat) : List (InSlice K) :=
  (extraBase g.definition).map (fun b => { model := b, start := (i * g.step : Nat), stop := ((i + 1) * g.step : Nat) })

/-- One slice of `_discrete_config_slices`, genome.py:169-217. -/
def discreteSlice (g : Genome) (x : Geno K) (i : Nat) : Except Err (OutSlice K) :=
  match g.definition.models.zipIdx.mapM (source g x i) with
  | .error e => .error e
  | .ok ss => .ok { sources := ss ++ baseSources g i }

/-- One entry of `_smooth_config_models`, genome.py:225-251 (the key `layer_range`, unknown to `InputModelDefinition`, is
ignored). -/
def smoothModel (d : Definition) (x : Geno K) (e : Ref × Nat) : Except Err (InModel K) :=
  match modelParams d x.sets (smoothValue d x e.2) with
  | .error err => .error err
  | .ok ps => .ok { model := e.1, parameters := ps }

/-- `_smooth_config_models`, genome.py:220-257. -/
def smoothModels (d : Definition) (x : Geno K) : Except Err (List (InModel K)) :=
  match d.models.zipIdx.mapM (smoothModel d x) with
  | .error e => .error e
  | .ok ms => .ok (ms ++ (extraBase d).map (fun b => { model := b }))

/-- The weights of the models in a layer group, genome.py:290. -/
def weightsOf (x : Geno K) (i : Nat) : List K := (List.range x.models).map (fun m => x.at' i m 0 0)

/-- `torch.softmax(chosen.values, dim=-1)[1]`, genome.py:291. -/
def mixing (ops : Ops K) (w : List K) (c : Nat × Nat) : K :=
  ops.exp ((w[c.2]?).getD 0) / (ops.exp ((w[c.1]?).getD 0) + ops.exp ((w[c.2]?).getD 0))

/-- `s["sources"][chosen]` with the weight given if there is a tokenizer source, genome.py:276-286, 294-300. -/
def slerpSource (g : Genome) (i : Nat) (weight : K) (m : Nat) : Except Err (InSlice K) :=
  match g.definition.models[m]? with
  | none => .error .index
  | some r => .ok { model := r, start := (i * g.step : Nat), stop := ((i + 1) * g.step : Nat),
                    parameters := if g.definition.tokenizerSource then [(cs!"weight", .scalar (.num weight))] else [] }

/-- The slice made of the two models chosen, genome.py:288-315. -/
def slerpWith (ops : Ops K) (g : Genome) (w : List K) (i : Nat) (c : Nat × Nat) : Except Err (OutSlice K) :=
  match slerpSource g i (1 - mixing ops w c) c.1, slerpSource g i (mixing ops w c) c.2 with
  | .ok a, .ok b =>
    .ok { sources := [a, b] ++ baseSources g i, baseModel := some a.model,
          parameters := [(cs!"t", .scalar (.num (mixing ops w c)))] }
  | .error e, _ => .error e
  | _, .error e => .error e

/-- One slice of `_slerp_slices`, genome.py:274-315. -/
def slerpSlice (ops : Ops K) (g : Genome) (x : Geno K) (i : Nat) : Except Err (OutSlice K) :=
  if x.sets = 0 then .error .index
  else if x.models < 2 then .error .runtime
  else slerpWith ops g (weightsOf x i) i (ops.topk (weightsOf x i))

/-- The sections of the configuration: slices or models, genome.py:110-136. -/
def sections (ops : Ops K) (g : Genome) (x : Geno K) : Except Err (Option (List (OutSlice K)) × Option (List (InModel K))) :=
  if g.definition.method = .slerp then
    match (List.range x.groups).mapM (slerpSlice ops g x) with
    | .error e => .error e
    | .ok ss => .ok (some ss, none)
  else if g.definition.smooth then
    match smoothModels g.definition x with
    | .error e => .error e
    | .ok ms => .ok (none, some ms)
  else
    match (List.range x.groups).mapM (discreteSlice g x) with
    | .error e => .error e
    | .ok ss => .ok (some ss, none)

/-- genome.py:138-140. -/
def normalizes (d : Definition) : Bool :=
  match d.normalize with
  | some b => b
  | none => d.method = .ties || d.method = .dareTies || d.method = .linear

/-- genome.py:138-154; the merge method and the data type are not part of `MergeConfig`. -/
def assemble (d : Definition) (p : Option (List (OutSlice K)) × Option (List (InModel K))) : MergeConfig K :=
  { slices := p.1, models := p.2, baseModel := d.baseModel, tokenizerSource := d.tokenizerSource,
    parameters := [(cs!"normalize", .scalar (.num (if normalizes d then 1 else 0))), (cs!"int8_mask", .scalar (.num 1))] }

/-- The assertions on the shape, genome.py:104-108; the number of parameter sets is not checked. -/
def shapeOk (g : Genome) (x : Geno K) : Bool :=
  (!decide (g.definition.granularity > 0) || decide ((x.groups : Int) * g.definition.granularity = g.numLayers)) &&
  decide (x.models = g.definition.models.length) && decide (x.params = g.definition.method.params.length)

/-- `genotype_merge_config`, genome.py:97-154. -/
def mergeConfig (ops : Ops K) (g : Genome) (input : Input K) : Except Err (MergeConfig K) :=
  match g.toTorch input with
  | .error e => .error e
  | .ok x =>
    if shapeOk g x then
      match sections ops g x with
      | .error e => .error e
      | .ok p => if (assemble g.definition p).valid then .ok (assemble g.definition p) else .error .validation
    else .error .assertion

end

end Verif.Genome
