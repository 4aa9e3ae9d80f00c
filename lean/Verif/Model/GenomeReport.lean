import Verif.Model.Genome
import Verif.Model.Resume
import Verif.Model.Convert

/-! # Genotypes by name (`/repo/mergekit/evo/genome.py:343-365`) -/

namespace Verif.Genome

open Verif.ModelRef (Str Ref)

section
variable {K : Type}

/-- `genotype[:, model_idx, set_idx, idx]`; positions that are not there raise `IndexError`.  [evo/genome.py:361-363] -/
def column (x : Geno K) (m s p : Nat) : Except Err (List K) :=
  if m < x.models ∧ s < x.sets ∧ p < x.params then .ok ((List.range x.groups).map (fun i => x.at' i m s p)) else .error .index

/-- `f"_{filter_}"`, or nothing.  [evo/genome.py:358-360] -/
def filterSuffix : Option Str → Str
  | none => []
  | some f => '_' :: f

/-- The name of a column: the last part of the model's path, the parameter, the filter.  [evo/genome.py:354, 358-361] -/
def columnName (model : Ref) (param : Str) (filter : Option Str) : Str := Resume.basename model.model.path ++ '_' :: (param ++ filterSuffix filter)

/-- All columns in the order of the loops, with their positions (model, set, parameter).  [evo/genome.py:350-360] -/
def columns (d : Definition) : List (Str × Nat × Nat × Nat) :=
  d.method.params.zipIdx.flatMap (fun p => d.models.zipIdx.flatMap (fun m =>
    ((d.filters.getD []).map some ++ [none]).zipIdx.map (fun (f : Option Str × Nat) => (columnName m.1 p.1 f.1, m.2, f.2, p.2))))

/-- The assignments in turn.  [evo/genome.py:349, 361-363] -/
def collectColumns (x : Geno K) : List (Str × Nat × Nat × Nat) → List (Str × List K) → Except Err (List (Str × List K))
  | [], r => .ok r
  | (k, m, s, p) :: cs, r =>
    match column x m s p with
    | .error e => .error e
    | .ok v => collectColumns x cs (Convert.setKey r k v)

/-- `genotype_to_param_arrays`, evo/genome.py:343-365. -/
def byName (g : Genome) [Field K] [LinearOrder K] (input : Input K) : Except Err (List (Str × List K)) :=
  match g.toTorch input with
  | .error e => .error e
  | .ok x => collectColumns x (columns g.definition) []

end

end Verif.Genome
