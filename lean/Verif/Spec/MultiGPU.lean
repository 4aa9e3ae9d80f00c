import Verif.Model.MultiGPU

/-! # What the multi-GPU partition is supposed to be -/

namespace Verif.MultiGPU
open Verif.Graph

variable {n : Nat}

/-- Must run on the main thread and depends only on such tasks. -/
inductive Leads (G : TaskGraph n) (F : Flags n) : Fin n → Prop
  | mk {t} : F.mainOnly t = true → (∀ d ∈ G.deps t, Leads G F d) → Leads G F t

/-- Must run on the main thread and is needed only by such tasks. -/
inductive Trails (G : TaskGraph n) (F : Flags n) : Fin n → Prop
  | mk {t} : F.mainOnly t = true → (∀ u, t ∈ G.deps u → Trails G F u) → Trails G F t

end Verif.MultiGPU
