import Verif.Model.Arch
import Verif.Model.ArchData
import Verif.Model.ArchKnown
import Verif.Model.Archive
import Verif.Model.Bakllama
import Verif.Model.Card
import Verif.Model.CardLora
import Verif.Model.Chars
import Verif.Model.CommandLine
import Verif.Model.Config
import Verif.Model.Convert
import Verif.Model.Devices
import Verif.Model.Document
import Verif.Model.Evolve
import Verif.Model.EvolveCalls
import Verif.Model.EvolveMain
import Verif.Model.Fill
import Verif.Model.Genome
import Verif.Model.GenomeReport
import Verif.Model.Graph
import Verif.Model.InMemory
import Verif.Model.Infer
import Verif.Model.Landmarks
import Verif.Model.LoadTask
import Verif.Model.Lora
import Verif.Model.LoraMain
import Verif.Model.LoraWhole
import Verif.Model.Magikarp
import Verif.Model.Main
import Verif.Model.MergeMethods
import Verif.Model.ModelRef
import Verif.Model.Moe
import Verif.Model.MoeBuild
import Verif.Model.MoeMain
import Verif.Model.MultiGPU
import Verif.Model.MultiMain
import Verif.Model.MultiMerge
import Verif.Model.NewRows
import Verif.Model.Omp
import Verif.Model.Options
import Verif.Model.Output
import Verif.Model.Packed
import Verif.Model.Pca
import Verif.Model.Pipeline
import Verif.Model.Plan
import Verif.Model.RawMain
import Verif.Model.RawMerge
import Verif.Model.Recipe
import Verif.Model.Registry
import Verif.Model.Resets
import Verif.Model.Resume
import Verif.Model.Rope
import Verif.Model.Rounding
import Verif.Model.Router
import Verif.Model.ScriptMain
import Verif.Model.Scripts
import Verif.Model.Search
import Verif.Model.Session
import Verif.Model.Shipped
import Verif.Model.ShippedMoe
import Verif.Model.Sparsify
import Verif.Model.Sphere
import Verif.Model.Subword
import Verif.Model.SurgeonConfig
import Verif.Model.SurgeonMain
import Verif.Model.Tensor
import Verif.Model.TokenSurgeon
import Verif.Model.Tokenizer
import Verif.Model.Universe
import Verif.Model.Unpickle
import Verif.Model.WholeMerge
import Verif.Model.WholeMulti
import Verif.Model.WholeSphere
import Verif.Model.WholeTask
import Verif.Model.WholeTok
import Verif.Model.Writer
import Verif.Proof.Executor
import Verif.Proof.Graph
import Verif.Proof.MultiEffects
import Verif.Proof.MultiGPU
import Verif.Proof.MultiRun
import Verif.Proof.Names
import Verif.Proof.Plan
import Verif.Proof.SvdExists
import Verif.Proof.Truncate
import Verif.Proof.Universe
import Verif.Proof.Writer
import Verif.Proof.WriterRun
import Verif.Props.Arch
import Verif.Props.ArchFill
import Verif.Props.ArchKnown
import Verif.Props.ArchNames
import Verif.Props.ArchRepeats
import Verif.Props.Archive
import Verif.Props.Barycenter
import Verif.Props.Card
import Verif.Props.CardLora
import Verif.Props.CommandLine
import Verif.Props.Complete
import Verif.Props.Config
import Verif.Props.Convert
import Verif.Props.Decorator
import Verif.Props.DecoratorCall
import Verif.Props.Devices
import Verif.Props.Document
import Verif.Props.DocumentMeaning
import Verif.Props.Embed
import Verif.Props.EvalSettings
import Verif.Props.Evolve
import Verif.Props.EvolveScore
import Verif.Props.Fill
import Verif.Props.Genome
import Verif.Props.GenomeReport
import Verif.Props.Graph
import Verif.Props.Idempotent
import Verif.Props.IdempotentSphere
import Verif.Props.InMemory
import Verif.Props.Infer
import Verif.Props.Landmarks
import Verif.Props.Linear
import Verif.Props.LoadTask
import Verif.Props.Lora
import Verif.Props.LoraFiles
import Verif.Props.LoraPlan
import Verif.Props.LoraResized
import Verif.Props.LoraRuns
import Verif.Props.LoraWhole
import Verif.Props.Magikarp
import Verif.Props.Main
import Verif.Props.MainBakllama
import Verif.Props.MainBased
import Verif.Props.MainEvolve
import Verif.Props.MainLegacy
import Verif.Props.MainLegacySlerp
import Verif.Props.MainLora
import Verif.Props.MainMoe
import Verif.Props.MainMulti
import Verif.Props.MainRaw
import Verif.Props.MainShuffle
import Verif.Props.MainSlerp
import Verif.Props.MainStack
import Verif.Props.MainSurgeon
import Verif.Props.MainTask
import Verif.Props.ModelRef
import Verif.Props.Moe
import Verif.Props.MoeBuild
import Verif.Props.MoeFinishes
import Verif.Props.MoeNames
import Verif.Props.MoePacked
import Verif.Props.MoeRouter
import Verif.Props.MoeShipped
import Verif.Props.MultiGPU
import Verif.Props.MultiMerge
import Verif.Props.MultiTasks
import Verif.Props.NewRows
import Verif.Props.Omp
import Verif.Props.Options
import Verif.Props.Order
import Verif.Props.OrderSphere
import Verif.Props.Output
import Verif.Props.Packed
import Verif.Props.Pca
import Verif.Props.Pipeline
import Verif.Props.Plan
import Verif.Props.Ram
import Verif.Props.RawMerge
import Verif.Props.Recipe
import Verif.Props.Registry
import Verif.Props.RegistrySample
import Verif.Props.Required
import Verif.Props.Resets
import Verif.Props.Resume
import Verif.Props.Rope
import Verif.Props.RopePursuit
import Verif.Props.Rounding
import Verif.Props.Router
import Verif.Props.ScriptYaml
import Verif.Props.Scripts
import Verif.Props.Search
import Verif.Props.Session
import Verif.Props.Shipped
import Verif.Props.ShippedMerge
import Verif.Props.ShippedMoe
import Verif.Props.ShippedSlices
import Verif.Props.ShippedStack
import Verif.Props.ShippedTask
import Verif.Props.Slerp
import Verif.Props.Sparsify
import Verif.Props.Stock
import Verif.Props.Subword
import Verif.Props.SurgeonConfig
import Verif.Props.TaskArith
import Verif.Props.TaskSettings
import Verif.Props.Tensor
import Verif.Props.TokenSurgeon
import Verif.Props.TokenSurgeonRun
import Verif.Props.Universe
import Verif.Props.Unpickle
import Verif.Props.Vocab
import Verif.Props.WholeLinear
import Verif.Props.WholeMerge
import Verif.Props.WholeMethod
import Verif.Props.WholeMulti
import Verif.Props.WholePlan
import Verif.Props.WholeSample
import Verif.Props.WholeSlerp
import Verif.Props.WholeStack
import Verif.Props.WholeTask
import Verif.Props.WholeTok
import Verif.Props.WholeTokMerge
import Verif.Props.WholeTokPlan
import Verif.Props.WholeTokRows
import Verif.Props.WholeTokSample
import Verif.Props.Writer
import Verif.Spec.Graph
import Verif.Spec.MultiGPU
import Verif.Spec.Plan
import Verif.Spec.Universe
