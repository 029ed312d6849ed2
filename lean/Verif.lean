import Verif.Props.Uncertainty
import Verif.Props.Pedigree
import Verif.Props.Stats
import Verif.Props.Utils
import Verif.Props.Allocation
import Verif.Props.Cutoff
import Verif.Props.Params
import Verif.Props.Combined
import Verif.Props.CutoffAllocation
import Verif.Props.ActivityLinks
import Verif.Props.Topology
import Verif.Props.Intersections
import Verif.Props.RestOfWorld
import Verif.Props.MarketAllocation
import Verif.Props.MarketSuppliers
import Verif.Props.MarketGroups
import Verif.Props.IfRewriting
import Verif.Props.PowerRewriting
import Verif.Props.ReservedWords
import Verif.Props.References
import Verif.Props.FixParameters
import Verif.Props.Linking
import Verif.Props.ConsumerLinking
import Verif.Props.ModelRun
import Verif.Props.Consequential
import Verif.Props.Storage
import Verif.Props.Crash
import Verif.Props.Brightway
import Verif.Props.Extract
import Verif.Model.Validation
import Verif.Props.Validation
import Verif.Model.Pipeline
import Verif.Proofs.Pipeline
import Verif.Proofs.PipelineStart
import Verif.Proofs.PipelineRun
import Verif.Props.Pipeline
import Verif.Proofs.PipelineFlows
import Verif.Proofs.PipelineInventory
import Verif.Props.Inventory
import Verif.Model.Files
import Verif.Props.Files
import Verif.Model.Schema
import Verif.Proofs.Schema
import Verif.Proofs.SchemaAgree
import Verif.Props.Schema
import Verif.Props.Fixes
import Verif.Proofs.PipelineBurden
import Verif.Proofs.PipelineAllocated
import Verif.Proofs.PipelineElementary
import Verif.Props.Burden
import Verif.Proofs.Shuffle
import Verif.Proofs.ShuffleSteps
import Verif.Proofs.ShuffleMarkets
import Verif.Proofs.ShuffleLinks
import Verif.Proofs.ShuffleConsumers
import Verif.Props.Reproducible
import Verif.Proofs.PipelineExport
import Verif.Props.Export
import Verif.Proofs.Order
import Verif.Proofs.OrderCodes
import Verif.Proofs.OrderTopology
import Verif.Proofs.OrderLinks
import Verif.Proofs.OrderGroups
import Verif.Proofs.OrderVolumes
import Verif.Proofs.OrderConsumers
import Verif.Proofs.OrderFinish
import Verif.Props.Order
import Verif.Props.SchemaLabels
import Verif.Proofs.OrderConstrained
import Verif.Proofs.OrderLevels
import Verif.Props.OrderConsequential
import Verif.Proofs.ProgressScale
import Verif.Proofs.ProgressLink
import Verif.Proofs.ProgressMarkets
import Verif.Proofs.ProgressGroups
import Verif.Spec.Database
import Verif.Proofs.ProgressConsumers
import Verif.Proofs.ProgressStart
import Verif.Proofs.ProgressInput
import Verif.Proofs.ProgressSplit
import Verif.Proofs.ProgressDecide
import Verif.Props.Progress
import Verif.Proofs.ProgressLevels
import Verif.Proofs.ProgressConsequential
import Verif.Props.ProgressConsequential
import Verif.Proofs.SupplierVolumes
import Verif.Props.MarketCompleteness
import Verif.Proofs.ConstrainedRun
import Verif.Props.ConstrainedRun
import Verif.Proofs.Rounded
import Verif.Props.Rounded
import Verif.Model.RoundedLinking
import Verif.Props.RoundedLinking
import Verif.Props.RoundedShares
import Verif.Props.RoundedOrder
import Verif.Props.RoundedWhole
import Verif.Props.RoundedFactors
import Verif.Model.BrightwayImport
import Verif.Props.BrightwayImport
import Verif.Model.OutputDirs
import Verif.Props.OutputDirs
import Verif.Model.RecalculateAll
import Verif.Props.RecalculateAll
import Verif.Model.ReportRows
import Verif.Props.ReportRows
import Verif.Model.VolumeTable
import Verif.Props.VolumeTable
import Verif.Spec.Units
import Verif.Proofs.UnitsBase
import Verif.Proofs.UnitsSteps
import Verif.Proofs.UnitsAllocation
import Verif.Proofs.UnitsLinking
import Verif.Proofs.UnitsRun
import Verif.Props.Units
import Verif.Model.Cli
import Verif.Spec.Cli
import Verif.Props.Cli
import Verif.Spec.Parts
import Verif.Proofs.PartsBase
import Verif.Proofs.PartsStart
import Verif.Proofs.PartsLinks
import Verif.Proofs.PartsEnd
import Verif.Proofs.PartsGroups
import Verif.Proofs.PartsRun
import Verif.Proofs.PartsConsequential
import Verif.Props.Parts
import Verif.Model.DetailedLog
import Verif.Props.DetailedLog
import Verif.Spec.Renaming
import Verif.Spec.Size
import Verif.Spec.Monotone
import Verif.Spec.Linear
import Verif.Spec.Grouping
import Verif.Proofs.RenamedSteps
import Verif.Proofs.RenamedAllocation
import Verif.Proofs.RenamedLinking
import Verif.Proofs.RenamedRun
import Verif.Props.Renaming
import Verif.Props.Size
import Verif.Props.SizeUncertain
import Verif.Props.SizeCombined
import Verif.Props.Monotone
import Verif.Props.MonotoneAllocation
import Verif.Props.MonotoneConsumers
import Verif.Props.Linear
import Verif.Props.Grouping
