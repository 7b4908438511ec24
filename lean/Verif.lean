import Verif.Model.ParGenerators
import Verif.Lemmas.Shlex
import Verif.Props.Parallel
import Verif.Props.IOInfo
import Verif.Props.Quoting
import Verif.Props.Paths
import Verif.Props.Parse
import Verif.Props.Vars
import Verif.Props.Aggregators
import Verif.Props.Transformers
import Verif.Props.ArgChars
import Verif.Props.Cli
import Verif.Props.Equality
import Verif.Props.Streams
import Verif.Props.VarLaws
import Verif.Props.VarExact
import Verif.Props.RemoveExact
import Verif.Props.IOTable
import Verif.Props.ParTable
import Verif.Props.Plans
import Verif.Props.Batches
import Verif.Props.LineBatches
import Verif.Props.Limits
import Verif.Props.Context
import Verif.Props.Masked
import Verif.Props.UniqueParts
import Verif.Props.GroupParts
import Verif.Spec.Sed
import Verif.Lemmas.Sed
import Verif.Props.Sed
import Verif.Props.SedPositions
import Verif.Props.SedRanges
import Verif.Props.Records
import Verif.Props.Stores
import Verif.Props.Nested
import Verif.Props.Pipelines
import Verif.Props.TextPlans
import Verif.Props.AuxPlans
import Verif.Props.ManPage
import Verif.Props.ManLayout
import Verif.Props.Heap
import Verif.Props.Manual
import Verif.Props.Effects
import Verif.Props.Constructors
import Verif.Props.Text
import Verif.Props.Queries
import Verif.Spec.Dependence
import Verif.Props.Dependence
import Verif.Model.PlanText
import Verif.Spec.PlanText
import Verif.Props.PlanTextBase
import Verif.Props.PlanText
import Verif.Props.ReportText
import Verif.Spec.PyLiteral
import Verif.Props.PyLiteral
import Verif.Model.Setters
import Verif.Spec.Setters
import Verif.Props.Setters
import Verif.Model.Authors
import Verif.Spec.Authors
import Verif.Props.Authors
import Verif.Spec.Lines
import Verif.Lemmas.Lines
import Verif.Props.Lines
import Verif.Props.Unique
import Verif.Model.Threads
import Verif.Spec.Threads
import Verif.Lemmas.Threads
import Verif.Props.Threads
import Verif.Model.CliSteps
import Verif.Spec.CliSteps
import Verif.Lemmas.CliSteps
import Verif.Props.CliSteps
import Verif.Model.ScriptArgs
import Verif.Spec.ScriptArgs
import Verif.Lemmas.ScriptArgs
import Verif.Lemmas.ScriptHelp
import Verif.Props.ScriptArgs
import Verif.Model.Registry
import Verif.Spec.Registry
import Verif.Lemmas.Registry
import Verif.Props.Registry
import Verif.Model.DataFiles
import Verif.Spec.DataFiles
import Verif.Lemmas.DataFiles
import Verif.Props.DataFiles
import Verif.Props.DataTypes
import Verif.Model.DataTexts
import Verif.Model.JsonText
import Verif.Spec.JsonText
import Verif.Lemmas.JsonText
import Verif.Lemmas.JsonSound
import Verif.Lemmas.JsonDecode
import Verif.Props.JsonText
import Verif.Props.JsonLayout
import Verif.Model.JsonBytes
import Verif.Spec.Encodings
import Verif.Lemmas.JsonBytes
import Verif.Props.JsonBytes
import Verif.Model.Files
import Verif.Spec.Files
import Verif.Lemmas.Files
import Verif.Props.Files
import Verif.Spec.NullUniq
import Verif.Props.NullUniq
import Verif.Spec.Col
import Verif.Props.Col
import Verif.Props.AuxExact
import Verif.Props.OwnPlans
import Verif.Spec.AnyFiles
import Verif.Props.AnyFiles
import Verif.Model.Setup
import Verif.Spec.Setup
import Verif.Props.Setup
import Verif.Spec.Edits
import Verif.Props.Edits
import Verif.Spec.Runs
import Verif.Props.Runs
import Verif.Spec.Names
import Verif.Props.Names
import Verif.Model.Old
import Verif.Model.OldData
import Verif.Spec.Old
import Verif.Props.Old
import Verif.Spec.LastLine
import Verif.Props.LastLine
import Verif.Spec.Status
import Verif.Props.Status
import Verif.Check.RepoTests
import Verif.Model.Show
import Verif.Spec.Show
import Verif.Props.Show
import Verif.Spec.OldStreams
import Verif.Props.OldStreams
import Verif.Spec.ManyInputs
import Verif.Props.ManyInputs
import Verif.Spec.Schedules
import Verif.Lemmas.Schedules
import Verif.Props.Schedules
import Verif.Spec.Buffers
import Verif.Lemmas.Buffers
import Verif.Props.Buffers
import Verif.Spec.AuxSchedules
import Verif.Lemmas.AuxSchedules
import Verif.Props.AuxSchedules
import Verif.Spec.Crashes
import Verif.Spec.AuxCrashes
import Verif.Lemmas.Crashes
import Verif.Lemmas.AuxCrashes
import Verif.Props.Crashes
import Verif.Props.AuxCrashes
import Verif.Spec.OldClasses
import Verif.Props.OldClasses
import Verif.Spec.PartialFiles
import Verif.Lemmas.PartialFiles
import Verif.Props.PartialFiles
import Verif.Model.Updates
import Verif.Spec.Updates
import Verif.Props.Updates
import Verif.Model.Reductions
import Verif.Spec.Reductions
import Verif.Props.Reductions
import Verif.Spec.AuxBuffers
import Verif.Lemmas.AuxBuffers
import Verif.Props.AuxBuffers
import Verif.Lemmas.AuxTurns
import Verif.Props.AuxTurns
import Verif.Props.AuxScripts
