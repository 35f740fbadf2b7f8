import Verif.Model.Py
import Verif.Model.Str
import Verif.Model.Solver
import Verif.Model.PlanModel
import Verif.Model.Sql
import Verif.Model.Metadata
import Verif.Model.Planner
import Verif.Model.Exec
import Verif.Model.TempNames
import Verif.Model.Multiply
import Verif.Model.Filters
import Verif.Model.Output
import Verif.Model.Dest
import Verif.Model.Merge
import Verif.Model.Compact
import Verif.Model.Config
import Verif.Model.Search
import Verif.Model.Connection
import Verif.Model.Snapshots
import Verif.Model.PlanFile
import Verif.Model.Run
import Verif.Model.Main
import Verif.Model.RunDirectory
import Verif.Model.Fnmatch
import Verif.Model.Match
import Verif.Model.Random
import Verif.Model.ConfigFile
import Verif.Model.CreatedNames
import Verif.Model.Command
import Verif.Model.SqlAst
import Verif.Model.Build
import Verif.Model.SqlRun
import Verif.Model.Enforce
import Verif.Model.Sequences
import Verif.Model.Shell
import Verif.Model.Conflicts
import Verif.Spec.Graph
import Verif.Spec.Sql
import Verif.Spec.Plan
import Verif.Spec.Planner
import Verif.Spec.Multiply
import Verif.Spec.Filters
import Verif.Spec.Output
import Verif.Spec.Dest
import Verif.Spec.Merge
import Verif.Spec.Compact
import Verif.Spec.Config
import Verif.Spec.Connection
import Verif.Spec.Snapshots
import Verif.Spec.PlanFile
import Verif.Spec.Run
import Verif.Spec.RunDirectory
import Verif.Spec.Fnmatch
import Verif.Spec.Match
import Verif.Spec.Random
import Verif.Spec.Percent
import Verif.Spec.ConfigFile
import Verif.Spec.Command
import Verif.Spec.RunRefs
import Verif.Spec.Build
import Verif.Spec.SqlRun
import Verif.Spec.Anonymity
import Verif.Spec.RunKeys
import Verif.Spec.RunWorks
import Verif.Spec.Declared
import Verif.Spec.Unique
import Verif.Spec.Enforce
import Verif.Spec.Sequences
import Verif.Spec.Shell
import Verif.Spec.Conflicts
import Verif.Spec.CanPlan
import Verif.Spec.Reproducible
import Verif.Spec.Looser
import Verif.Spec.MergeInto
import Verif.Spec.MergeCommand
import Verif.Spec.MergeCompact
import Verif.Spec.MergeCreate
import Verif.Spec.MergeCreateCommand
import Verif.Spec.Resample
import Verif.Spec.Unrelated
import Verif.Spec.SameOutput
import Verif.Spec.OtherDestination
import Verif.Spec.Repeat
import Verif.Spec.Reorder
import Verif.Proofs.Output
import Verif.Proofs.Insert
import Verif.Proofs.Dest
import Verif.Proofs.DestFlush
import Verif.Proofs.DestHistory
import Verif.Proofs.Create
import Verif.Proofs.DestTop
import Verif.Proofs.Merge
import Verif.Proofs.Compact
import Verif.Proofs.PlanCount
import Verif.Proofs.Config
import Verif.Proofs.Snapshots
import Verif.Proofs.PlanUses
import Verif.Proofs.PlanFile
import Verif.Proofs.PlanFileWrite
import Verif.Proofs.PlanFileFuel
import Verif.Proofs.RunSource
import Verif.Proofs.RunCopy
import Verif.Proofs.RunFacts
import Verif.Proofs.RunWritten
import Verif.Proofs.RunErrors
import Verif.Proofs.RunIntact
import Verif.Proofs.RunSucceeds
import Verif.Proofs.RunStarts
import Verif.Proofs.PlanClosed
import Verif.Proofs.SamePlan
import Verif.Proofs.RunDirectory
import Verif.Proofs.Fnmatch
import Verif.Proofs.Match
import Verif.Proofs.Random
import Verif.Proofs.Percent
import Verif.Proofs.ConfigFile
import Verif.Proofs.RunRefs
import Verif.Proofs.Build
import Verif.Proofs.SqlBuild
import Verif.Proofs.SqlStrip
import Verif.Proofs.SqlTemps
import Verif.Proofs.SqlMaterialize
import Verif.Proofs.SqlLookups
import Verif.Proofs.SqlCopy
import Verif.Proofs.SqlRun
import Verif.Proofs.SqlPlan
import Verif.Proofs.SqlPlanned
import Verif.Proofs.Blank
import Verif.Proofs.BlankExec
import Verif.Proofs.BlankPlan
import Verif.Proofs.BlankRun
import Verif.Proofs.BlankPlanned
import Verif.Proofs.BlankDirectory
import Verif.Proofs.Fresh
import Verif.Proofs.KeyConflict
import Verif.Proofs.RunKeys
import Verif.Proofs.RunFails
import Verif.Proofs.RunConfigured
import Verif.Proofs.RunWorks
import Verif.Proofs.Declared
import Verif.Proofs.Logical
import Verif.Proofs.Unique
import Verif.Proofs.Enforce
import Verif.Proofs.Buffer
import Verif.Proofs.Sequences
import Verif.Proofs.Shell
import Verif.Proofs.Conflicts
import Verif.Proofs.ConflictRows
import Verif.Proofs.CanPlan
import Verif.Proofs.Reproducible
import Verif.Proofs.Looser
import Verif.Proofs.MergeInto
import Verif.Proofs.MergeWorks
import Verif.Proofs.MergeRows
import Verif.Proofs.CreatedSchema
import Verif.Proofs.MergeCreate
import Verif.Proofs.Resample
import Verif.Proofs.ResampleRun
import Verif.Proofs.Unrelated
import Verif.Proofs.SameOutput
import Verif.Proofs.OtherDestination
import Verif.Proofs.Repeat
import Verif.Proofs.Still
import Verif.Proofs.OtherTables
import Verif.Proofs.NoConflict
import Verif.Proofs.Reorder
import Verif.Props.Solver
import Verif.Props.PlanModel
import Verif.Props.Exec
import Verif.Props.Planner
import Verif.Props.TempNames
import Verif.Props.Multiply
import Verif.Props.HalfUnique
import Verif.Props.Filters
import Verif.Props.Output
import Verif.Props.Conflict
import Verif.Props.Dest
import Verif.Props.Sequence
import Verif.Props.Merge
import Verif.Props.Compact
import Verif.Props.Counts
import Verif.Props.CompactPlan
import Verif.Props.Config
import Verif.Props.Search
import Verif.Props.Connection
import Verif.Props.Snapshots
import Verif.Props.PlanFile
import Verif.Props.Run
import Verif.Props.RunErrors
import Verif.Props.RunIntact
import Verif.Props.PlanClosed
import Verif.Props.RunSucceeds
import Verif.Props.Main
import Verif.Props.RunDirectory
import Verif.Props.Fnmatch
import Verif.Props.Match
import Verif.Props.Random
import Verif.Props.Percent
import Verif.Props.ConfigFile
import Verif.Props.CreatedNames
import Verif.Props.RunCreated
import Verif.Props.Command
import Verif.Props.RunRefs
import Verif.Props.SqlRun
import Verif.Props.Anonymity
import Verif.Props.Fresh
import Verif.Props.RunKeys
import Verif.Props.RunWorks
import Verif.Props.Logical
import Verif.Props.Unique
import Verif.Props.Enforce
import Verif.Props.CommandRefs
import Verif.Props.Buffer
import Verif.Props.RunSequences
import Verif.Props.Shell
import Verif.Props.Conflicts
import Verif.Props.RandomMerged
import Verif.Props.CanPlan
import Verif.Props.Reproducible
import Verif.Props.Looser
import Verif.Props.MergeInto
import Verif.Props.MergeCommand
import Verif.Props.MergeCompact
import Verif.Props.MergeCompactCommand
import Verif.Props.MergeCreate
import Verif.Props.MergeCreateCommand
import Verif.Props.Resample
import Verif.Props.Unrelated
import Verif.Props.SameOutput
import Verif.Props.OtherDestination
import Verif.Props.Repeat
import Verif.Props.OtherTables
import Verif.Props.NoConflict
import Verif.Props.Reorder
