import Verif.Model.Prim
import Verif.Model.SMap
import Verif.Model.Spatial
import Verif.Model.Checked
import Verif.Spec.Geometry
import Verif.Proof.Spatial
import Verif.Proof.Checked
import Verif.Props.Spatial
import Verif.Model.Codec
import Verif.Model.ByteIO
import Verif.Model.MapBlock
import Verif.Spec.Format
import Verif.Spec.BlockData
import Verif.Spec.Inventory
import Verif.Spec.Toy
import Verif.Proof.SMap
import Verif.Proof.ByteIO
import Verif.Proof.Sections
import Verif.Proof.Block
import Verif.Proof.BlockMore
import Verif.Props.Block
import Verif.Model.BlockUtils
import Verif.Spec.Nodes
import Verif.Proof.BlockUtils
import Verif.Proof.Local
import Verif.Props.BlockUtils
import Verif.Model.World
import Verif.Model.Utils
import Verif.Model.Args
import Verif.Model.Commands
import Verif.Model.Copy
import Verif.Model.Instance
import Verif.Model.CmdLine
import Verif.Proof.World
import Verif.Spec.Map
import Verif.Proof.Query
import Verif.Proof.Inv
import Verif.Props.Query
import Verif.Props.Helpers
import Verif.Props.Items
import Verif.Proof.Frame
import Verif.Proof.Instance
import Verif.Spec.Runs
import Verif.Proof.Runs
import Verif.Props.Runs
import Verif.Proof.Loop
import Verif.Proof.EditRun
import Verif.Proof.Effect
import Verif.Proof.NodeSel
import Verif.Proof.Fill
import Verif.Proof.CleanAny
import Verif.Proof.MergeAny
import Verif.Proof.Change
import Verif.Proof.ToyMap
import Verif.Props.Fill
import Verif.Proof.DeleteBlocks
import Verif.Props.DeleteBlocks
import Verif.Proof.NodeNames
import Verif.Proof.Param2
import Verif.Props.OverlayTwice
import Verif.Props.Undo
import Verif.Spec.Told
import Verif.Proof.Told
import Verif.Props.Told
import Verif.Spec.Session
import Verif.Proof.Session
import Verif.Props.Session
import Verif.Spec.Exec
import Verif.Proof.Exec
import Verif.Props.Exec
import Verif.Proof.Undo
import Verif.Spec.Undo
import Verif.Props.Param2
import Verif.Proof.Metas
import Verif.Props.DeleteMeta
import Verif.Spec.Objects
import Verif.Proof.Objects
import Verif.Props.DeleteObjects
import Verif.Spec.Metas
import Verif.Proof.EditMetas
import Verif.Props.SetMetaVar
import Verif.Props.ReplaceInInv
import Verif.Proof.Replace
import Verif.Proof.ReplaceAny
import Verif.Proof.ToyRun
import Verif.Props.ReplaceNodes
import Verif.Proof.Twice
import Verif.Props.Tidy
import Verif.Props.Twice
import Verif.Props.TwoIds
import Verif.Props.Again
import Verif.Props.AgainFalse
import Verif.Proof.AllCommands
import Verif.Spec.Copy
import Verif.Proof.CopyBlock
import Verif.Proof.CopyRun
import Verif.Proof.CopyAny
import Verif.Proof.Clone
import Verif.Proof.Copied
import Verif.Proof.OverlayOffset
import Verif.Proof.OverlayPlain
import Verif.Props.Clone
import Verif.Props.Overlay
import Verif.Spec.Skips
import Verif.Proof.Skips
import Verif.Props.Skips
import Verif.Model.Threads
import Verif.Model.Main
import Verif.Spec.Threads
import Verif.Proof.Threads
import Verif.Proof.Protocol
import Verif.Props.Threads
import Verif.Spec.Progress
import Verif.Proof.Progress
import Verif.Props.Progress
import Verif.Model.F32
import Verif.Model.Screen
import Verif.Spec.Screen
import Verif.Spec.Report
import Verif.Proof.F32
import Verif.Proof.BigNum
import Verif.Proof.EditingText
import Verif.Proof.Term
import Verif.Proof.Ui
import Verif.Props.Numbers
import Verif.Props.ProgressLine
import Verif.Props.Screen
import Verif.Proof.Report
import Verif.Props.Report
import Verif.Props.Refusals
import Verif.Proof.Calm
import Verif.Props.Oracle
import Verif.Props.Rollback
import Verif.Props.Reads
import Verif.Spec.CmdLine
import Verif.Spec.Stacks
import Verif.Proof.Stacks
import Verif.Spec.Every
import Verif.Proof.Every
import Verif.Props.Every
import Verif.Spec.Rest
import Verif.Spec.Program
import Verif.Proof.Rest
import Verif.Proof.Program
import Verif.Props.Rest
import Verif.Props.Program
import Verif.Props.CmdLine
import Verif.Props.Whole
import Verif.Spec.Total
import Verif.Proof.Total
import Verif.Proof.Place
import Verif.Props.Total
import Verif.Proof.TidyKeep
import Verif.Props.Forever
import Verif.Model.Machine
import Verif.Proof.Machine
import Verif.Proof.Counters
import Verif.Proof.MachineSteps
import Verif.Proof.MachineRun
import Verif.Proof.Totals
import Verif.Spec.Counters
import Verif.Props.Counters
import Verif.Spec.Cost
import Verif.Proof.Cost
import Verif.Props.Cost
import Verif.Props.Machine
import Verif.Model.MachineMain
import Verif.Proof.MachineMain
import Verif.Props.MachineMain
import Verif.Props.Idle
import Verif.Model.Memory
import Verif.Spec.Memory
import Verif.Proof.Memory
import Verif.Props.Memory
import Verif.Spec.Crash
import Verif.Proof.Crash
import Verif.Proof.CrashMeta
import Verif.Proof.CrashNodes
import Verif.Props.Crash
import Verif.Spec.CrashCopy
import Verif.Proof.JoinExact
import Verif.Proof.DrawnExact
import Verif.Proof.CopyGoes
import Verif.Proof.CrashCopy
import Verif.Props.CrashCopy
import Verif.Props.CrashElse
import Verif.Spec.Builds
import Verif.Proof.Builds
import Verif.Proof.BuildRun
import Verif.Proof.BuildExact
import Verif.Proof.BuildMachine
import Verif.Proof.BuildThreads
import Verif.Props.Builds
import Verif.Spec.Pieces
import Verif.Proof.Pieces
import Verif.Proof.PiecesCopy
import Verif.Props.Pieces
import Verif.Model.Library
import Verif.Spec.Library
import Verif.Proof.Library
import Verif.Proof.LibraryRun
import Verif.Proof.LibraryStuck
import Verif.Props.Library
import Verif.Proof.Unread
import Verif.Props.Adaptive
import Verif.Model.Shared
import Verif.Spec.Shared
import Verif.Proof.Shared
import Verif.Proof.Acts
import Verif.Proof.Lines
import Verif.Props.Shared
import Verif.Spec.Order
import Verif.Props.Order
import Verif.Model.Locks
import Verif.Spec.Locks
import Verif.Proof.Phases
import Verif.Proof.First
import Verif.Proof.Locks
import Verif.Props.Locks
import Verif.Model.Together
import Verif.Spec.Together
import Verif.Proof.Together
import Verif.Props.Together
import Verif.Proof.TogetherNext
import Verif.Props.TogetherNext
import Verif.Spec.Stray
import Verif.Proof.Stray
import Verif.Props.Stray
import Verif.Props.StrayEdits
import Verif.Props.StrayCorner
import Verif.Tests.Repo
import Verif.Tests.Blocks
