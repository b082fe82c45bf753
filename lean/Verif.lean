import Verif.Go.Map
import Verif.Go.Str
import Verif.Model.Api
import Verif.Model.Cli.Args
import Verif.Model.Cli.Built
import Verif.Model.Cli.Collect
import Verif.Model.Cli.Copy
import Verif.Model.Cli.Exec
import Verif.Model.Cli.Funcs
import Verif.Model.Cli.Jobs
import Verif.Model.Cli.Live
import Verif.Model.Cli.Naming
import Verif.Model.Cli.OutDir
import Verif.Model.Cli.Output
import Verif.Model.Cli.PkgPath
import Verif.Model.Cli.Prologue
import Verif.Model.Cli.Registry
import Verif.Model.Cli.Rewrite
import Verif.Model.Cli.StaticGen
import Verif.Model.Cli.StaticJobs
import Verif.Model.Cli.Templates
import Verif.Model.Cost
import Verif.Model.FreeLog
import Verif.Model.Goexit
import Verif.Model.HostRefs
import Verif.Model.Hostile
import Verif.Model.InvokeLog
import Verif.Model.Load
import Verif.Model.Loader
import Verif.Model.LogHist
import Verif.Model.LogRelease
import Verif.Model.Logging
import Verif.Model.Lookup
import Verif.Model.Machine
import Verif.Model.Monad
import Verif.Model.Naming
import Verif.Model.NilHist
import Verif.Model.NilStatic
import Verif.Model.Options
import Verif.Model.PanicNil
import Verif.Model.PluginDir
import Verif.Model.Ptr
import Verif.Model.PtrMachine
import Verif.Model.Reconf
import Verif.Model.Static
import Verif.Model.Swapper
import Verif.Model.Swappers
import Verif.Model.Types
import Verif.Model.Unprintable
import Verif.Model.When
import Verif.Proofs.Base
import Verif.Proofs.Body
import Verif.Proofs.BodyLog
import Verif.Proofs.Calls
import Verif.Proofs.Clash
import Verif.Proofs.ClashPlan
import Verif.Proofs.Core
import Verif.Proofs.Cost
import Verif.Proofs.Current
import Verif.Proofs.Delay
import Verif.Proofs.Drain
import Verif.Proofs.Emits
import Verif.Proofs.Exec
import Verif.Proofs.Fair
import Verif.Proofs.Finish
import Verif.Proofs.FinishLoad
import Verif.Proofs.FreeLog
import Verif.Proofs.FreeOrder
import Verif.Proofs.Goexit
import Verif.Proofs.Graph
import Verif.Proofs.Hang
import Verif.Proofs.Hist
import Verif.Proofs.Hoare
import Verif.Proofs.HookInv
import Verif.Proofs.HookLast
import Verif.Proofs.Hostile
import Verif.Proofs.HostileFair
import Verif.Proofs.HostileOrder
import Verif.Proofs.HostileUse
import Verif.Proofs.Import
import Verif.Proofs.Inv
import Verif.Proofs.InvAct
import Verif.Proofs.InvAll
import Verif.Proofs.InvokeLog
import Verif.Proofs.KeepStage
import Verif.Proofs.KeptFirst
import Verif.Proofs.LiveInv
import Verif.Proofs.LoadCall
import Verif.Proofs.LogBody
import Verif.Proofs.LogCall
import Verif.Proofs.LogErase
import Verif.Proofs.LogFollow
import Verif.Proofs.LogHist
import Verif.Proofs.LogPlan
import Verif.Proofs.LogRelease
import Verif.Proofs.LogTail
import Verif.Proofs.MapLemmas
import Verif.Proofs.Mids
import Verif.Proofs.NilHist
import Verif.Proofs.NilStatic
import Verif.Proofs.OpenLog
import Verif.Proofs.PanicNil
import Verif.Proofs.Plan
import Verif.Proofs.PtrBase
import Verif.Proofs.PtrDeps
import Verif.Proofs.PtrFinish
import Verif.Proofs.PtrLoad
import Verif.Proofs.PtrRun
import Verif.Proofs.Reconf
import Verif.Proofs.Sched
import Verif.Proofs.Shape
import Verif.Proofs.Sim
import Verif.Proofs.SimLoad
import Verif.Proofs.SimMachine
import Verif.Proofs.Stage1
import Verif.Proofs.Steps
import Verif.Proofs.StrLemmas
import Verif.Proofs.Unprintable
import Verif.Proofs.UnprintableRun
import Verif.Proofs.VaultPhase
import Verif.Proofs.Views
import Verif.Proofs.When
import Verif.Proofs.WhenAll
import Verif.Proofs.WhenInv
import Verif.Props.Api
import Verif.Props.Callbacks
import Verif.Props.CliArgs
import Verif.Props.CliBuilt
import Verif.Props.CliCollect
import Verif.Props.CliCopy
import Verif.Props.CliExec
import Verif.Props.CliFuncs
import Verif.Props.CliJobs
import Verif.Props.CliLive
import Verif.Props.CliNaming
import Verif.Props.CliOutDir
import Verif.Props.CliOutput
import Verif.Props.CliPkgPath
import Verif.Props.CliPrologue
import Verif.Props.CliRewrite
import Verif.Props.CliStaticGen
import Verif.Props.CliStaticJobs
import Verif.Props.CliTemplates
import Verif.Props.Complete
import Verif.Props.Cost
import Verif.Props.Demo
import Verif.Props.Determined
import Verif.Props.EndToEnd
import Verif.Props.Errors
import Verif.Props.Fair
import Verif.Props.Files
import Verif.Props.Goexit
import Verif.Props.Grace
import Verif.Props.Hang
import Verif.Props.Hooks
import Verif.Props.HostRefs
import Verif.Props.Hostile
import Verif.Props.Ignored
import Verif.Props.Imports
import Verif.Props.InvokeLog
import Verif.Props.Linked
import Verif.Props.Loader
import Verif.Props.LogHist
import Verif.Props.LogRelease
import Verif.Props.Logging
import Verif.Props.Naming
import Verif.Props.NilHist
import Verif.Props.NilStatic
import Verif.Props.Opens
import Verif.Props.Options
import Verif.Props.Packages
import Verif.Props.PanicNil
import Verif.Props.Phases
import Verif.Props.PluginDir
import Verif.Props.Pointers
import Verif.Props.Provenance
import Verif.Props.Reconf
import Verif.Props.Reentry
import Verif.Props.Registry
import Verif.Props.Schedule
import Verif.Props.Selection
import Verif.Props.StaticClash
import Verif.Props.StaticClashRun
import Verif.Props.StaticLoads
import Verif.Props.Swappers
import Verif.Props.Unprintable
import Verif.Props.VaultExact
import Verif.Props.Vaults
import Verif.Props.When
import Verif.Spec.Acts
import Verif.Spec.Alike
import Verif.Spec.Built
import Verif.Spec.Calls
import Verif.Spec.Clash
import Verif.Spec.Complete
import Verif.Spec.Cost
import Verif.Spec.Determined
import Verif.Spec.ErrTrue
import Verif.Spec.Fair
import Verif.Spec.Files
import Verif.Spec.Goexit
import Verif.Spec.Hang
import Verif.Spec.HostRefs
import Verif.Spec.Hostile
import Verif.Spec.InvokeLog
import Verif.Spec.Jobs
import Verif.Spec.Load
import Verif.Spec.LoadErr
import Verif.Spec.LogHist
import Verif.Spec.Logging
import Verif.Spec.Manager
import Verif.Spec.NilHist
import Verif.Spec.NilStatic
import Verif.Spec.Packages
import Verif.Spec.PanicNil
import Verif.Spec.Reconf
import Verif.Spec.Refs
import Verif.Spec.Required
import Verif.Spec.Static
import Verif.Spec.StaticJobs
import Verif.Spec.Trace
import Verif.Spec.Unprintable
import Verif.Spec.When
