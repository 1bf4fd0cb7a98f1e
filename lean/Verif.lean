import Verif.Props.Boot
import Verif.Props.BootActivate
import Verif.Props.BootCrash
import Verif.Props.BootMark
import Verif.Props.Status
import Verif.Props.Mark
import Verif.Props.Handlers
import Verif.Props.Update
import Verif.Props.Select
import Verif.Props.Plans
import Verif.Props.Semver
import Verif.Props.Install
import Verif.Props.InstallCrash
import Verif.Props.InstallChecks
import Verif.Props.Config
import Verif.Props.Shell
import Verif.Props.HashIndex
import Verif.Props.Verity
import Verif.Props.Manifest
import Verif.Props.ManifestRound
import Verif.Props.ManifestRound2
import Verif.Props.BundleFormat
import Verif.Props.Bundle
import Verif.Props.Access
import Verif.Props.Artifacts
import Verif.Props.ArtifactsSession
import Verif.Props.ArtifactService
import Verif.Props.Feed
import Verif.Props.ArtifactData
import Verif.Props.ExtMounts
import Verif.Props.RmTree
import Verif.Props.Argv
import Verif.Props.ServiceLife
import Verif.Props.InfoText
import Verif.Props.StatusText
import Verif.Props.EndToEnd
import Verif.Props.EndToEndEx
import Verif.Props.Display
import Verif.Props.WholeUpdate
import Verif.Props.WholeUpdateEx
import Verif.Props.Authentic
import Verif.Props.AuthenticEx
import Verif.Props.Trust
import Verif.Props.Daemon
import Verif.Props.DaemonHist
import Verif.Props.EventLog
import Verif.Model.Copy
import Verif.Props.Copy
import Verif.Model.BootSwitch
import Verif.Props.BootSwitch
import Verif.Props.BootQuery
import Verif.Props.BootName
import Verif.Props.BootCustom
import Verif.Props.RawFallback
import Verif.Model.Emmc
import Verif.Props.Emmc
import Verif.Model.Nbd
import Verif.Props.Nbd
import Verif.Model.Progress
import Verif.Props.Progress
import Verif.Props.ProgressFloat
import Verif.Model.Crypt
import Verif.Props.Crypt
import Verif.Props.ManifestTypes
import Verif.Props.ArtifactsMore
import Verif.Props.Composefs
import Verif.Props.ComposefsStore
import Verif.Props.ComposefsSession
import Verif.Model.ConfigFile
import Verif.Props.ConfigFile
import Verif.Props.ConfigLoad
import Verif.Props.ConfigNumbers
import Verif.Model.HandlerEnv
import Verif.Props.HandlerEnv
import Verif.Model.Create
import Verif.Props.Workdir
import Verif.Props.CreateLib
import Verif.Props.Create
import Verif.Props.CreateEx
import Verif.Model.Resign
import Verif.Props.Resign
import Verif.Props.ResignEx
import Verif.Model.Casync
import Verif.Props.Casync
import Verif.Props.CasyncEx
import Verif.Props.ManifestText
import Verif.Props.CreateText
import Verif.Props.CreateTextEx
import Verif.Model.BootText
import Verif.Props.BootSim
import Verif.Props.BootText
import Verif.Props.BootTextBb
import Verif.Props.BootTextEfi
import Verif.Props.BootTextMain
import Verif.Model.DataDir
import Verif.Props.DataDir
import Verif.Model.Devices
import Verif.Props.Devices
import Verif.Model.System
import Verif.Lemmas.System
import Verif.Props.BootKeep
import Verif.Props.System
import Verif.Model.StatusView
import Verif.Props.StatusView
import Verif.Props.StatusShell
import Verif.Props.InfoShell
import Verif.Model.Client
import Verif.Props.Client
import Verif.Model.Stream
import Verif.Props.Stream
import Verif.Props.StreamReply
import Verif.Model.Sandbox
import Verif.Props.Sandbox
import Verif.Model.Download
import Verif.Props.Download
import Verif.Model.CasyncCmd
import Verif.Props.CasyncCmd
import Verif.Model.Context
import Verif.Model.ServiceStart
import Verif.Props.Context
import Verif.Props.ServiceStart
import Verif.Model.Cli
import Verif.Props.Cli
import Verif.Model.Json
import Verif.Props.Json
import Verif.Model.JsonView
import Verif.Props.JsonView
import Verif.Model.EventRoute
import Verif.Props.EventRoute
import Verif.Props.InstallThread
import Verif.Props.PollStatus
import Verif.Props.ServiceCalls
import Verif.Props.StreamSession
import Verif.Props.SlotMount
import Verif.Props.LifeLong
import Verif.Props.LifeLongEx
import Verif.Model.Keys
import Verif.Props.Keys
import Verif.Props.KeysEx
import Verif.Props.Rollout
import Verif.Props.Succeeds
import Verif.Props.Redundant
import Verif.Props.EmmcClear
import Verif.Model.Result
import Verif.Props.Result
import Verif.Props.Always
import Verif.Props.Fallback
import Verif.Props.FallbackBytes
import Verif.Props.FallbackBytesEx
import Verif.Props.BootScript
import Verif.Props.BootScriptReset
import Verif.Props.BootScriptAny
import Verif.Props.BootConfirm
import Verif.Props.BootReturn
