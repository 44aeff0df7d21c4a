import Verif.Model.Cluster
import Verif.Props.Basics
import Verif.Props.Election
import Verif.Props.Api
import Verif.Props.Server
import Verif.Props.Compaction
import Verif.Props.Propose
import Verif.Props.Agreement
import Verif.Props.Witness
import Verif.Props.Network
import Verif.Props.Storage
import Verif.Props.UniCache
import Verif.Props.UniWire
import Verif.Props.UniPolicy
import Verif.Proof.MacroRun
import Verif.Props.Macro
import Verif.Props.Errors
import Verif.Props.Trim
import Verif.Props.Decided
import Verif.Props.Panic
import Verif.Props.Progress
import Verif.Props.CatchUp
import Verif.Props.Reconnect
import Verif.Props.Convergence
import Verif.Props.Links
import Verif.Props.SyncSnapshot
import Verif.Props.SnapshotRun
import Verif.Props.StorageRun
import Verif.Props.Resend
import Verif.Props.Follow
import Verif.Props.KV
import Verif.Props.UI
import Verif.Props.Service
import Verif.Props.Routing
import Verif.Props.Takeover
import Verif.Props.Matching
import Verif.Props.Once
import Verif.Props.RealTime
import Verif.Props.Counters
import Verif.Props.Reconfigure
import Verif.Props.Example
import Verif.Props.Steady
import Verif.Props.Starve
import Verif.Props.Load
import Verif.Props.Held
import Verif.Props.Recover
import Verif.Props.Beats
import Verif.Props.Tempo
import Verif.Props.Boot
import Verif.Props.Silent
import Verif.Props.Order
import Verif.Spec.Oust
import Verif.Proof.Oust.Local
import Verif.Proof.Oust.Since
import Verif.Proof.Oust.Step
import Verif.Proof.Oust.Inv
import Verif.Proof.Oust.Run
import Verif.Proof.Oust.Start
import Verif.Proof.Oust.Still
import Verif.Proof.Oust.Calls
import Verif.Proof.Oust.Herald
import Verif.Proof.Oust.Promised
import Verif.Proof.Oust.Firm
import Verif.Proof.Oust.Admit
import Verif.Proof.Oust.Ahead
import Verif.Proof.Oust.Bid
import Verif.Proof.Oust.Prepared
import Verif.Proof.Oust.Road
import Verif.Proof.Oust.Synced
import Verif.Props.Oust
