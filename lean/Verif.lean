import Verif.Model.Additive
import Verif.Model.Address
import Verif.Model.Backend
import Verif.Model.Base
import Verif.Model.Chain
import Verif.Model.Client
import Verif.Model.Config
import Verif.Model.Connect
import Verif.Model.Containers
import Verif.Model.Crash
import Verif.Model.Exchange
import Verif.Model.GenConfig
import Verif.Model.GenText
import Verif.Model.Generator
import Verif.Model.Grid
import Verif.Model.Incremental
import Verif.Model.Joint
import Verif.Model.Loops
import Verif.Model.Main
import Verif.Model.Memory
import Verif.Model.Ndebug
import Verif.Model.Noise
import Verif.Model.Onion
import Verif.Model.ParallelParty
import Verif.Model.ParallelShuffle
import Verif.Model.Party
import Verif.Model.Polling
import Verif.Model.Process
import Verif.Model.Protocol
import Verif.Model.ReadAhead
import Verif.Model.Shuffle
import Verif.Model.Sockets
import Verif.Model.Start
import Verif.Model.State
import Verif.Model.Types
import Verif.Spec.Address
import Verif.Spec.Broadcast
import Verif.Spec.Causal
import Verif.Spec.Chain
import Verif.Spec.Coalition
import Verif.Spec.Connect
import Verif.Spec.Containers
import Verif.Spec.Feeding
import Verif.Spec.Foreign
import Verif.Spec.ForeignLoops
import Verif.Spec.GenText
import Verif.Spec.Generator
import Verif.Spec.Grid
import Verif.Spec.Group
import Verif.Spec.Hearing
import Verif.Spec.Hiding
import Verif.Spec.Hostile
import Verif.Spec.InClear
import Verif.Spec.Install
import Verif.Spec.Joint
import Verif.Spec.Loops
import Verif.Spec.Noise
import Verif.Spec.NoiseRounded
import Verif.Spec.OfflineAlone
import Verif.Spec.Onion
import Verif.Spec.Online
import Verif.Spec.Openable
import Verif.Spec.Origins
import Verif.Spec.ParallelShuffle
import Verif.Spec.Preparation
import Verif.Spec.PrivateRun
import Verif.Spec.Process
import Verif.Spec.ReadAhead
import Verif.Spec.Rounding
import Verif.Spec.Sharing
import Verif.Spec.Siblings
import Verif.Spec.Sockets
import Verif.Spec.Start
import Verif.Spec.StartCausal
import Verif.Spec.StartConserved
import Verif.Spec.StartCounts
import Verif.Spec.StartHiding
import Verif.Spec.StartInstall
import Verif.Spec.StartOnce
import Verif.Spec.StartPrivate
import Verif.Spec.State
import Verif.Spec.Stranger
import Verif.Spec.TagOrder
import Verif.Spec.Traffic
import Verif.Spec.TrafficGrid
import Verif.Proofs.Additive
import Verif.Proofs.Address
import Verif.Proofs.Backend
import Verif.Proofs.Barrier
import Verif.Proofs.BarrierChain
import Verif.Proofs.Base
import Verif.Proofs.Batch
import Verif.Proofs.Below
import Verif.Proofs.Broadcast
import Verif.Proofs.BroadcastRun
import Verif.Proofs.Causal
import Verif.Proofs.Chain
import Verif.Proofs.ChainFacts
import Verif.Proofs.ChainRun
import Verif.Proofs.Client
import Verif.Proofs.Coalition
import Verif.Proofs.Config
import Verif.Proofs.ConnectClash
import Verif.Proofs.ConnectInv
import Verif.Proofs.ConnectNet
import Verif.Proofs.ConnectRun
import Verif.Proofs.ConnectSetup
import Verif.Proofs.ConnectStage
import Verif.Proofs.ConnectStep
import Verif.Proofs.Containers
import Verif.Proofs.Crash
import Verif.Proofs.Deadlock
import Verif.Proofs.DeadlockRun
import Verif.Proofs.Deshuffle
import Verif.Proofs.DeshuffleRun
import Verif.Proofs.Exchange
import Verif.Proofs.Falls
import Verif.Proofs.Feeding
import Verif.Proofs.Foreign
import Verif.Proofs.ForeignLoops
import Verif.Proofs.ForeignNet
import Verif.Proofs.ForeignRun
import Verif.Proofs.GenConfig
import Verif.Proofs.GenText
import Verif.Proofs.Generator
import Verif.Proofs.Grid
import Verif.Proofs.GridFacts
import Verif.Proofs.GridInstall
import Verif.Proofs.GridOrder
import Verif.Proofs.GridRun
import Verif.Proofs.GridStops
import Verif.Proofs.GridTags
import Verif.Proofs.GridWaves
import Verif.Proofs.Group
import Verif.Proofs.Heeds
import Verif.Proofs.Hiding
import Verif.Proofs.HidingGrid
import Verif.Proofs.Hostile
import Verif.Proofs.HostileBackends
import Verif.Proofs.HostileClient
import Verif.Proofs.HostileEnds
import Verif.Proofs.HostileParties
import Verif.Proofs.HostileParty
import Verif.Proofs.HostileRounds
import Verif.Proofs.HostileSiblings
import Verif.Proofs.HostileStages
import Verif.Proofs.HostileStart
import Verif.Proofs.InClear
import Verif.Proofs.Incremental
import Verif.Proofs.Install
import Verif.Proofs.InstallFacts
import Verif.Proofs.InstallGrid
import Verif.Proofs.Joint
import Verif.Proofs.JointLinks
import Verif.Proofs.JointPlan
import Verif.Proofs.Loops
import Verif.Proofs.LoopsHear
import Verif.Proofs.LoopsNet
import Verif.Proofs.LoopsReceive
import Verif.Proofs.LoopsRun
import Verif.Proofs.MayDo
import Verif.Proofs.Memory
import Verif.Proofs.Ndebug
import Verif.Proofs.Noise
import Verif.Proofs.NoiseClose
import Verif.Proofs.NoiseDP
import Verif.Proofs.NoiseLaw
import Verif.Proofs.NoiseLawDP
import Verif.Proofs.NoiseRounded
import Verif.Proofs.NoiseRoundedDP
import Verif.Proofs.NoiseRoundedLaw
import Verif.Proofs.NoiseTruncate
import Verif.Proofs.OfflineAlone
import Verif.Proofs.OfflineMay
import Verif.Proofs.Onion
import Verif.Proofs.OnlineNet
import Verif.Proofs.Openable
import Verif.Proofs.Origins
import Verif.Proofs.Overflow
import Verif.Proofs.OverflowAny
import Verif.Proofs.OverflowGrid
import Verif.Proofs.PSafety
import Verif.Proofs.ParallelOffline
import Verif.Proofs.ParallelOnline
import Verif.Proofs.ParallelQueries
import Verif.Proofs.ParallelShuffle
import Verif.Proofs.ParallelShuffleRun
import Verif.Proofs.ParallelStages
import Verif.Proofs.Party
import Verif.Proofs.PartyOnline
import Verif.Proofs.PartyRun
import Verif.Proofs.Plan
import Verif.Proofs.Polling
import Verif.Proofs.PrivateRun
import Verif.Proofs.Process
import Verif.Proofs.Protocol
import Verif.Proofs.ReadAhead
import Verif.Proofs.ReadAheadRun
import Verif.Proofs.Rounds
import Verif.Proofs.Route
import Verif.Proofs.Safety
import Verif.Proofs.Sharing
import Verif.Proofs.Shuffle
import Verif.Proofs.ShuffleRound
import Verif.Proofs.Siblings
import Verif.Proofs.Sockets
import Verif.Proofs.Start
import Verif.Proofs.StartCausal
import Verif.Proofs.StartCoalition
import Verif.Proofs.StartConserved
import Verif.Proofs.StartCounts
import Verif.Proofs.StartHiding
import Verif.Proofs.StartOnce
import Verif.Proofs.StartPrivate
import Verif.Proofs.State
import Verif.Proofs.Stranger
import Verif.Proofs.TagOrder
import Verif.Proofs.Ticket
import Verif.Proofs.Traffic
import Verif.Proofs.TrafficGrid
import Verif.Proofs.Types
import Verif.Proofs.Union
import Verif.Props.Address
import Verif.Props.Barrier
import Verif.Props.Broadcast
import Verif.Props.Causal
import Verif.Props.Chain
import Verif.Props.Coalition
import Verif.Props.Collide
import Verif.Props.Config
import Verif.Props.Connect
import Verif.Props.Containers
import Verif.Props.Counters
import Verif.Props.CountersGrid
import Verif.Props.CountersOffline
import Verif.Props.Crash
import Verif.Props.Deadlock
import Verif.Props.Foreign
import Verif.Props.ForeignLoops
import Verif.Props.GenText
import Verif.Props.Generator
import Verif.Props.Grid
import Verif.Props.GridInstall
import Verif.Props.GridOrder
import Verif.Props.Group
import Verif.Props.Hostile
import Verif.Props.HostileGrid
import Verif.Props.HostileGridBad
import Verif.Props.Ieee
import Verif.Props.InClear
import Verif.Props.Install
import Verif.Props.InstallGrid
import Verif.Props.Joint
import Verif.Props.KeyHiding
import Verif.Props.Loops
import Verif.Props.Masking
import Verif.Props.Ndebug
import Verif.Props.Noise
import Verif.Props.OfflineAlone
import Verif.Props.Once
import Verif.Props.Onion
import Verif.Props.Online
import Verif.Props.Openable
import Verif.Props.Origins
import Verif.Props.ParallelShuffle
import Verif.Props.Preparation
import Verif.Props.Privacy
import Verif.Props.PrivacyRounded
import Verif.Props.PrivateRun
import Verif.Props.ReadAhead
import Verif.Props.Sharing
import Verif.Props.Shuffle
import Verif.Props.Siblings
import Verif.Props.Sockets
import Verif.Props.Start
import Verif.Props.StartCausal
import Verif.Props.StartClient
import Verif.Props.StartClientView
import Verif.Props.StartCoalition
import Verif.Props.StartConserved
import Verif.Props.StartCounts
import Verif.Props.StartCrash
import Verif.Props.StartForeign
import Verif.Props.StartHiding
import Verif.Props.StartInstall
import Verif.Props.StartLookups
import Verif.Props.StartOnce
import Verif.Props.StartPrivate
import Verif.Props.StartText
import Verif.Props.State
import Verif.Props.Stranger
import Verif.Props.TagOrder
import Verif.Props.Traffic
import Verif.Props.TrafficGrid
