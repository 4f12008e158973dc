import Verif.Lemmas.Abort
import Verif.Lemmas.Accepted
import Verif.Lemmas.Alive
import Verif.Lemmas.Announce
import Verif.Lemmas.Asked
import Verif.Lemmas.Builds
import Verif.Lemmas.Client
import Verif.Lemmas.ClientCuts
import Verif.Lemmas.Codec
import Verif.Lemmas.Consume
import Verif.Lemmas.Cuts
import Verif.Lemmas.Delivery
import Verif.Lemmas.Exact
import Verif.Lemmas.ExactPackets
import Verif.Lemmas.Fits
import Verif.Lemmas.Flow
import Verif.Lemmas.Frames
import Verif.Lemmas.Gone
import Verif.Lemmas.Kept
import Verif.Lemmas.Large
import Verif.Lemmas.Listen
import Verif.Lemmas.Locks
import Verif.Lemmas.Net
import Verif.Lemmas.NoPanic
import Verif.Lemmas.Order
import Verif.Lemmas.Passwords
import Verif.Lemmas.Payloads
import Verif.Lemmas.Persist
import Verif.Lemmas.Plain
import Verif.Lemmas.PropBlocks
import Verif.Lemmas.Records
import Verif.Lemmas.Relevel
import Verif.Lemmas.Renaming
import Verif.Lemmas.Rest
import Verif.Lemmas.RoundTrip
import Verif.Lemmas.Server
import Verif.Lemmas.ServerLog
import Verif.Lemmas.ServerRun
import Verif.Lemmas.Settle
import Verif.Lemmas.SettleAll
import Verif.Lemmas.Solo
import Verif.Lemmas.Storage
import Verif.Lemmas.Stream
import Verif.Lemmas.SysClient
import Verif.Lemmas.System
import Verif.Lemmas.Tame
import Verif.Lemmas.Tasks
import Verif.Lemmas.Timed
import Verif.Lemmas.TimedSystem
import Verif.Lemmas.Topic
import Verif.Lemmas.Track
import Verif.Lemmas.Utf8
import Verif.Lemmas.Vbi
import Verif.Lemmas.WillSystem
import Verif.Lemmas.Wire
import Verif.Model.Auth
import Verif.Model.Basic
import Verif.Model.Calls
import Verif.Model.Cli
import Verif.Model.Client
import Verif.Model.ClientOptions
import Verif.Model.ClientQueue
import Verif.Model.Codec
import Verif.Model.Connection
import Verif.Model.Crash
import Verif.Model.Daemon
import Verif.Model.Dial
import Verif.Model.KeepAlive
import Verif.Model.Lives
import Verif.Model.Locks
import Verif.Model.Log
import Verif.Model.Net
import Verif.Model.Packets
import Verif.Model.PasswordFile
import Verif.Model.Properties
import Verif.Model.Race
import Verif.Model.Server
import Verif.Model.Session
import Verif.Model.Shutdown
import Verif.Model.Sizes
import Verif.Model.Storage
import Verif.Model.System
import Verif.Model.Tasks
import Verif.Model.Texts
import Verif.Model.Timed
import Verif.Model.TimedSystem
import Verif.Model.Tls
import Verif.Model.Topic
import Verif.Model.Walk
import Verif.Props.Abort
import Verif.Props.Accepted
import Verif.Props.Acks
import Verif.Props.Admission
import Verif.Props.AfterPing
import Verif.Props.Alive
import Verif.Props.Alone
import Verif.Props.Answers
import Verif.Props.Asked
import Verif.Props.Assigned
import Verif.Props.Auth
import Verif.Props.AwayBurst
import Verif.Props.Batch
import Verif.Props.Broker
import Verif.Props.Calls
import Verif.Props.Cli
import Verif.Props.CliSystem
import Verif.Props.Client
import Verif.Props.Client5
import Verif.Props.ClientApi
import Verif.Props.ClientQueue
import Verif.Props.Codec
import Verif.Props.Crash
import Verif.Props.Cuts
import Verif.Props.Daemon
import Verif.Props.Delivery
import Verif.Props.Dial
import Verif.Props.Dollar
import Verif.Props.Forward
import Verif.Props.Gone
import Verif.Props.Grammar
import Verif.Props.Greeting
import Verif.Props.Hostile
import Verif.Props.Ids
import Verif.Props.Ignored
import Verif.Props.Inflight
import Verif.Props.KeepAlive
import Verif.Props.Kept
import Verif.Props.Late
import Verif.Props.Listen
import Verif.Props.ListenNet
import Verif.Props.Lives
import Verif.Props.Locks
import Verif.Props.Log
import Verif.Props.LogTold
import Verif.Props.Mailbox
import Verif.Props.MailboxKept
import Verif.Props.Net
import Verif.Props.Options
import Verif.Props.Order
import Verif.Props.Output
import Verif.Props.Packets
import Verif.Props.PasswordFile
import Verif.Props.PasswordMeaning
import Verif.Props.Payloads
import Verif.Props.Persist
import Verif.Props.Plain
import Verif.Props.PlainNet
import Verif.Props.Reauth
import Verif.Props.Relevel
import Verif.Props.Renaming
import Verif.Props.Repeat
import Verif.Props.Resources
import Verif.Props.Rest
import Verif.Props.Sender
import Verif.Props.Server
import Verif.Props.Session
import Verif.Props.Settle
import Verif.Props.SettleAll
import Verif.Props.Shutdown
import Verif.Props.Sizes
import Verif.Props.Storage
import Verif.Props.Stream
import Verif.Props.System
import Verif.Props.Takeover
import Verif.Props.Tasks
import Verif.Props.TasksDelivery
import Verif.Props.Texts
import Verif.Props.Timed
import Verif.Props.TimedPings
import Verif.Props.TimedSystem
import Verif.Props.TimedWill
import Verif.Props.Topic
import Verif.Props.V3
import Verif.Props.V5
import Verif.Props.Walk
import Verif.Props.WhyEnded
import Verif.Props.Will
import Verif.Props.WillSystem
import Verif.Props.Wires5
import Verif.Props.Writing
import Verif.Props.ZeroWill
import Verif.Spec.Abort
import Verif.Spec.Accepted
import Verif.Spec.Admission
import Verif.Spec.Alone
import Verif.Spec.Calls
import Verif.Spec.Client
import Verif.Spec.Client5
import Verif.Spec.ClientQueue
import Verif.Spec.Cuts
import Verif.Spec.Daemon
import Verif.Spec.Delivery
import Verif.Spec.Dial
import Verif.Spec.Grammar
import Verif.Spec.Ignored
import Verif.Spec.KeepAlive
import Verif.Spec.Kept
import Verif.Spec.Listen
import Verif.Spec.Locks
import Verif.Spec.Log
import Verif.Spec.Net
import Verif.Spec.Order
import Verif.Spec.Output
import Verif.Spec.Packets
import Verif.Spec.PasswordFile
import Verif.Spec.Payloads
import Verif.Spec.Plain
import Verif.Spec.Relevel
import Verif.Spec.Renaming
import Verif.Spec.Rest
import Verif.Spec.Sender
import Verif.Spec.Server
import Verif.Spec.Settle
import Verif.Spec.Storage
import Verif.Spec.Stream
import Verif.Spec.System
import Verif.Spec.Tasks
import Verif.Spec.Timed
import Verif.Spec.TimedSystem
import Verif.Spec.Topic
import Verif.Spec.Utf8
import Verif.Spec.V3
import Verif.Spec.V5
import Verif.Spec.Walk
import Verif.Spec.Wire
