import Verif.Model.Protocol
import Verif.Model.Hid
import Verif.Model.Cdc
import Verif.Model.Util
import Verif.Model.Host
import Verif.Model.Server
import Verif.Model.Examples
import Verif.Props.Locks
import Verif.Props.Memory
import Verif.Props.Codec
import Verif.Props.Descriptors
import Verif.Props.Device
import Verif.Props.Requests
import Verif.Props.Results
import Verif.Props.Server
import Verif.Props.Conversation
import Verif.Props.Loss
import Verif.Props.Crash
import Verif.Props.Handlers
import Verif.Props.Host
import Verif.Props.Examples
import Verif.Props.RepoTests
import Verif.Props.Fairness
import Verif.Props.HostDesc
import Verif.Props.Trace
import Verif.Props.Concurrent
import Verif.Props.Isolation
import Verif.Props.Session
import Verif.Props.Network
import Verif.Props.Sockets
import Verif.Props.Panics
import Verif.Props.Enumerate
import Verif.Props.Mutex
import Verif.Props.Reference
import Verif.Props.Sharing
import Verif.Props.Programs
import Verif.Props.Stall
import Verif.Props.Nusb
import Verif.Props.Whole
import Verif.Props.Listen
import Verif.Props.Live
import Verif.Props.WholeLive
import Verif.Props.Machine
import Verif.Props.Main
import Verif.Props.Limits
import Verif.Props.Exact
import Verif.Props.HostMutex
import Verif.Spec.Hid
import Verif.Props.Hid
import Verif.Props.Written
import Verif.Props.Build
import Verif.Props.Cdc
import Verif.Spec.Driver
import Verif.Props.Driver
import Verif.Spec.Attended
import Verif.Props.Attended
import Verif.Spec.Found
import Verif.Props.Found
import Verif.Spec.Granted
import Verif.Props.Granted
import Verif.Spec.Physical
import Verif.Props.Physical
import Verif.Spec.Contest
import Verif.Props.Contest
import Verif.Spec.Exports
import Verif.Spec.Again
import Verif.Props.Again
import Verif.Model.HostWindows
import Verif.Props.HostWindows
import Verif.Spec.Loop
import Verif.Props.Loop
import Verif.Spec.Lost
import Verif.Props.Lost
import Verif.Model.NusbMutex
import Verif.Spec.NusbHost
import Verif.Props.NusbHost
import Verif.Model.Serde
import Verif.Spec.Serde
import Verif.Lemmas.Serde
import Verif.Props.Serde
import Verif.Spec.Listed
import Verif.Lemmas.Listed
import Verif.Props.Listed
import Verif.Spec.Workers
import Verif.Lemmas.Workers
import Verif.Lemmas.WorkersSample
import Verif.Props.Workers
import Verif.Lemmas.Freeze
import Verif.Props.Freeze
import Verif.Lemmas.FreezeLive
import Verif.Spec.Silence
import Verif.Lemmas.Silence
import Verif.Props.Silence
import Verif.Lemmas.Deadlock
import Verif.Props.Deadlock
import Verif.Lemmas.Unread
import Verif.Props.Unread
