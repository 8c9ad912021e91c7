import Verif.Props.Wire
import Verif.Props.Control
import Verif.Props.Session
import Verif.Props.SessionManager
import Verif.Props.Client
import Verif.Props.Storage
import Verif.Props.SvcTable
import Verif.Props.SessionLog
import Verif.Props.Reconnect
import Verif.Props.AppContext
import Verif.Props.CmdHandler
import Verif.Props.Config
import Verif.Props.Url
import Verif.Props.Args
import Verif.Props.Http
import Verif.Props.ScanResult
import Verif.Props.Sdp
import Verif.Props.Discovery
import Verif.Props.DiscoveryCases
import Verif.Props.RawNet
import Verif.Props.RawScan
import Verif.Props.Mac
import Verif.Props.Lock
import Verif.Props.Life
import Verif.Props.Exports
import Verif.Props.Logger
import Verif.Props.CustomStorage
import Verif.Props.Tls
import Verif.Props.Loggers
import Verif.Props.TlsIo
import Verif.Props.Trust
import Verif.Props.Clients
import Verif.Spec.Tunnel
import Verif.Lemmas.Tunnel
import Verif.Props.Tunnel
import Verif.Spec.Naming
import Verif.Lemmas.Naming
import Verif.Props.Naming
import Verif.Model.CApi
import Verif.Spec.CApi
import Verif.Lemmas.CApi
import Verif.Lemmas.CApiEnd
import Verif.Props.CApi
import Verif.Spec.Progress
import Verif.Spec.Busy
import Verif.Props.Progress
import Verif.Props.Busy
import Verif.Spec.Devices
import Verif.Props.Devices
import Verif.Spec.Pcap
import Verif.Props.Pcap
import Verif.Spec.Snapshot
import Verif.Props.Snapshot
import Verif.Spec.LocalScan
import Verif.Spec.Builder
import Verif.Props.LocalScan
import Verif.Props.Builder
import Verif.Spec.Load
import Verif.Props.Load
import Verif.Spec.Uplink
import Verif.Props.Uplink
import Verif.Spec.Origin
import Verif.Model.Survey
import Verif.Spec.Survey
import Verif.Props.Origin
import Verif.Spec.Secure
import Verif.Spec.Found
import Verif.Props.Found
import Verif.Props.Secure
import Verif.Props.Survey
import Verif.Model.RawRead
import Verif.Spec.RawRead
import Verif.Lemmas.RawRead
import Verif.Props.RawRead
import Verif.Spec.Backlog
import Verif.Spec.Secrecy
import Verif.Lemmas.Backlog
import Verif.Lemmas.Secrecy
import Verif.Props.Backlog
import Verif.Props.Secrecy
import Verif.Model.ScanTime
import Verif.Spec.ScanTime
import Verif.Lemmas.ScanTime
import Verif.Lemmas.ScanTimeAsked
import Verif.Lemmas.ScanTimeOnce
import Verif.Props.ScanTime
import Verif.Model.Cadence
import Verif.Spec.Cadence
import Verif.Lemmas.Cadence
import Verif.Lemmas.CadenceInv
import Verif.Lemmas.CadenceTable
import Verif.Props.Cadence
import Verif.Spec.Silence
import Verif.Lemmas.Silence
import Verif.Props.Silence
import Verif.Spec.Appear
import Verif.Lemmas.Appear
import Verif.Lemmas.AppearTable
import Verif.Lemmas.Told
import Verif.Props.Appear
import Verif.Spec.Outage
import Verif.Props.Outage
import Verif.Spec.Locks
import Verif.Props.Locks
import Verif.Model.Shared
import Verif.Spec.Shared
import Verif.Props.Shared
import Verif.Model.Teardown
import Verif.Spec.Teardown
import Verif.Props.Teardown
import Verif.Spec.Count
import Verif.Props.Count
import Verif.Spec.Rate
import Verif.Props.Rate
import Verif.Spec.Identity
import Verif.Props.Identity
import Verif.Spec.Stream
import Verif.Props.Stream
import Verif.Spec.Status
import Verif.Props.Status
import Verif.Spec.Solicited
import Verif.Props.Solicited
