import Verif.Basic
import Verif.Conn.Channel
import Verif.Conn.Closing
import Verif.Conn.Concurrent
import Verif.Conn.ConcurrentLemmas
import Verif.Conn.Config
import Verif.Conn.Datagram
import Verif.Conn.DatagramQuiet
import Verif.Conn.DatagramReading
import Verif.Conn.DatagramSending
import Verif.Conn.Delivery
import Verif.Conn.Dial
import Verif.Conn.EarlyWrite
import Verif.Conn.Handshake
import Verif.Conn.HandshakeLemmas
import Verif.Conn.HandshakeRun
import Verif.Conn.History
import Verif.Conn.Log
import Verif.Conn.Model
import Verif.Conn.Names
import Verif.Conn.Reading
import Verif.Conn.Receiving
import Verif.Conn.RecordWire
import Verif.Conn.Report
import Verif.Conn.Stack
import Verif.Conn.StackLive
import Verif.Conn.StackRun
import Verif.Conn.StackSturdy
import Verif.Conn.Sturdy
import Verif.Conn.Toy
import Verif.Conn.Turns
import Verif.Conn.Writing
import Verif.Crypto.Exporter
import Verif.Crypto.Ffdhe
import Verif.Crypto.Lemmas
import Verif.Crypto.Model
import Verif.Crypto.SelfSigned
import Verif.Handshake.Ack
import Verif.Handshake.Flight
import Verif.Handshake.FlightLemmas
import Verif.Handshake.Layer
import Verif.Handshake.Lemmas
import Verif.Machine.Added
import Verif.Machine.Agree
import Verif.Machine.Alerts
import Verif.Machine.Aligned
import Verif.Machine.Answers
import Verif.Machine.AppExtensions
import Verif.Machine.Client
import Verif.Machine.ClientLemmas
import Verif.Machine.ClientTrace
import Verif.Machine.ClientView
import Verif.Machine.Common
import Verif.Machine.Complete
import Verif.Machine.Deliver
import Verif.Machine.EarlyData
import Verif.Machine.Epochs
import Verif.Machine.Finish
import Verif.Machine.Forward
import Verif.Machine.Found
import Verif.Machine.Fresh
import Verif.Machine.Hello
import Verif.Machine.Hellos
import Verif.Machine.Installed
import Verif.Machine.Link
import Verif.Machine.LinkLemmas
import Verif.Machine.Order
import Verif.Machine.Protect
import Verif.Machine.ProtectServer
import Verif.Machine.Refused
import Verif.Machine.Resumed
import Verif.Machine.Retry
import Verif.Machine.Safe
import Verif.Machine.Secrets
import Verif.Machine.Server
import Verif.Machine.ServerLemmas
import Verif.Machine.ServerOrder
import Verif.Machine.ServerTrace
import Verif.Machine.ServerView
import Verif.Machine.Together
import Verif.Machine.Toy
import Verif.Machine.Wire
import Verif.Messages.Bodies
import Verif.Messages.Encoding
import Verif.Messages.Extensions
import Verif.Messages.Fits
import Verif.Messages.HasIdentity
import Verif.Messages.Lemmas
import Verif.Messages.Wire
import Verif.Negotiation.Model
import Verif.Props.Ack
import Verif.Props.AckRecords
import Verif.Props.Agreement
import Verif.Props.AlertCodes
import Verif.Props.Alerts
import Verif.Props.AppExtensions
import Verif.Props.Arrivals
import Verif.Props.Binding
import Verif.Props.Boundary
import Verif.Props.Closing
import Verif.Props.Completion
import Verif.Props.Concurrent
import Verif.Props.Config
import Verif.Props.Conformance
import Verif.Props.Connect
import Verif.Props.Constants
import Verif.Props.CookieConnect
import Verif.Props.Cookies
import Verif.Props.Crypto
import Verif.Props.DatagramAuthentic
import Verif.Props.DatagramClosing
import Verif.Props.DatagramConn
import Verif.Props.DatagramRepeat
import Verif.Props.DatagramUpdate
import Verif.Props.Dial
import Verif.Props.Downgrade
import Verif.Props.DowngradePsk
import Verif.Props.DowngradeRetry
import Verif.Props.EarlyData
import Verif.Props.EarlyRead
import Verif.Props.EarlyWrite
import Verif.Props.EndToEnd
import Verif.Props.Epochs
import Verif.Props.Extensions
import Verif.Props.Failed
import Verif.Props.Ffdhe
import Verif.Props.Flight
import Verif.Props.FlightDelivery
import Verif.Props.Frames
import Verif.Props.HandshakeDtls
import Verif.Props.HandshakeOrder
import Verif.Props.HandshakeRead
import Verif.Props.HandshakeTls
import Verif.Props.HasIdentity
import Verif.Props.KeyUpdate
import Verif.Props.Labels
import Verif.Props.Log
import Verif.Props.Messages
import Verif.Props.Names
import Verif.Props.Negotiation
import Verif.Props.Offers
import Verif.Props.Panics
import Verif.Props.Protection
import Verif.Props.PskNegotiation
import Verif.Props.Record
import Verif.Props.RecordDtls
import Verif.Props.RecordSafety
import Verif.Props.RecordWire
import Verif.Props.Replay
import Verif.Props.Report
import Verif.Props.Resume
import Verif.Props.SelfSigned
import Verif.Props.Signed
import Verif.Props.Stack
import Verif.Props.Stage
import Verif.Props.Stream
import Verif.Props.Survive
import Verif.Props.Syntax
import Verif.Props.SyntaxMore
import Verif.Props.Timer
import Verif.Props.Truncated
import Verif.Props.Wire
import Verif.Record.FrameReader
import Verif.Record.Lemmas
import Verif.Record.Model
import Verif.Record.Pending
import Verif.Record.RoundTrip
import Verif.Spec.Agreement
import Verif.Spec.AlertCodes
import Verif.Spec.AppExtensions
import Verif.Spec.Arrivals
import Verif.Spec.Best
import Verif.Spec.Binding
import Verif.Spec.Choice
import Verif.Spec.Closing
import Verif.Spec.Compatible
import Verif.Spec.Cookie
import Verif.Spec.EarlyWrite
import Verif.Spec.Epochs
import Verif.Spec.Ffdhe
import Verif.Spec.Frames
import Verif.Spec.Handshake
import Verif.Spec.Issued
import Verif.Spec.KeySchedule
import Verif.Spec.Link
import Verif.Spec.Log
import Verif.Spec.Messages
import Verif.Spec.Panics
import Verif.Spec.Protection
import Verif.Spec.Record
import Verif.Spec.RecordWire
import Verif.Spec.Report
import Verif.Spec.Resume
import Verif.Spec.Rfc
import Verif.Spec.Schedule
import Verif.Spec.SelfSigned
import Verif.Spec.Sha256
import Verif.Spec.Signer
import Verif.Spec.Stack
import Verif.Spec.Stage
import Verif.Spec.Stream
import Verif.Spec.Syntax
import Verif.Spec.TagUse
import Verif.Spec.Tags
import Verif.Spec.Views
import Verif.Spec.Wire
import Verif.Syntax.Canonical
import Verif.Syntax.Fits
import Verif.Syntax.Local
import Verif.Syntax.MapOrder
import Verif.Syntax.Model
import Verif.Syntax.RoundTrip
import Verif.Syntax.Safety
import Verif.Syntax.Simple
import Verif.Syntax.Tags
import Verif.Syntax.Valid
import Verif.Syntax.Varint
import Verif.Syntax.Wire
import Verif.Timer.Lemmas
import Verif.Timer.Model
