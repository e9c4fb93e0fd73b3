import Verif.Negotiation.Model
import Verif.Messages.Bodies

/-
What the client and the server state machines have in common: state-machine.go, and the parts of
client-state-machine.go and server-state-machine.go that are the same code twice.

Not modelled: `Config.ExtensionHandler` (taken to be nil), logging, `HandshakeContext.SetVersion`, and the
retransmission state of DTLS (`receivedEndOfFlight`, `receivedFinalFlight`), which is `Verif.Handshake.Flight`.
A running hash is represented by the bytes written to it; `Sum` applies the hash function.
-/

namespace Verif.Machine

open Verif Verif.Crypto Verif.Messages Verif.Negotiation Verif.Handshake

/-! ### Alerts (alert.go:17-51) -/

namespace Alert
def closeNotify : Nat := 0
def unexpectedMessage : Nat := 10
def badRecordMAC : Nat := 20
def handshakeFailure : Nat := 40
def badCertificate : Nat := 42
def illegalParameter : Nat := 47
def accessDenied : Nat := 49
def decodeError : Nat := 50
def decryptError : Nat := 51
def protocolVersion : Nat := 70
def internalError : Nat := 80
def missingExtension : Nat := 109
def noApplicationProtocol : Nat := 120
end Alert

/-- A returned alert. -/
def alert {α : Type} (a : Nat) : Res α := .err (.alert a)

/-- A Go error answered by returning an alert. -/
def orAlert {α : Type} (a : Nat) : Res α → Res α
  | .err _ => .err (.alert a)
  | r => r

/-! ### Surroundings -/

/-- The world outside mint: primitives, and `x509.ParseCertificate`. -/
structure Env where
  P : Prims
  D : Dh
  S : Sig
  x509 : Bytes → Option X509

/-- Which certificates parse. -/
def Env.parses (E : Env) (der : Bytes) : Bool := (E.x509 der).isSome

/-- What is drawn from outside at one step of a state machine: random bytes (absent if the generator fails), the number of
the next key pair, the time, what `CookieHandler.Generate` returns (`none`: nil), and a number for the randomness of
`CookieProtector.NewToken`. -/
structure Coins where
  random : Option Random
  dh : Nat
  now : Int
  appCookie : Res (Option Bytes)
  token : Nat

/-- The interface `CookieProtector` (cookie-protector.go:14-20). -/
structure Protector where
  newToken : Nat → Bytes → Res Bytes
  decodeToken : Bytes → Res Bytes

/-- The parts of `Config` (conn.go:68-137) the state machines use. `psks` is `PSKs.Get`; `verify` is
`certs[0].Verify` with the configured roots (client-state-machine.go:837-855), given the time, the server name and the
DER encodings: the verified chains, if any; `verifyPeer` is the callback VerifyPeerCertificate (true: nil error);
`cookieHandler` is `CookieHandler.Validate`, absent if CookieHandler is nil. -/
structure Config where
  serverName : Bytes
  suites : List UInt16
  groups : List UInt16
  schemes : List UInt16
  nextProtos : List Bytes
  psks : Bytes → Option Psk
  pskModes : List UInt8
  allowEarlyData : Bool
  certificates : List Cert
  requireClientAuth : Bool
  insecureSkipVerify : Bool
  verify : Int → Bytes → List Bytes → Option (List (List Bytes))
  verifyPeer : Option (List Bytes → List (List Bytes) → Bool)
  requireCookie : Bool
  cookieHandler : Option (Bytes → Bool)
  cookieProtector : Option Protector

/-- `ConnectionParameters` (state-machine.go:56-67). -/
structure ConnParams where
  usingPSK : Bool := false
  usingDH : Bool := false
  clientSendingEarlyData : Bool := false
  usingEarlyData : Bool := false
  rejectedEarlyData : Bool := false
  usingClientAuth : Bool := false
  suite : UInt16 := 0
  serverName : Bytes := []
  nextProto : Bytes := []
  deriving DecidableEq

/-- The parts of `HandshakeContext` (state-machine.go:71-79) the state machines use: whether this is DTLS, the sequence
number of the next message sent, and the early data received. -/
structure Ctx where
  datagram : Bool
  outSeq : Nat
  earlyData : Bytes := []
  deriving DecidableEq

/-- `Epoch` (common.go:239-245). -/
def epochEarlyData : Nat := 1
def epochHandshake : Nat := 2
def epochApplication : Nat := 3
def epochUpdate : Nat := 4

/-- Key and IV of a `KeySet` (crypto.go:604-607). -/
abbrev Keys := Bytes × Bytes

/-- `HandshakeAction` (state-machine.go:10-36). -/
inductive Action where
  | queue (m : Msg)
  | sendQueued
  | rekeyIn (epoch : Nat) (keys : Keys)
  | rekeyOut (epoch : Nat) (keys : Keys)
  | resetOut (seq : Nat)
  | storePsk (psk : Psk)
  deriving DecidableEq

/-- What the reader of a state machine may get: a handshake message; application data in a record of the current epoch; a
record that cannot be decrypted or anything else that is not a handshake message. -/
inductive Event where
  | msg (m : Msg)
  | appData (data : Bytes)
  | bad
  deriving DecidableEq

/-! ### Messages -/

/-- `wireVersion`, dtls.go:32-37. -/
def wireVersion (x : Ctx) : UInt16 := if x.datagram then dtls12WireVersion else tls12Version

/-- `HandshakeLayer.HandshakeMessageFromBody`, handshake-layer.go:103-118. -/
def mkMsg (x : Ctx) (b : Body) : Res (Msg × Ctx) :=
  b.marshal.bind fun data =>
    .ok (⟨b.type, x.outSeq, data, 0, data.length % 2 ^ 32⟩, { x with outSeq := (x.outSeq + 1) % 2 ^ 32 })

/-- `HandshakeMessage.Marshal` of a message read or made by this handshake layer. -/
def Ctx.bytes (x : Ctx) (m : Msg) : Bytes := Msg.marshal x.datagram m

/-- The same for a message that may be nil (handshake-layer.go:46-48). -/
def Ctx.bytesOpt (x : Ctx) : Option Msg → Bytes
  | none => []
  | some m => x.bytes m

/-- Marshal of the synthetic message_hash message with the given body, possibly nil (client-state-machine.go:404-407,
server-state-machine.go:187-190): its length and datagram fields are not set. -/
def hashMsgBytes : Option Bytes → Bytes
  | none => []
  | some h => Msg.marshal false ⟨typeMessageHash, 0, h, 0, 0⟩

/-- Certificate message with the chain of a configured certificate (client-state-machine.go:1004-1009,
server-state-machine.go:642-647). -/
def certBody (c : Cert) : Body := .certificate ⟨[], c.chain.map fun x => (x.raw, [], ())⟩

/-! ### Extensions found by Parse -/

/-- The contents of an extension of a kind. -/
def asVersions : ExtBody → Option (List UInt16) | .supportedVersions _ v => some v | _ => none
def asServerName : ExtBody → Option Bytes | .serverName n => some n | _ => none
def asGroups : ExtBody → Option (List UInt16) | .supportedGroups g => some g | _ => none
def asSigAlgs : ExtBody → Option (List UInt16) | .signatureAlgorithms a => some a | _ => none
def asShares : ExtBody → Option (List KeyShareEntry) | .keyShare _ _ s => some s | _ => none
def asPsk : ExtBody → Option (List PskIdentity × List BinderEntry × UInt16)
  | .preSharedKey _ i b s => some (i, b, s) | _ => none
def asAlpn : ExtBody → Option (List Bytes) | .alpn p => some p | _ => none
def asModes : ExtBody → Option (List UInt8) | .pskModes m => some m | _ => none
def asCookie : ExtBody → Option Bytes | .cookie c => some c | _ => none
def asEarlyData : ExtBody → Option Unit | .earlyData => some () | _ => none

/-- What `ExtensionList.Parse` filled in, by kind. `none` means the extension was not found. -/
def findVersions (l : List ExtBody) : Option (List UInt16) := l.findSome? asVersions
def findServerName (l : List ExtBody) : Option Bytes := l.findSome? asServerName
def findGroups (l : List ExtBody) : Option (List UInt16) := l.findSome? asGroups
def findSigAlgs (l : List ExtBody) : Option (List UInt16) := l.findSome? asSigAlgs
def findEarlyData (l : List ExtBody) : Bool := (l.findSome? asEarlyData).isSome
def findShares (l : List ExtBody) : Option (List KeyShareEntry) := l.findSome? asShares
def findPsk (l : List ExtBody) : Option (List PskIdentity × List BinderEntry × UInt16) := l.findSome? asPsk
def findAlpn (l : List ExtBody) : Option (List Bytes) := l.findSome? asAlpn
def findModes (l : List ExtBody) : Option (List UInt8) := l.findSome? asModes
def findCookie (l : List ExtBody) : Option Bytes := l.findSome? asCookie

/-- Adding extensions one after the other. -/
def addAll : List Ext → List ExtBody → Res (List Ext)
  | el, [] => .ok el
  | el, b :: bs => (addExt el b).bind fun el' => addAll el' bs

/-! ### Key schedule -/

/-- Labels (crypto.go:525-540): "c e traffic", "c hs traffic", "s hs traffic", "c ap traffic", "s ap traffic",
"exp master", "res master", "derived", "resumption". -/
def labelEarlyTraffic : Bytes := [0x63, 0x20, 0x65, 0x20, 0x74, 0x72, 0x61, 0x66, 0x66, 0x69, 0x63]
def labelClientHs : Bytes := [0x63, 0x20, 0x68, 0x73, 0x20, 0x74, 0x72, 0x61, 0x66, 0x66, 0x69, 0x63]
def labelServerHs : Bytes := [0x73, 0x20, 0x68, 0x73, 0x20, 0x74, 0x72, 0x61, 0x66, 0x66, 0x69, 0x63]
def labelClientAp : Bytes := [0x63, 0x20, 0x61, 0x70, 0x20, 0x74, 0x72, 0x61, 0x66, 0x66, 0x69, 0x63]
def labelServerAp : Bytes := [0x73, 0x20, 0x61, 0x70, 0x20, 0x74, 0x72, 0x61, 0x66, 0x66, 0x69, 0x63]
def labelExporterSecret : Bytes := [0x65, 0x78, 0x70, 0x20, 0x6d, 0x61, 0x73, 0x74, 0x65, 0x72]
def labelResumptionSecret : Bytes := [0x72, 0x65, 0x73, 0x20, 0x6d, 0x61, 0x73, 0x74, 0x65, 0x72]
def labelDerived : Bytes := [0x64, 0x65, 0x72, 0x69, 0x76, 0x65, 0x64]
def labelResumption : Bytes := [0x72, 0x65, 0x73, 0x75, 0x6d, 0x70, 0x74, 0x69, 0x6f, 0x6e]

/-- As many zeros as the hash function has bytes. -/
def zeros (h : HashId) : Bytes := List.replicate h.size 0

/-- Client and server handshake traffic secrets and the master secret. -/
structure HsSecrets where
  clientHs : Bytes
  serverHs : Bytes
  master : Bytes
  deriving DecidableEq

/-- client-state-machine.go:505-517 and server-state-machine.go:563-575; `dh` is nil if `none`. -/
def hsSecrets (P : Prims) (h : HashId) (early : Bytes) (dh : Option Bytes) (transcript : Bytes) : Res HsSecrets :=
  let h0 := P.hash h []
  let h2 := P.hash h transcript
  (deriveSecret P h early labelDerived h0).bind fun preHandshake =>
  let handshake := hkdfExtract P h (some preHandshake) (dh.getD (zeros h))
  (deriveSecret P h handshake labelClientHs h2).bind fun c =>
  (deriveSecret P h handshake labelServerHs h2).bind fun s =>
  (deriveSecret P h handshake labelDerived h0).bind fun preMaster =>
  .ok ⟨c, s, hkdfExtract P h (some preMaster) (zeros h)⟩

/-- Client and server application traffic secrets and the exporter secret. -/
structure ApSecrets where
  clientAp : Bytes
  serverAp : Bytes
  exporter : Bytes
  deriving DecidableEq

/-- client-state-machine.go:944-953 and server-state-machine.go:704-712. -/
def apSecrets (P : Prims) (h : HashId) (master transcript : Bytes) : Res ApSecrets :=
  let h4 := P.hash h transcript
  (deriveSecret P h master labelClientAp h4).bind fun c =>
  (deriveSecret P h master labelServerAp h4).bind fun s =>
  (deriveSecret P h master labelExporterSecret h4).bind fun e => .ok ⟨c, s, e⟩

/-- client-state-machine.go:240-247 and server-state-machine.go:358-366: the early traffic secret, from the early secret and
the marshalled ClientHello. -/
def earlyTraffic (P : Prims) (h : HashId) (early ch : Bytes) : Res Bytes :=
  deriveSecret P h early labelEarlyTraffic (P.hash h ch)

/-! ### Connected state (state-machine.go:90-247) -/

/-- `stateConnected` (state-machine.go:91-102); certificates as DER encodings. -/
structure Connected where
  params : ConnParams
  isClient : Bool
  cp : Params
  resumption : Bytes
  clientAp : Bytes
  serverAp : Bytes
  exporter : Bytes
  peerCerts : List Bytes
  chains : List (List Bytes)
  deriving DecidableEq

/-- The next traffic secret (state-machine.go:116-117, 120-121, 201-202, 205-206). -/
def nextSecret (P : Prims) (h : HashId) (label secret : Bytes) : Res Bytes :=
  hkdfExpandLabel P h secret label [] h.size

/-- `stateConnected.KeyUpdate` (state-machine.go:113-137). -/
def Connected.keyUpdate (E : Env) (x : Ctx) (s : Connected) (request : UInt8) : Res (Connected × List Action × Ctx) :=
  let upd := if s.isClient then
      (nextSecret E.P s.cp.hash labelClientAp s.clientAp).bind fun t => .ok (t, { s with clientAp := t })
    else (nextSecret E.P s.cp.hash labelServerAp s.serverAp).bind fun t => .ok (t, { s with serverAp := t })
  upd.bind fun (t, s') =>
  (makeTrafficKeys E.P s.cp t).bind fun keys =>
  (orAlert Alert.internalError (mkMsg x (.keyUpdate request))).bind fun (m, x') =>
  .ok (s', [.queue m, .sendQueued, .rekeyOut epochUpdate keys], x')

/-- The PSK made from a ticket (state-machine.go:152-164, 228-239). -/
def ticketPsk (P : Prims) (s : Connected) (now : Int) (t : Ticket) : Res Psk :=
  (hkdfExpandLabel P s.cp.hash s.resumption labelResumption t.nonce s.cp.hash.size).bind fun key =>
  .ok { suite := s.cp.suite, isResumption := true, identity := t.ticket, key := key, nextProto := s.params.nextProto,
        receivedAt := now, expiresAt := now + t.lifetime.toNat * 1000000000, ticketAgeAdd := t.ageAdd }

/-- `stateConnected.NewSessionTicket` (state-machine.go:139-178). The random bytes of `NewSessionTicket`
(handshake-messages.go:416-434) are parameters: age_add, a nonce of 16 bytes and the ticket. -/
def Connected.newSessionTicket (E : Env) (x : Ctx) (s : Connected) (now : Int) (lifetime earlyDataLifetime ageAdd : UInt32)
    (nonce ticket : Bytes) : Res (List Action × Ctx) :=
  (orAlert Alert.internalError (addExt [] (.ticketEarlyDataInfo earlyDataLifetime))).bind fun exts =>
  let t : Ticket := ⟨lifetime, ageAdd, nonce, ticket, exts⟩
  (ticketPsk E.P s now t).bind fun psk =>
  (orAlert Alert.internalError (mkMsg x (.newSessionTicket t))).bind fun (m, x') =>
  .ok ([.storePsk psk, .queue m, .sendQueued], x')

/-- `stateConnected.ProcessMessage` (state-machine.go:185-247) for a non-nil message. -/
def Connected.process (E : Env) (x : Ctx) (s : Connected) (now : Int) (m : Msg) : Res (Connected × List Action × Ctx) :=
  (orAlert Alert.decodeError (toBody E.parses m.msgType m.body)).bind fun body =>
  match body with
  | .keyUpdate request =>
    let upd := if !s.isClient then
        (nextSecret E.P s.cp.hash labelClientAp s.clientAp).bind fun t => .ok (t, { s with clientAp := t })
      else (nextSecret E.P s.cp.hash labelServerAp s.serverAp).bind fun t => .ok (t, { s with serverAp := t })
    upd.bind fun (t, s') =>
    (makeTrafficKeys E.P s.cp t).bind fun keys =>
    if request = 1 then
      (s'.keyUpdate E x 0).bind fun (s'', acts, x') => .ok (s'', .rekeyIn epochUpdate keys :: acts, x')
    else .ok (s', [.rekeyIn epochUpdate keys], x)
  | .newSessionTicket t =>
    if !s.isClient then alert Alert.unexpectedMessage
    else (ticketPsk E.P s now t).bind fun psk => .ok (s, [.storePsk psk], x)
  | _ => alert Alert.unexpectedMessage

end Verif.Machine
