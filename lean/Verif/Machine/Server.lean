import Verif.Machine.Client

/-
Model of server-state-machine.go: the Next method of each state. An alert is returned as the error `.alert code`.
-/

namespace Verif.Machine

open Verif Verif.Crypto Verif.Messages Verif.Negotiation Verif.Handshake

/-! ### States -/

/-- `serverStateStart` (server-state-machine.go:78-82). -/
structure SStart where
  cfg : Config

/-- `serverStateNegotiated` (server-state-machine.go:447-463). `dhSecret` is `none` if nil. -/
structure SNegotiated where
  cfg : Config
  params : ConnParams
  dhGroup : Nat
  dhPublic : Bytes
  dhSecret : Option Bytes
  pskSecret : Bytes
  earlyTraffic : Bytes
  selectedPSK : Nat
  cert : Option Cert
  certScheme : Nat
  sessionId : Bytes
  firstHello : Option Bytes
  retry : Option Msg
  clientHello : Msg

/-- The fields common to the later states: cryptoParams, handshakeHash, masterSecret, clientHandshakeTrafficSecret, the
application traffic secrets and the exporter secret. -/
structure SSecrets where
  cp : Params
  transcript : Bytes
  master : Bytes
  clientHs : Bytes
  ap : ApSecrets

/-- Adding to the transcript. -/
def SSecrets.add (s : SSecrets) (b : Bytes) : SSecrets := { s with transcript := s.transcript ++ b }

/-- `serverStateWaitEOED`, `serverStateWaitFlight2`, `serverStateWaitCert` (server-state-machine.go:766-777, 889-900,
941-952). -/
structure SWait where
  cfg : Config
  params : ConnParams
  sec : SSecrets

/-- `serverStateWaitCV` (server-state-machine.go:1013-1028). -/
structure SWaitCV where
  cfg : Config
  params : ConnParams
  sec : SSecrets
  cert : CertificateMsg

/-- `serverStateWaitFinished` (server-state-machine.go:1097-1111). -/
structure SWaitFinished where
  params : ConnParams
  sec : SSecrets
  peerCerts : List Bytes

inductive SState where
  | start (s : SStart)
  | negotiated (s : SNegotiated)
  | waitEOED (s : SWait)
  /-- `serverStateReadPastEarlyData` (server-state-machine.go:857-860): its `next` points to the variable in which the
  state itself is stored (745-762), so it is its own successor. -/
  | readPast
  | waitFlight2 (s : SWait)
  | waitCert (s : SWait)
  | waitCV (s : SWaitCV)
  | waitFinished (s : SWaitFinished)
  | connected (s : Connected)

/-! ### Start (server-state-machine.go:90-404) -/

/-- What the extensions of a ClientHello say (109-161); lists are empty where the Go value is nil. -/
structure Offer where
  versions : Option (List UInt16)
  serverName : Option Bytes
  groups : Option (List UInt16)
  sigAlgs : Option (List UInt16)
  earlyData : Bool
  shares : List KeyShareEntry
  ids : List PskIdentity
  binders : List BinderEntry
  alpn : List Bytes
  modes : List UInt8
  cookie : Bytes

/-- The kinds of extension a server looks for, in order (130-142). -/
def offerKinds : List ExtKind :=
  [.supportedVersions typeClientHello, .serverName, .supportedGroups, .signatureAlgorithms, .earlyData,
    .keyShare typeClientHello, .preSharedKey typeClientHello, .alpn, .pskModes, .cookie]

def offerOf (found : List ExtBody) : Offer where
  versions := findVersions found
  serverName := findServerName found
  groups := findGroups found
  sigAlgs := findSigAlgs found
  earlyData := findEarlyData found
  shares := (findShares found).getD []
  ids := match findPsk found with | some (i, _, _) => i | none => []
  binders := match findPsk found with | some (_, b, _) => b | none => []
  alpn := (findAlpn found).getD []
  modes := (findModes found).getD []
  cookie := (findCookie found).getD []

/-- Decoding the ClientHello and its extensions, and the check of the version (91-168). -/
def readHello (x : Ctx) (m : Msg) : Res (ClientHello × Offer) :=
  if m.msgType ≠ typeClientHello then alert Alert.unexpectedMessage
  else
    (orAlert Alert.decodeError (safeUnmarshal (ClientHello.unmarshal (wireVersion x)) m.body)).bind fun ch =>
    if ch.version ≠ wireVersion x then alert Alert.decodeError
    else
      (orAlert Alert.decodeError (parseExts ch.exts offerKinds)).bind fun found =>
      let o := offerOf found
      match o.versions with
      | none => alert Alert.protocolVersion
      | some vs =>
        if (version (vs.map (·.toNat)) [0x0304]).1 then .ok (ch, o) else alert Alert.protocolVersion

/-- `cookie` (server-state-machine.go:69-76): suite, hash of the first ClientHello, cookie of the application. -/
def cookieStructTy : Syntax.Ty (UInt16 × Bytes × Bytes × Unit) :=
  .struct (.cons {} (.uint .w2) (.cons { headerSize := 2 } bytesTy (.cons { headerSize := 2 } bytesTy .nil)))

/-- Decoding the plaintext of a cookie (181-185): an error is fatal only if the plaintext is not empty (after an error
`rb` is 0); trailing bytes are not noticed. -/
def decodeCookie (plain : Bytes) : Res (UInt16 × Bytes × Bytes) :=
  match Syntax.unmarshal cookieStructTy plain with
  | .ok ((suite, hash, app, _), _) => .ok (suite, hash, app)
  | .err _ => if plain.length ≠ 0 then alert Alert.internalError else .ok (0, [], [])
  | .panic => .panic
  | .diverge => .diverge

/-- The cookie sent by the client (170-203): hash of the first ClientHello and initial suite. Calling a method of a nil
CookieProtector panics (176). -/
def checkCookie (cfg : Config) (o : Offer) : Res (Option (Bytes × Params)) :=
  if o.cookie.length > 0 then
    match cfg.cookieProtector with
    | none => .panic
    | some prot =>
      (orAlert Alert.decryptError (prot.decodeToken o.cookie)).bind fun plain =>
      (decodeCookie plain).bind fun (suite, hash, app) =>
      let valid := match cfg.cookieHandler with
        | some validate => validate app
        | none => true
      if !valid then alert Alert.accessDenied
      else
        match suiteParams suite.toNat with
        | none => alert Alert.internalError
        | some p => .ok (some (hash, p))
  else .ok none

/-- `generateHRR` (server-state-machine.go:406-445). -/
def makeRetry (x : Ctx) (suite : UInt16) (sessionId cookie : Bytes) : Res (Msg × Ctx) :=
  (addAll [] [.supportedVersions typeServerHello [tls13Version], .cookie cookie]).bind fun exts =>
  mkMsg x (.serverHello ⟨tls12Version, ⟨hrrRandom, rfl⟩, sessionId, suite, 0, exts⟩)

/-- PSK negotiation (213-245). The HelloRetryRequest in the context is made with `params.Suite` while `params` is still
zero. -/
def choosePsk (E : Env) (x : Ctx) (cfg : Config) (now : Int) (ch : ClientHello) (o : Offer)
    (first : Option (Bytes × Params)) : Res (Option PskChoice × Ctx) :=
  if o.ids.length > 0 then
    (match first with
      | some (hash, _) =>
        (orAlert Alert.internalError (makeRetry x 0 ch.sessionId o.cookie)).bind fun (hrr, x') =>
        .ok (hashMsgBytes (some hash) ++ x.bytes hrr, x')
      | none => (.ok ([], x) : Res (Bytes × Ctx))).bind fun (base, x') =>
    (orAlert Alert.decodeError ch.truncated).bind fun trunc =>
    (orAlert Alert.internalError (Negotiation.psk E.P now (o.ids.map fun i : PskIdentity => (⟨i.1, i.2.1⟩ : Identity))
      (o.binders.map fun b : BinderEntry => b.1)
      (base ++ trunc) cfg.psks)).bind fun choice => .ok (choice, x')
  else .ok (none, x)

/-- What sending or checking a cookie leads to: the HelloRetryRequest, and whether it is to be sent (261-330). -/
def chooseRetry (E : Env) (x : Ctx) (cfg : Config) (c : Coins) (m : Msg) (ch : ClientHello) (o : Offer) (suite : UInt16) :
    Res (Option Msg × Bool × Ctx) :=
  if cfg.requireCookie then
    if o.cookie.length > 0 then
      (orAlert Alert.internalError (makeRetry x suite ch.sessionId o.cookie)).bind fun (hrr, x') =>
      .ok (some hrr, false, x')
    else
      (match cfg.cookieHandler with
        | none => (.ok (true, []) : Res (Bool × Bytes))
        | some _ => (orAlert Alert.internalError c.appCookie).bind fun a => .ok (a.isSome, a.getD [])).bind
        fun (send, app) =>
      if send then
        match suiteParams suite.toNat with
        | none => .panic
        | some p =>
          (orAlert Alert.internalError
            (Syntax.marshal cookieStructTy (suite, E.P.hash p.hash (x.bytes m), app, ()))).bind fun plain =>
          match cfg.cookieProtector with
          | none => .panic
          | some prot =>
            (orAlert Alert.internalError (prot.newToken c.token plain)).bind fun token =>
            (orAlert Alert.internalError (makeRetry x suite ch.sessionId token)).bind fun (hrr, x') =>
            .ok (some hrr, true, x')
      else .ok (none, false, x)
  else .ok (none, false, x)

/-- The choice of a certificate (338-367): only without PSK. -/
def chooseCert (cfg : Config) (usingPSK : Bool) (o : Offer) : Res (Option (Cert × Nat)) :=
  if usingPSK then .ok none
  else
    match o.serverName, o.groups, o.sigAlgs with
    | some name, some _, some algs =>
      (orAlert Alert.accessDenied (certificate (some name) (algs.map (·.toNat)) cfg.certificates)).bind fun c => .ok (some c)
    | _, _, _ => alert Alert.missingExtension

/-- What a ClientHello leads to: a HelloRetryRequest is sent and the state stays the same (AlertStatelessRetry), or
negotiation is complete. -/
inductive SStartResult where
  | retry (hrr : Msg)
  | negotiated (s : SNegotiated)

/-- The early traffic secret, if early data is accepted (356-367). -/
def serverEarly (E : Env) (x : Ctx) (m : Msg) (using_ : Bool) (pskSecret : Bytes) (choice : Option PskChoice) : Res Bytes :=
  if using_ then
    match choice with
    | some (_, _, p) => earlyTraffic E.P p.hash (hkdfExtract E.P p.hash (some (zeros p.hash)) pskSecret) (x.bytes m)
    | none => .panic
  else .ok []

/-- What is left once it is clear that no HelloRetryRequest is sent (330-404). -/
def SStart.finish (E : Env) (x : Ctx) (s : SStart) (m : Msg) (ch : ClientHello) (o : Offer) (firstHello : Option Bytes)
    (dhChoice : Option DhChoice) (pskChoice : Option PskChoice) (usingDH usingPSK : Bool) (suite : UInt16)
    (retry : Option Msg) : Res SNegotiated :=
  if !usingDH && !usingPSK then alert Alert.handshakeFailure
  else
    (chooseCert s.cfg usingPSK o).bind fun cert =>
    let psk := if usingPSK then pskChoice.map (·.2.1) else none
    let pskSecret := match psk with | some p => p.key | none => []
    let early := Negotiation.earlyData usingPSK o.earlyData s.cfg.allowEarlyData
    (serverEarly E x m early.1 pskSecret pskChoice).bind fun earlySecret =>
    (orAlert Alert.noApplicationProtocol (Negotiation.alpn psk o.alpn s.cfg.nextProtos)).bind fun proto =>
    .ok
      { cfg := s.cfg
        params :=
          { usingPSK := usingPSK, usingDH := usingDH, clientSendingEarlyData := o.earlyData, usingEarlyData := early.1,
            rejectedEarlyData := early.2, suite := suite, serverName := o.serverName.getD [], nextProto := proto }
        dhGroup := match dhChoice with | some (g, _, _) => g | none => 0
        dhPublic := match dhChoice with | some (_, pub, _) => pub | none => []
        dhSecret := if usingDH then dhChoice.map (·.2.2) else none
        pskSecret := pskSecret
        earlyTraffic := earlySecret
        selectedPSK := match pskChoice with | some (i, _, _) => i | none => 0
        cert := cert.map (·.1)
        certScheme := match cert with | some (_, a) => a | none => 0
        sessionId := ch.sessionId
        firstHello := firstHello
        retry := retry
        clientHello := m }

/-- Whether the suite differs from the one in the cookie (255-259). -/
def suiteDiffers (first : Option (Bytes × Params)) (suite : Nat) : Bool :=
  match first with
  | some (_, p) => p.suite != suite
  | none => false

/-- `serverStateStart.Next` (server-state-machine.go:90-404). -/
def SStart.next (E : Env) (x : Ctx) (c : Coins) (s : SStart) (m : Msg) : Res (SStartResult × Ctx) :=
  (readHello x m).bind fun (ch, o) =>
  (checkCookie s.cfg o).bind fun first =>
  if ch.sessionId.length ≠ 0 ∧ ch.sessionId.length ≠ 32 then alert Alert.illegalParameter
  else
    (Negotiation.dh E.D (s.cfg.groups.map (·.toNat)) c.dh (o.shares.map fun e => ⟨e.1.toNat, e.2.1⟩)).bind fun dhChoice =>
    (choosePsk E x s.cfg c.now ch o first).bind fun (pskChoice, x1) =>
    let mode := pskMode dhChoice.isSome pskChoice.isSome o.modes
    (orAlert Alert.handshakeFailure
      (cipherSuite (pskChoice.map (·.2.1)) (s.cfg.suites.map (·.toNat)) (ch.suites.map (·.toNat)))).bind fun suiteNat =>
    let suite := UInt16.ofNat suiteNat
    if suiteDiffers first suiteNat then alert Alert.internalError
    else
      (chooseRetry E x1 s.cfg c m ch o suite).bind fun (retry, send, x2) =>
      match send, retry with
      | true, some hrr => .ok (.retry hrr, x2)
      | _, _ =>
        (s.finish E x m ch o (first.map (·.1)) dhChoice pskChoice mode.1 mode.2 suite retry).bind fun n =>
        .ok (.negotiated n, x2)

/-! ### Negotiated (server-state-machine.go:471-764) -/

/-- The extensions of the ServerHello (483-512). -/
def serverHelloExts (s : SNegotiated) : List ExtBody :=
  [.supportedVersions typeServerHello [tls13Version]] ++
  (if s.params.usingDH then [.keyShare typeServerHello 0 [(UInt16.ofNat s.dhGroup, s.dhPublic, ())]] else []) ++
  (if s.params.usingPSK then [.preSharedKey typeServerHello [] [] (UInt16.ofNat s.selectedPSK)] else [])

/-- The extensions of EncryptedExtensions (587-604). -/
def encryptedExts (s : SNegotiated) : List ExtBody :=
  (if s.params.nextProto ≠ [] then [.alpn [s.params.nextProto]] else []) ++
  (if s.params.usingEarlyData then [.earlyData] else [])

/-- CertificateRequest, if a client certificate is required (632-655). -/
def serverRequest (x : Ctx) (s : SNegotiated) (transcript : Bytes) : Res (List Action × Bytes × Ctx) :=
  if s.cfg.requireClientAuth then
    (orAlert Alert.internalError (addExt [] (.signatureAlgorithms s.cfg.schemes))).bind fun exts =>
    (orAlert Alert.internalError (mkMsg x (.certificateRequest ⟨[], exts⟩))).bind fun (m, x') =>
    .ok ([.queue m], transcript ++ x.bytes m, x')
  else .ok ([], transcript, x)

/-- CertificateRequest, Certificate and CertificateVerify (629-689): only without PSK. -/
def serverAuth (E : Env) (x : Ctx) (s : SNegotiated) (h : HashId) (transcript : Bytes) : Res (List Action × Bytes × Ctx) :=
  if !s.params.usingPSK then
    (serverRequest x s transcript).bind fun (acts, transcript, x1) =>
    match s.cert with
    | none => .panic
    | some cert =>
      (orAlert Alert.internalError (mkMsg x1 (certBody cert))).bind fun (m, x2) =>
      let transcript := transcript ++ x.bytes m
      (orAlert Alert.internalError
        (CertVerify.sign E.P E.S (UInt16.ofNat s.certScheme) cert.key (E.P.hash h transcript))).bind fun cv =>
      (orAlert Alert.internalError (mkMsg x2 (.certificateVerify cv))).bind fun (mv, x3) =>
      .ok (acts ++ [.queue m, .queue mv], transcript ++ x.bytes mv, x3)
  else .ok ([], transcript, x)

/-- `serverStateNegotiated.Next` (server-state-machine.go:471-764). -/
def SNegotiated.next (E : Env) (x : Ctx) (c : Coins) (s : SNegotiated) : Res (SState × List Action × Ctx) :=
  match c.random with
  | none => alert Alert.internalError
  | some random =>
    (orAlert Alert.internalError (addAll [] (serverHelloExts s))).bind fun exts =>
    (orAlert Alert.internalError
      (mkMsg x (.serverHello ⟨tls12Version, random, s.sessionId, s.params.suite, 0, exts⟩))).bind fun (sh, x1) =>
    match suiteParams s.params.suite.toNat with
    | none => alert Alert.handshakeFailure
    | some p =>
      let h := p.hash
      let transcript2 := hashMsgBytes s.firstHello ++ x.bytesOpt s.retry ++ x.bytes s.clientHello ++ x.bytes sh
      let early := if s.params.usingPSK then hkdfExtract E.P h (some (zeros h)) s.pskSecret
        else hkdfExtract E.P h (some (zeros h)) (zeros h)
      (hsSecrets E.P h early s.dhSecret transcript2).bind fun hs =>
      (makeTrafficKeys E.P p hs.clientHs).bind fun clientHsKeys =>
      (makeTrafficKeys E.P p hs.serverHs).bind fun serverHsKeys =>
      (orAlert Alert.internalError (addAll [] (encryptedExts s))).bind fun eeExts =>
      (orAlert Alert.internalError (mkMsg x1 (.encryptedExtensions eeExts))).bind fun (ee, x2) =>
      (serverAuth E x2 s h (transcript2 ++ x.bytes ee)).bind fun (acts, transcript3, x3) =>
      (computeFinishedData E.P h hs.serverHs (E.P.hash h transcript3)).bind fun verifyData =>
      (mkMsg x3 (.finished ⟨verifyData.length, verifyData⟩)).bind fun (fin, x4) =>
      let transcript4 := transcript3 ++ x.bytes fin
      (apSecrets E.P h hs.master transcript4).bind fun ap =>
      (makeTrafficKeys E.P p ap.serverAp).bind fun serverApKeys =>
      let params := { s.params with usingClientAuth := !s.params.usingPSK && s.cfg.requireClientAuth }
      let w : SWait := ⟨s.cfg, params, ⟨p, transcript4, hs.master, hs.clientHs, ap⟩⟩
      let sent := [.queue sh, .rekeyOut epochHandshake serverHsKeys, .queue ee] ++ acts ++
        [.queue fin, .sendQueued, .rekeyOut epochApplication serverApKeys]
      if s.params.usingEarlyData then
        (makeTrafficKeys E.P p s.earlyTraffic).bind fun earlyKeys =>
        .ok (.waitEOED w, sent ++ [.rekeyIn epochEarlyData earlyKeys], x4)
      else if s.params.rejectedEarlyData then .ok (.readPast, sent ++ [.rekeyIn epochHandshake clientHsKeys], x4)
      else .ok (.waitFlight2 w, sent ++ [.rekeyIn epochHandshake clientHsKeys], x4)

/-! ### The later states -/

/-- `serverStateWaitEOED.Next` (server-state-machine.go:785-853) once a handshake message is read. -/
def SWait.nextEOED (E : Env) (x : Ctx) (s : SWait) (m : Msg) : Res (SState × List Action × Ctx) :=
  if m.msgType ≠ typeEndOfEarlyData then alert Alert.unexpectedMessage
  else if m.body.length > 0 then alert Alert.decodeError
  else
    (makeTrafficKeys E.P s.sec.cp s.sec.clientHs).bind fun keys =>
    .ok (.waitFlight2 { s with sec := s.sec.add (x.bytes m) }, [.rekeyIn epochHandshake keys], x)

/-- `serverStateWaitFlight2.Next` (server-state-machine.go:908-939). -/
def SWait.nextFlight2 (s : SWait) : SState :=
  if s.params.usingClientAuth then .waitCert s else .waitFinished ⟨s.params, s.sec, []⟩

/-- `serverStateWaitCert.Next` (server-state-machine.go:960-1011). -/
def SWait.nextCert (E : Env) (x : Ctx) (s : SWait) (m : Msg) : Res (SState × List Action × Ctx) :=
  if m.msgType ≠ typeCertificate then alert Alert.unexpectedMessage
  else
    (orAlert Alert.decodeError (safeUnmarshal (CertificateMsg.unmarshal E.parses) m.body)).bind fun c =>
    let sec := s.sec.add (x.bytes m)
    if c.list.length = 0 then .ok (.waitFinished ⟨s.params, sec, []⟩, [], x)
    else .ok (.waitCV ⟨s.cfg, s.params, sec, c⟩, [], x)

/-- `serverStateWaitCV.Next` (server-state-machine.go:1036-1095). -/
def SWaitCV.next (E : Env) (x : Ctx) (s : SWaitCV) (m : Msg) : Res (SState × List Action × Ctx) :=
  if m.msgType ≠ typeCertificateVerify then alert Alert.unexpectedMessage
  else
    (orAlert Alert.decodeError (safeUnmarshal CertVerify.unmarshal m.body)).bind fun cv =>
    (leafKey E s.cert).bind fun pub =>
    if !cv.verify E.P E.S pub (E.P.hash s.sec.cp.hash s.sec.transcript) then alert Alert.handshakeFailure
    else
      let raw := s.cert.list.map (·.1)
      let accepted := match s.cfg.verifyPeer with
        | some f => f raw []
        | none => true
      if !accepted then alert Alert.badCertificate
      else .ok (.waitFinished ⟨s.params, s.sec.add (x.bytes m), raw⟩, [], x)

/-- `serverStateWaitFinished.Next` (server-state-machine.go:1119-1177). -/
def SWaitFinished.next (E : Env) (x : Ctx) (s : SWaitFinished) (m : Msg) : Res (SState × List Action × Ctx) :=
  if m.msgType ≠ typeFinished then alert Alert.unexpectedMessage
  else
    let h := s.sec.cp.hash
    (orAlert Alert.decodeError (safeUnmarshal (Finished.unmarshal h.size) m.body)).bind fun fin =>
    (computeFinishedData E.P h s.sec.clientHs (E.P.hash h s.sec.transcript)).bind fun expected =>
    if fin.verifyData ≠ expected then alert Alert.handshakeFailure
    else
      (deriveSecret E.P h s.sec.master labelResumptionSecret (E.P.hash h (s.sec.transcript ++ x.bytes m))).bind
        fun resumption =>
      (makeTrafficKeys E.P s.sec.cp s.sec.ap.clientAp).bind fun keys =>
      .ok (.connected
          { params := s.params, isClient := false, cp := s.sec.cp, resumption := resumption, clientAp := s.sec.ap.clientAp,
            serverAp := s.sec.ap.serverAp, exporter := s.sec.ap.exporter, peerCerts := s.peerCerts, chains := [] },
        [.rekeyIn epochApplication keys], x)

/-! ### Executions -/

/-- WaitFlight2, which reads nothing, is left at once (the loop conn.go:758-836). -/
def SState.settle : SState → SState
  | .waitFlight2 s => s.nextFlight2
  | s => s

/-- One reading step of the server. The states Negotiated and WaitFlight2, which read nothing, are passed through at once.
Anything read that a state has no use for is reported as close_notify (conn.go:705-723), in WaitEOED as bad_record_mac
(server-state-machine.go:789-799). In the state ReadPastEarlyData records that do not decrypt are skipped; once a record
decrypts the state returns itself without having consumed it, for ever. -/
def SState.step (E : Env) (x : Ctx) (c : Coins) (s : SState) (e : Event) : Res (SState × List Action × Ctx) :=
  match s, e with
  | .readPast, .bad => .ok (.readPast, [], x)
  | .readPast, _ => .diverge
  | .waitEOED s, .appData d => .ok (.waitEOED s, [], { x with earlyData := x.earlyData ++ d })
  | .waitEOED _, .bad => alert Alert.badRecordMAC
  | .connected s, .appData _ => .ok (.connected s, [], x)
  | _, .appData _ => alert Alert.closeNotify
  | _, .bad => alert Alert.closeNotify
  | .start s, .msg m =>
    (s.next E x c m).bind fun (r, x1) =>
    match r with
    | .retry hrr => .ok (.start s, [.queue hrr, .sendQueued], x1)
    | .negotiated n => (n.next E x1 c).bind fun (s', acts, x2) => .ok (s'.settle, acts, x2)
  | .negotiated _, .msg _ => .panic
  | .waitEOED s, .msg m => (s.nextEOED E x m).bind fun (s', acts, x') => .ok (s'.settle, acts, x')
  | .waitFlight2 _, .msg _ => .panic
  | .waitCert s, .msg m => s.nextCert E x m
  | .waitCV s, .msg m => s.next E x m
  | .waitFinished s, .msg m => s.next E x m
  | .connected s, .msg m => (s.process E x c.now m).bind fun (s', acts, x') => .ok (.connected s', acts, x')

/-- A server reading several messages. -/
def SState.run (E : Env) : Ctx → SState → List (Event × Coins) → Res (SState × List Action × Ctx)
  | x, s, [] => .ok (s, [], x)
  | x, s, (e, c) :: es =>
    (s.step E x c e).bind fun (s', acts, x') =>
    (s'.run E x' es).bind fun (s'', acts', x'') => .ok (s'', acts ++ acts', x'')

/-- A server reading messages from the start. -/
def serverRun (E : Env) (x : Ctx) (cfg : Config) (es : List (Event × Coins)) : Res (SState × List Action × Ctx) :=
  SState.run E x (.start ⟨cfg⟩) es

end Verif.Machine
