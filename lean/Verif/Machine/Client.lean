import Verif.Machine.Common

/-
Model of client-state-machine.go: the Next method of each state, as a function of the state, what is read, and what is
drawn from outside. An alert is returned as the error `.alert code`.
-/

namespace Verif.Machine

open Verif Verif.Crypto Verif.Messages Verif.Negotiation Verif.Handshake

/-! ### States -/

/-- `clientStateStart` (client-state-machine.go:54-63). Opts are the server name and protocols of the configuration
(conn.go:655-658). `firstHello` is the body of the synthetic message_hash message. -/
structure CStart where
  cfg : Config
  cookie : Option Bytes := none
  firstHello : Option Bytes := none
  retry : Option Msg := none

/-- `clientStateWaitSH` (client-state-machine.go:302-318). `offeredDH` lists the entries of the map in the order in which
they were made. -/
structure CWaitSH where
  cfg : Config
  params : ConnParams
  offeredDH : List (UInt16 × Bytes)
  earlySecret : Bytes
  earlyHash : HashId
  firstHello : Option Bytes
  retry : Option Msg
  clientHello : Msg

/-- The fields common to the later states: cryptoParams, handshakeHash, masterSecret, and the handshake traffic secrets. -/
structure CSecrets where
  cp : Params
  transcript : Bytes
  hs : HsSecrets

/-- Adding to the transcript. -/
def CSecrets.add (s : CSecrets) (b : Bytes) : CSecrets := { s with transcript := s.transcript ++ b }

/-- `clientStateWaitEE`, `clientStateWaitCertCR` (client-state-machine.go:549-558, 649-658). -/
structure CWaitEE where
  cfg : Config
  params : ConnParams
  sec : CSecrets

/-- `clientStateWaitCert` (client-state-machine.go:727-739). -/
structure CWaitCert where
  cfg : Config
  params : ConnParams
  sec : CSecrets
  request : CertRequest

/-- `clientStateWaitCV` (client-state-machine.go:781-794). -/
structure CWaitCV where
  cfg : Config
  params : ConnParams
  sec : CSecrets
  cert : CertificateMsg
  request : Option CertRequest

/-- `clientStateWaitFinished` (client-state-machine.go:883-897). -/
structure CWaitFinished where
  params : ConnParams
  sec : CSecrets
  certificates : List Cert
  request : Option CertRequest
  peerCerts : List Bytes
  chains : List (List Bytes)

inductive CState where
  | start (s : CStart)
  | waitSH (s : CWaitSH)
  | waitEE (s : CWaitEE)
  | waitCertCR (s : CWaitEE)
  | waitCert (s : CWaitCert)
  | waitCV (s : CWaitCV)
  | waitFinished (s : CWaitFinished)
  | connected (s : Connected)

/-! ### Start (client-state-machine.go:70-300) -/

/-- One key share per configured group (72-88): (group, public, private). -/
def makeShares (D : Dh) : Nat → List UInt16 → Res (List (UInt16 × Bytes × Bytes))
  | _, [] => .ok []
  | n, g :: gs =>
    (orAlert Alert.internalError (newKeyShare D n g.toNat)).bind fun (pub, priv) =>
    (makeShares D (n + 1) gs).bind fun rest => .ok ((g, pub, priv) :: rest)

/-- The extensions of a ClientHello but for early_data and pre_shared_key (93-148), in the order in which they are added. -/
def helloExts (s : CStart) (shares : List (UInt16 × Bytes × Bytes)) : List ExtBody :=
  [.supportedVersions typeClientHello [tls13Version], .serverName s.cfg.serverName,
    .keyShare typeClientHello 0 (shares.map fun k => (k.1, k.2.1, ())), .supportedGroups s.cfg.groups,
    .signatureAlgorithms s.cfg.schemes] ++
  (if s.cfg.nextProtos.length > 0 then [.alpn s.cfg.nextProtos] else []) ++
  (match s.cookie with | some c => [.cookie c] | none => []) ++
  (if s.cfg.pskModes.length ≠ 0 then [.pskModes s.cfg.pskModes] else [])

/-- The suites whose hash function is that of the PSK (178-184); an unknown suite has the zero hash. -/
def compatibleSuites (h : HashId) (suites : List UInt16) : List UInt16 :=
  suites.filter fun c => decide ((match suiteParams c.toNat with | some p => p.hash | none => .none) = h)

/-- The pre_shared_key extension with the given binder (206-219). -/
def pskExt (psk : Psk) (now : Int) (binder : Bytes) : ExtBody :=
  .preSharedKey typeClientHello [(psk.identity, sinceMs now psk.receivedAt + psk.ticketAgeAdd, ())] [(binder, ())] 0

/-- An Add whose error is ignored (220, 249). -/
def addIgnore (el : List Ext) (b : ExtBody) : Res (List Ext) :=
  match addExt el b with
  | .err _ => .ok el
  | r => r

/-- What offering a PSK leads to: the message, the early secret, and the keys for early data. -/
structure PskOffer where
  hello : Msg
  earlySecret : Bytes
  hash : HashId
  keys : Keys
  ctx : Ctx

/-- The PSK branch (170-261). `sendEarly` is `AllowEarlyData && helloRetryRequest == nil`. A nil clientHello (error ignored
at 254) is dereferenced when it is queued. -/
def offerPsk (E : Env) (x : Ctx) (cfg : Config) (sendEarly : Bool) (now : Int) (psk : Psk) (ch : ClientHello) :
    Res PskOffer :=
  match suiteParams psk.suite with
  | none => alert Alert.internalError
  | some p =>
    let ch := { ch with suites := compatibleSuites p.hash ch.suites }
    (if sendEarly then orAlert Alert.internalError (addExt ch.exts .earlyData) else .ok ch.exts).bind fun exts =>
    if cfg.pskModes.length = 0 then alert Alert.internalError
    else
      (addIgnore exts (pskExt psk now (zeros p.hash))).bind fun exts =>
      let ch := { ch with exts := exts }
      let earlySecret := hkdfExtract E.P p.hash (some (zeros p.hash)) psk.key
      let label := if psk.isResumption then labelResumptionBinder else labelExternalBinder
      (deriveSecret E.P p.hash earlySecret label (E.P.hash p.hash [])).bind fun binderKey =>
      (orAlert Alert.internalError ch.truncated).bind fun trunc =>
      (computeFinishedData E.P p.hash binderKey (E.P.hash p.hash trunc)).bind fun binder =>
      (addIgnore ch.exts (pskExt psk now binder)).bind fun exts =>
      let ch := { ch with exts := exts }
      match mkMsg x (.clientHello ch) with
      | .ok (hello, x') =>
        (earlyTraffic E.P p.hash earlySecret (x.bytes hello)).bind fun early =>
        (makeTrafficKeys E.P p early).bind fun keys => .ok ⟨hello, earlySecret, p.hash, keys, x'⟩
      | .err _ => .panic
      | .panic => .panic
      | .diverge => .diverge

/-- `clientStateStart.Next` (client-state-machine.go:70-300). -/
def CStart.next (E : Env) (x : Ctx) (c : Coins) (s : CStart) : Res (CWaitSH × List Action × Ctx) :=
  (makeShares E.D c.dh s.cfg.groups).bind fun shares =>
  match c.random with
  | none => alert Alert.internalError
  | some random =>
    (orAlert Alert.internalError (addAll [] (helloExts s shares))).bind fun exts =>
    let ch : ClientHello := ⟨wireVersion x, random, [], s.cfg.suites, exts⟩
    let params : ConnParams := { serverName := s.cfg.serverName }
    let offered := shares.map fun k => (k.1, k.2.2)
    match s.cfg.psks s.cfg.serverName with
    | some psk =>
      let sendEarly := s.cfg.allowEarlyData && s.retry.isNone
      (offerPsk E x s.cfg sendEarly c.now psk ch).bind fun o =>
      .ok (⟨s.cfg, { params with clientSendingEarlyData := sendEarly }, offered, o.earlySecret, o.hash, s.firstHello, s.retry,
          o.hello⟩,
        [.queue o.hello, .sendQueued] ++ (if sendEarly then [.rekeyOut epochEarlyData o.keys] else []), o.ctx)
    | none =>
      (orAlert Alert.internalError (mkMsg x (.clientHello ch))).bind fun (hello, x') =>
      .ok (⟨s.cfg, params, offered, [], .none, s.firstHello, s.retry, hello⟩, [.queue hello, .sendQueued], x')

/-! ### WaitSH (client-state-machine.go:325-547) -/

/-- `hrrRandomSentinel`, common.go:51-56. -/
def hrrRandom : Bytes :=
  [0xcf, 0x21, 0xad, 0x74, 0xe5, 0x9a, 0x61, 0x11, 0xbe, 0x1d, 0x8c, 0x02, 0x1e, 0x65, 0xb8, 0x91,
   0xc2, 0xa2, 0x11, 0x16, 0x7a, 0xbb, 0x8c, 0x5e, 0x07, 0x9e, 0x09, 0xe2, 0xc8, 0xa8, 0x33, 0x9c]

/-- The common processing of ServerHello and HelloRetryRequest (331-373). -/
def checkHello (s : CWaitSH) (m : Msg) : Res ServerHello :=
  if m.msgType ≠ typeServerHello then alert Alert.unexpectedMessage
  else
    (orAlert Alert.unexpectedMessage (ServerHello.unmarshal m.body)).bind fun (sh, _) =>
    if sh.version ≠ tls12Version then alert Alert.illegalParameter
    else
      (orAlert Alert.decodeError (findExt (.supportedVersions typeServerHello) sh.exts)).bind fun found =>
      match found with
      | some (.supportedVersions _ (v :: _)) =>
        if v ≠ tls13Version then alert Alert.protocolVersion
        else if !s.cfg.suites.any (· == sh.suite) then alert Alert.handshakeFailure
        else .ok sh
      | some (.supportedVersions _ []) => .panic
      | some _ => .panic
      | none => alert Alert.missingExtension

/-- HelloRetryRequest (378-427). An unknown suite has the zero hash, whose New panics (402). -/
def handleRetry (E : Env) (x : Ctx) (s : CWaitSH) (m : Msg) (hrr : ServerHello) : Res CStart :=
  (orAlert Alert.decodeError (findExt .cookie hrr.exts)).bind fun found =>
  match found with
  | some (.cookie c) =>
    if hrr.exts.length ≠ 2 then alert Alert.illegalParameter
    else
      match suiteParams hrr.suite.toNat with
      | none => .panic
      | some p =>
        .ok { cfg := { s.cfg with suites := [hrr.suite] }, cookie := some c,
              firstHello := some (E.P.hash p.hash (x.bytes s.clientHello)), retry := some m }
  | some _ => .panic
  | none => alert Alert.illegalParameter

/-- Lookup in the map of private keys: of several entries for a group the last one is there. -/
def lookupDH (l : List (UInt16 × Bytes)) (g : UInt16) : Option Bytes :=
  (l.reverse.find? fun e => e.1 == g).map (·.2)

/-- Key agreement with the server's share (463-472): whether there was a share, and the shared secret; an error of
keyAgreement is ignored. -/
def clientDH (E : Env) (s : CWaitSH) (shares : Option (List KeyShareEntry)) : Res (Bool × Option Bytes) :=
  match shares with
  | none => .ok (false, none)
  | some [] => .panic
  | some (sks :: _) =>
    match lookupDH s.offeredDH sks.1 with
    | none => alert Alert.illegalParameter
    | some priv =>
      match keyAgreement E.D sks.1.toNat sks.2.1 priv with
      | .ok secret => .ok (true, some secret)
      | .err _ => .ok (true, none)
      | .panic => .panic
      | .diverge => .diverge

/-- ServerHello (443-546). -/
def handleHello (E : Env) (x : Ctx) (s : CWaitSH) (m : Msg) (sh : ServerHello) : Res (CWaitEE × List Action × Ctx) :=
  (orAlert Alert.decodeError (parseExts sh.exts [.preSharedKey typeServerHello, .keyShare typeServerHello])).bind fun found =>
  let usingPSK := match findPsk found with
    | some (_, _, selected) => selected == 0
    | none => false
  (clientDH E s (findShares found)).bind fun (usingDH, dhSecret) =>
  let params := { s.params with usingPSK := usingPSK, usingDH := usingDH, suite := sh.suite }
  match suiteParams sh.suite.toNat with
  | none => alert Alert.handshakeFailure
  | some p =>
    let transcript := hashMsgBytes s.firstHello ++ x.bytesOpt s.retry ++ x.bytes s.clientHello ++ x.bytes m
    let early := if usingPSK then s.earlySecret else hkdfExtract E.P p.hash (some (zeros p.hash)) (zeros p.hash)
    (hsSecrets E.P p.hash early dhSecret transcript).bind fun hs =>
    (makeTrafficKeys E.P p hs.serverHs).bind fun serverKeys =>
    (makeTrafficKeys E.P p hs.clientHs).bind fun clientKeys =>
    .ok (⟨s.cfg, params, ⟨p, transcript, hs⟩⟩,
      .rekeyIn epochHandshake serverKeys ::
        (if !params.clientSendingEarlyData then [.rekeyOut epochHandshake clientKeys] else []), x)

/-- `clientStateWaitSH.Next` (client-state-machine.go:325-547). -/
def CWaitSH.next (E : Env) (x : Ctx) (s : CWaitSH) (m : Msg) : Res (CState × List Action × Ctx) :=
  (checkHello s m).bind fun sh =>
  if sh.random.1 = hrrRandom then
    (handleRetry E x s m sh).bind fun s' => .ok (.start s', [.resetOut 1], x)
  else (handleHello E x s m sh).bind fun (s', acts, x') => .ok (.waitEE s', acts, x')

/-! ### The later states -/

/-- `clientStateWaitEE.Next` (client-state-machine.go:566-647). -/
def CWaitEE.next (E : Env) (x : Ctx) (s : CWaitEE) (m : Msg) : Res (CState × List Action × Ctx) :=
  if m.msgType ≠ typeEncryptedExtensions then alert Alert.unexpectedMessage
  else
    (orAlert Alert.decodeError (safeUnmarshal unmarshalEE m.body)).bind fun exts =>
    (orAlert Alert.decodeError (parseExts exts [.alpn, .earlyData])).bind fun found =>
    let usingEarly := findEarlyData found
    let params := { s.params with
      usingEarlyData := usingEarly
      nextProto := match findAlpn found with | some (p :: _) => p | _ => s.params.nextProto }
    let sec := s.sec.add (x.bytes m)
    (makeTrafficKeys E.P sec.cp sec.hs.clientHs).bind fun keys =>
    let acts := if params.clientSendingEarlyData && !usingEarly then [.rekeyOut epochHandshake keys] else []
    if params.usingPSK then .ok (.waitFinished ⟨params, sec, s.cfg.certificates, none, [], []⟩, acts, x)
    else .ok (.waitCertCR ⟨s.cfg, params, sec⟩, acts, x)

/-- `clientStateWaitCertCR.Next` (client-state-machine.go:666-725). -/
def CWaitEE.nextCertCR (E : Env) (x : Ctx) (s : CWaitEE) (m : Msg) : Res (CState × List Action × Ctx) :=
  (orAlert Alert.decodeError (toBody E.parses m.msgType m.body)).bind fun body =>
  let sec := s.sec.add (x.bytes m)
  match body with
  | .certificate c => .ok (.waitCV ⟨s.cfg, s.params, sec, c, none⟩, [], x)
  | .certificateRequest r =>
    if r.context.length > 0 then alert Alert.illegalParameter
    else .ok (.waitCert ⟨s.cfg, { s.params with usingClientAuth := true }, sec, r⟩, [], x)
  | _ => alert Alert.unexpectedMessage

/-- `clientStateWaitCert.Next` (client-state-machine.go:747-779). -/
def CWaitCert.next (E : Env) (x : Ctx) (s : CWaitCert) (m : Msg) : Res (CState × List Action × Ctx) :=
  if m.msgType ≠ typeCertificate then alert Alert.unexpectedMessage
  else
    (orAlert Alert.decodeError (safeUnmarshal (CertificateMsg.unmarshal E.parses) m.body)).bind fun c =>
    .ok (.waitCV ⟨s.cfg, s.params, s.sec.add (x.bytes m), c, some s.request⟩, [], x)

/-- The public key of the first certificate (client-state-machine.go:821, server-state-machine.go:1067). -/
def leafKey (E : Env) (c : CertificateMsg) : Res PubKey :=
  match c.list with
  | [] => .panic
  | e :: _ =>
    match E.x509 e.1 with
    | some cert => .ok cert.pub
    | none => .panic

/-- `clientStateWaitCV.Next` (client-state-machine.go:802-881). -/
def CWaitCV.next (E : Env) (x : Ctx) (c : Coins) (s : CWaitCV) (m : Msg) : Res (CState × List Action × Ctx) :=
  if m.msgType ≠ typeCertificateVerify then alert Alert.unexpectedMessage
  else
    (orAlert Alert.decodeError (safeUnmarshal CertVerify.unmarshal m.body)).bind fun cv =>
    (leafKey E s.cert).bind fun pub =>
    if !cv.verify E.P E.S pub (E.P.hash s.sec.cp.hash s.sec.transcript) then alert Alert.handshakeFailure
    else
      let raw := s.cert.list.map (·.1)
      let chains := if s.cfg.insecureSkipVerify then some [] else s.cfg.verify c.now s.cfg.serverName raw
      match chains with
      | none => alert Alert.badCertificate
      | some chains =>
        let accepted := match s.cfg.verifyPeer with
          | some f => f raw chains
          | none => true
        if !accepted then alert Alert.badCertificate
        else .ok (.waitFinished ⟨s.params, s.sec.add (x.bytes m), s.cfg.certificates, s.request, raw, chains⟩, [], x)

/-- EndOfEarlyData, if early data is used (client-state-machine.go:958-975). -/
def clientEOED (E : Env) (x : Ctx) (s : CWaitFinished) (transcript : Bytes) : Res (List Action × Bytes × Ctx) :=
  if s.params.usingEarlyData then
    (mkMsg x .endOfEarlyData).bind fun (m, x') =>
    (makeTrafficKeys E.P s.sec.cp s.sec.hs.clientHs).bind fun keys =>
    .ok ([.queue m, .rekeyOut epochHandshake keys], transcript ++ x.bytes m, x')
  else .ok ([], transcript, x)

/-- Certificate and CertificateVerify of the client (client-state-machine.go:977-1044). -/
def clientAuth (E : Env) (x : Ctx) (s : CWaitFinished) (transcript : Bytes) : Res (List Action × Bytes × Ctx) :=
  if s.params.usingClientAuth then
    match s.request with
    | none => .panic
    | some r =>
      (orAlert Alert.decodeError (findExt .signatureAlgorithms r.exts)).bind fun found =>
      match found with
      | some (.signatureAlgorithms schemes) =>
        match certificate none (schemes.map (·.toNat)) s.certificates with
        | .err _ =>
          (orAlert Alert.internalError (mkMsg x (.certificate ⟨[], []⟩))).bind fun (m, x') =>
          .ok ([.queue m], transcript ++ x.bytes m, x')
        | .ok (cert, scheme) =>
          (orAlert Alert.internalError (mkMsg x (certBody cert))).bind fun (m, x1) =>
          let transcript := transcript ++ x.bytes m
          (orAlert Alert.internalError
            (CertVerify.sign E.P E.S (UInt16.ofNat scheme) cert.key (E.P.hash s.sec.cp.hash transcript))).bind fun cv =>
          (orAlert Alert.internalError (mkMsg x1 (.certificateVerify cv))).bind fun (mv, x2) =>
          .ok ([.queue m, .queue mv], transcript ++ x.bytes mv, x2)
        | .panic => .panic
        | .diverge => .diverge
      | some _ => .panic
      | none => alert Alert.illegalParameter
  else .ok ([], transcript, x)

/-- `clientStateWaitFinished.Next` (client-state-machine.go:905-1087). -/
def CWaitFinished.next (E : Env) (x : Ctx) (s : CWaitFinished) (m : Msg) : Res (CState × List Action × Ctx) :=
  if m.msgType ≠ typeFinished then alert Alert.unexpectedMessage
  else
    let h := s.sec.cp.hash
    (computeFinishedData E.P h s.sec.hs.serverHs (E.P.hash h s.sec.transcript)).bind fun expected =>
    (orAlert Alert.decodeError (safeUnmarshal (Finished.unmarshal expected.length) m.body)).bind fun fin =>
    if fin.verifyData ≠ expected then alert Alert.handshakeFailure
    else
      let transcript4 := s.sec.transcript ++ x.bytes m
      (apSecrets E.P h s.sec.hs.master transcript4).bind fun ap =>
      (makeTrafficKeys E.P s.sec.cp ap.clientAp).bind fun clientKeys =>
      (makeTrafficKeys E.P s.sec.cp ap.serverAp).bind fun serverKeys =>
      (clientEOED E x s transcript4).bind fun (acts1, transcript, x1) =>
      (clientAuth E x1 s transcript).bind fun (acts2, transcript5, x2) =>
      (computeFinishedData E.P h s.sec.hs.clientHs (E.P.hash h transcript5)).bind fun verifyData =>
      (orAlert Alert.internalError (mkMsg x2 (.finished ⟨verifyData.length, verifyData⟩))).bind fun (finm, x3) =>
      let transcript6 := transcript5 ++ x2.bytes finm
      (deriveSecret E.P h s.sec.hs.master labelResumptionSecret (E.P.hash h transcript6)).bind fun resumption =>
      .ok (.connected
          { params := s.params, isClient := true, cp := s.sec.cp, resumption := resumption, clientAp := ap.clientAp,
            serverAp := ap.serverAp, exporter := ap.exporter, peerCerts := s.peerCerts, chains := s.chains },
        acts1 ++ acts2 ++
          [.queue finm, .sendQueued, .rekeyIn epochApplication serverKeys, .rekeyOut epochApplication clientKeys], x3)

/-! ### Executions -/

/-- One reading step of the client. After a HelloRetryRequest the start state, which reads nothing, follows at once (the
loop conn.go:758-836). Anything read during the handshake that is not a handshake message is reported as close_notify
(conn.go:705-723); a connected client takes application data. -/
def CState.step (E : Env) (x : Ctx) (c : Coins) (s : CState) (e : Event) : Res (CState × List Action × Ctx) :=
  match e with
  | .msg m =>
    match s with
    | .start _ => .panic
    | .waitSH s =>
      (s.next E x m).bind fun (s', acts, x') =>
      match s' with
      | .start s'' => (s''.next E x' c).bind fun (w, acts', x'') => .ok (.waitSH w, acts ++ acts', x'')
      | s' => .ok (s', acts, x')
    | .waitEE s => s.next E x m
    | .waitCertCR s => s.nextCertCR E x m
    | .waitCert s => s.next E x m
    | .waitCV s => s.next E x c m
    | .waitFinished s => s.next E x m
    | .connected s => (s.process E x c.now m).bind fun (s', acts, x') => .ok (.connected s', acts, x')
  | .appData _ =>
    match s with
    | .connected s => .ok (.connected s, [], x)
    | _ => alert Alert.closeNotify
  | .bad => alert Alert.closeNotify

/-- A client reading several messages. -/
def CState.run (E : Env) : Ctx → CState → List (Event × Coins) → Res (CState × List Action × Ctx)
  | x, s, [] => .ok (s, [], x)
  | x, s, (e, c) :: es =>
    (s.step E x c e).bind fun (s', acts, x') =>
    (s'.run E x' es).bind fun (s'', acts', x'') => .ok (s'', acts ++ acts', x'')

/-- A client: it sends its ClientHello and reads messages. -/
def clientRun (E : Env) (x : Ctx) (cfg : Config) (c : Coins) (es : List (Event × Coins)) :
    Res (CState × List Action × Ctx) :=
  (({ cfg := cfg } : CStart).next E x c).bind fun (w, acts, x') =>
  (CState.run E x' (.waitSH w) es).bind fun (s, acts', x'') => .ok (s, acts ++ acts', x'')

end Verif.Machine
