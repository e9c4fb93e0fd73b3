import Verif.Machine.Client
import Verif.Machine.Server

/-
`Config.ExtensionHandler`, for the messages of the first two flights. The steps are those of Client.lean and Server.lean with the
calls of the handler put in. Not modelled: what the handler remembers between calls, and the calls in `SNegotiated.next`, of which
only the making of the two messages is here.
-/

namespace Verif.Machine

open Verif Verif.Crypto Verif.Messages Verif.Negotiation Verif.Handshake

/-- `AppExtensionHandler` (state-machine.go:43-46): both methods get the type of the message and a pointer to the list. -/
structure AppHandler where
  send : UInt8 → List Ext → Res (List Ext)
  receive : UInt8 → List Ext → Res (List Ext)

/-- `HandshakeTypeHelloRetryRequest` (common.go:40), as given to the handler; the message itself has the type of a ServerHello. -/
def typeRetryForApp : UInt8 := 6

/-- A call of Send, if there is a handler (for instance client-state-machine.go:149-155). -/
def appSend (H : Option AppHandler) (t : UInt8) (el : List Ext) : Res (List Ext) :=
  match H with
  | none => .ok el
  | some h => orAlert Alert.internalError (h.send t el)

/-- A call of Receive, if there is a handler (for instance client-state-machine.go:583-589). -/
def appReceive (H : Option AppHandler) (t : UInt8) (el : List Ext) : Res (List Ext) :=
  match H with
  | none => .ok el
  | some h => orAlert Alert.internalError (h.receive t el)

/-- `clientStateStart.Next` (client-state-machine.go:70-300) with the call at 149-155: after the extensions of mint but for
early_data and pre_shared_key. -/
def CStart.nextApp (H : Option AppHandler) (E : Env) (x : Ctx) (c : Coins) (s : CStart) : Res (CWaitSH × List Action × Ctx) :=
  (makeShares E.D c.dh s.cfg.groups).bind fun shares =>
  match c.random with
  | none => alert Alert.internalError
  | some random =>
    (orAlert Alert.internalError (addAll [] (helloExts s shares))).bind fun own =>
    (appSend H typeClientHello own).bind fun exts =>
    let ch : ClientHello := ⟨wireVersion x, random, [], s.cfg.suites, exts⟩
    let params : ConnParams := { serverName := s.cfg.serverName }
    let offered := shares.map fun k => (k.1, k.2.2)
    match s.cfg.psks s.cfg.serverName with
    | some psk =>
      let sendEarly := s.cfg.allowEarlyData && s.retry.isNone
      (offerPsk E x s.cfg sendEarly c.now psk ch).bind fun o =>
      .ok (⟨s.cfg, { params with clientSendingEarlyData := sendEarly }, offered, o.earlySecret, o.hash, s.firstHello, s.retry,
          o.hello⟩,
        [.queue o.hello, .sendQueued] ++ (if sendEarly then [.rekeyOut epochEarlyData o.keys] else []), o.ctx)
    | none =>
      (orAlert Alert.internalError (mkMsg x (.clientHello ch))).bind fun (hello, x') =>
      .ok (⟨s.cfg, params, offered, [], .none, s.firstHello, s.retry, hello⟩, [.queue hello, .sendQueued], x')

/-- Decoding the ClientHello (server-state-machine.go:91-168) with the call at 126-133. -/
def readHelloApp (H : Option AppHandler) (x : Ctx) (m : Msg) : Res (ClientHello × Offer) :=
  if m.msgType ≠ typeClientHello then alert Alert.unexpectedMessage
  else
    (orAlert Alert.decodeError (safeUnmarshal (ClientHello.unmarshal (wireVersion x)) m.body)).bind fun ch =>
    if ch.version ≠ wireVersion x then alert Alert.decodeError
    else
      (appReceive H typeClientHello ch.exts).bind fun exts =>
      (orAlert Alert.decodeError (parseExts exts offerKinds)).bind fun found =>
      let o := offerOf found
      match o.versions with
      | none => alert Alert.protocolVersion
      | some vs =>
        if (version (vs.map (·.toNat)) [0x0304]).1 then .ok ({ ch with exts := exts }, o) else alert Alert.protocolVersion

/-- `clientStateWaitSH.Next` (client-state-machine.go:325-547) with the calls at 384-390 and 435-441. -/
def CWaitSH.nextApp (H : Option AppHandler) (E : Env) (x : Ctx) (s : CWaitSH) (m : Msg) : Res (CState × List Action × Ctx) :=
  (checkHello s m).bind fun sh =>
  if sh.random.1 = hrrRandom then
    (appReceive H typeRetryForApp sh.exts).bind fun exts =>
    (handleRetry E x s m { sh with exts := exts }).bind fun s' => .ok (.start s', [.resetOut 1], x)
  else
    (appReceive H typeServerHello sh.exts).bind fun exts =>
    (handleHello E x s m { sh with exts := exts }).bind fun (s', acts, x') => .ok (.waitEE s', acts, x')

/-- `clientStateWaitEE.Next` (client-state-machine.go:566-647) with the call at 583-589. -/
def CWaitEE.nextApp (H : Option AppHandler) (E : Env) (x : Ctx) (s : CWaitEE) (m : Msg) : Res (CState × List Action × Ctx) :=
  if m.msgType ≠ typeEncryptedExtensions then alert Alert.unexpectedMessage
  else
    (orAlert Alert.decodeError (safeUnmarshal unmarshalEE m.body)).bind fun got =>
    (appReceive H typeEncryptedExtensions got).bind fun exts =>
    (orAlert Alert.decodeError (parseExts exts [.alpn, .earlyData])).bind fun found =>
    let usingEarly := findEarlyData found
    let params := { s.params with
      usingEarlyData := usingEarly
      nextProto := match findAlpn found with | some (p :: _) => p | _ => s.params.nextProto }
    let sec := s.sec.add (x.bytes m)
    (makeTrafficKeys E.P sec.cp sec.hs.clientHs).bind fun keys =>
    let acts := if params.clientSendingEarlyData && !usingEarly then [.rekeyOut epochHandshake keys] else []
    if params.usingPSK then .ok (.waitFinished ⟨params, sec, s.cfg.certificates, none, [], []⟩, acts, x)
    else .ok (.waitCertCR ⟨s.cfg, params, sec⟩, acts, x)

/-- `generateHRR` (server-state-machine.go:406-445) with the call at 432-438. -/
def makeRetryApp (H : Option AppHandler) (x : Ctx) (suite : UInt16) (sessionId cookie : Bytes) : Res (Msg × Ctx) :=
  (addAll [] [.supportedVersions typeServerHello [tls13Version], .cookie cookie]).bind fun own =>
  (appSend H typeRetryForApp own).bind fun exts =>
  mkMsg x (.serverHello ⟨tls12Version, ⟨hrrRandom, rfl⟩, sessionId, suite, 0, exts⟩)

/-- The ServerHello (server-state-machine.go:474-528) with the call at 515-522. -/
def makeServerHello (H : Option AppHandler) (x : Ctx) (c : Coins) (s : SNegotiated) : Res (Msg × Ctx) :=
  match c.random with
  | none => alert Alert.internalError
  | some random =>
    (orAlert Alert.internalError (addAll [] (serverHelloExts s))).bind fun own =>
    (appSend H typeServerHello own).bind fun exts =>
    orAlert Alert.internalError (mkMsg x (.serverHello ⟨tls12Version, random, s.sessionId, s.params.suite, 0, exts⟩))

/-- The EncryptedExtensions message (server-state-machine.go:587-611) with the call at 597-603. -/
def makeEncryptedExts (H : Option AppHandler) (x : Ctx) (s : SNegotiated) : Res (Msg × Ctx) :=
  (orAlert Alert.internalError (addAll [] (encryptedExts s))).bind fun own =>
  (appSend H typeEncryptedExtensions own).bind fun exts =>
  orAlert Alert.internalError (mkMsg x (.encryptedExtensions exts))

end Verif.Machine
