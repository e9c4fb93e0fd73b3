import Verif.Messages.Extensions
import Verif.Handshake.Layer

/-
Model of handshake-messages.go and of the conversion between messages and bodies in handshake-layer.go.

X.509 is not modelled: a certificate is its DER encoding (`x509.Certificate.Raw`), and `parses` says which byte strings
`x509.ParseCertificate` accepts (for those, `Raw` is the whole input: ParseCertificate refuses trailing data).
-/

namespace Verif.Messages

open Verif Verif.Syntax

/-- `[32]byte`. -/
abbrev Random := { l : Bytes // l.length = 32 }

def randomTy : Ty Random := .array 32 (.uint .w1)

/-- common.go:8-13. -/
def tls13Version : UInt16 := 0x0304
def tls12Version : UInt16 := 0x0303
def dtls12WireVersion : UInt16 := 0xfefd

/-- `ClientHelloBody`, handshake-messages.go:27-33. -/
structure ClientHello where
  version : UInt16
  random : Random
  sessionId : Bytes
  suites : List UInt16
  exts : List Ext
  deriving DecidableEq

/-- `clientHelloBodyInnerTLS`, handshake-messages.go:35-42. -/
def chTlsTy : Ty (UInt16 × Random × Bytes × List UInt16 × Bytes × List Ext × Unit) :=
  .struct (.cons {} (.uint .w2) (.cons {} randomTy (.cons { headerSize := 1, maxSize := 32 } bytesTy
    (.cons { headerSize := 2, minSize := 2 } (.slice (.uint .w2)) (.cons { headerSize := 1, minSize := 1 } bytesTy
      (.cons { headerSize := 2 } (.slice extTy) .nil))))))

/-- `clientHelloBodyInnerDTLS`, handshake-messages.go:44-52. -/
def chDtlsTy : Ty (UInt16 × Random × Bytes × UInt8 × List UInt16 × Bytes × List Ext × Unit) :=
  .struct (.cons {} (.uint .w2) (.cons {} randomTy (.cons { headerSize := 1, maxSize := 32 } bytesTy
    (.cons {} (.uint .w1)
      (.cons { headerSize := 2, minSize := 2 } (.slice (.uint .w2)) (.cons { headerSize := 1, minSize := 1 } bytesTy
        (.cons { headerSize := 2 } (.slice extTy) .nil)))))))

/-- `ClientHelloBody.Marshal`, handshake-messages.go:58-80. -/
def ClientHello.marshal (ch : ClientHello) : Res Bytes :=
  if ch.version = tls12Version then
    Syntax.marshal chTlsTy (ch.version, ch.random, [], ch.suites, [0], ch.exts, ())
  else Syntax.marshal chDtlsTy (ch.version, ch.random, [], 0, ch.suites, [0], ch.exts, ())

/-- `ClientHelloBody.Unmarshal`, handshake-messages.go:81-125; `preset` is the LegacyVersion of the receiver. -/
def ClientHello.unmarshal (preset : UInt16) (bs : Bytes) : Res (ClientHello × Nat) :=
  if preset ≠ dtls12WireVersion then
    (Syntax.unmarshal chTlsTy bs).bind fun ((v, r, sid, cs, comp, exts, _), n) =>
      if comp ≠ [0] then .err .msg else .ok (⟨v, r, sid, cs, exts⟩, n)
  else
    (Syntax.unmarshal chDtlsTy bs).bind fun ((v, r, sid, cookie, cs, comp, exts, _), n) =>
      if cookie ≠ 0 then .err .msg
      else if comp ≠ [0] then .err .msg else .ok (⟨v, r, sid, cs, exts⟩, n)

/-- `ServerHelloBody`, handshake-messages.go:176-183. -/
structure ServerHello where
  version : UInt16
  random : Random
  sessionId : Bytes
  suite : UInt16
  compression : UInt8
  exts : List Ext
  deriving DecidableEq

def shTy : Ty (UInt16 × Random × Bytes × UInt16 × UInt8 × List Ext × Unit) :=
  .struct (.cons {} (.uint .w2) (.cons {} randomTy (.cons { headerSize := 1, maxSize := 32 } bytesTy
    (.cons {} (.uint .w2) (.cons {} (.uint .w1) (.cons { headerSize := 2 } (.slice extTy) .nil))))))

/-- `ServerHelloBody.Marshal`, handshake-messages.go:189-191. -/
def ServerHello.marshal (sh : ServerHello) : Res Bytes :=
  Syntax.marshal shTy (sh.version, sh.random, sh.sessionId, sh.suite, sh.compression, sh.exts, ())

/-- `ServerHelloBody.Unmarshal`, handshake-messages.go:193-195. -/
def ServerHello.unmarshal (bs : Bytes) : Res (ServerHello × Nat) :=
  (Syntax.unmarshal shTy bs).bind fun ((v, r, sid, cs, comp, exts, _), n) => .ok (⟨v, r, sid, cs, comp, exts⟩, n)

/-- `FinishedBody`, handshake-messages.go:210-213. -/
structure Finished where
  verifyDataLen : Nat
  verifyData : Bytes
  deriving DecidableEq

/-- `FinishedBody.Marshal`, handshake-messages.go:219-227. -/
def Finished.marshal (f : Finished) : Res Bytes :=
  if f.verifyData.length ≠ f.verifyDataLen then .err .msg else .ok f.verifyData

/-- `FinishedBody.Unmarshal`, handshake-messages.go:229-237; `len` is the VerifyDataLen of the receiver. -/
def Finished.unmarshal (len : Nat) (bs : Bytes) : Res (Finished × Nat) :=
  if bs.length < len then .err .msg else .ok (⟨len, bs.take len⟩, len)

/-- `certificateEntryInner`, `certificateBodyInner`, handshake-messages.go:281-289: DER encoding and extensions. -/
abbrev CertEntry := Bytes × List Ext × Unit

instance : DecidableEq (List Ext) := inferInstance
instance : DecidableEq CertEntry := inferInstance
instance : DecidableEq (List CertEntry) := inferInstance

def certEntryTy : Ty CertEntry :=
  .struct (.cons { headerSize := 3, minSize := 1 } bytesTy (.cons { headerSize := 2 } (.slice extTy) .nil))
def certTy : Ty (Bytes × List CertEntry × Unit) :=
  .struct (.cons { headerSize := 1 } bytesTy (.cons { headerSize := 3 } (.slice certEntryTy) .nil))

/-- `CertificateBody`, handshake-messages.go:276-279. -/
structure CertificateMsg where
  context : Bytes
  list : List CertEntry
  deriving DecidableEq

/-- `CertificateBody.Marshal`, handshake-messages.go:295-309. -/
def CertificateMsg.marshal (c : CertificateMsg) : Res Bytes := Syntax.marshal certTy (c.context, c.list, ())

/-- `CertificateBody.Unmarshal`, handshake-messages.go:311-331. -/
def CertificateMsg.unmarshal (parses : Bytes → Bool) (bs : Bytes) : Res (CertificateMsg × Nat) :=
  (Syntax.unmarshal certTy bs).bind fun ((ctx, l, _), n) =>
    if l.all (fun e => parses e.1) then .ok (⟨ctx, l⟩, n) else .err .msg

/-- `CertificateVerifyBody`, handshake-messages.go:337-340. -/
structure CertVerify where
  algorithm : UInt16
  signature : Bytes
  deriving DecidableEq

def certVerifyTy : Ty (UInt16 × Bytes × Unit) := .struct (.cons {} (.uint .w2) (.cons { headerSize := 2 } bytesTy .nil))

/-- `CertificateVerifyBody.Marshal`, handshake-messages.go:346-348. -/
def CertVerify.marshal (cv : CertVerify) : Res Bytes := Syntax.marshal certVerifyTy (cv.algorithm, cv.signature, ())

/-- `CertificateVerifyBody.Unmarshal`, handshake-messages.go:350-352. -/
def CertVerify.unmarshal (bs : Bytes) : Res (CertVerify × Nat) :=
  (Syntax.unmarshal certVerifyTy bs).bind fun ((a, s, _), n) => .ok (⟨a, s⟩, n)

/-- "TLS 1.3, server CertificateVerify", handshake-messages.go:357. -/
def certVerifyContext : Bytes :=
  [0x54, 0x4c, 0x53, 0x20, 0x31, 0x2e, 0x33, 0x2c, 0x20, 0x73, 0x65, 0x72, 0x76, 0x65, 0x72, 0x20,
   0x43, 0x65, 0x72, 0x74, 0x69, 0x66, 0x69, 0x63, 0x61, 0x74, 0x65, 0x56, 0x65, 0x72, 0x69, 0x66, 0x79]

/-- `EncodeSignatureInput`, handshake-messages.go:354-363. -/
def signatureInput (data : Bytes) : Bytes :=
  List.replicate 64 0x20 ++ certVerifyContext ++ [0] ++ data

/-- `CertificateVerifyBody.Sign`, handshake-messages.go:365-370. -/
def CertVerify.sign (P : Crypto.Prims) (S : Crypto.Sig) (algorithm : UInt16) (key : Crypto.PrivKey)
    (handshakeHash : Bytes) : Res CertVerify :=
  (Crypto.sign P S algorithm.toNat key (signatureInput handshakeHash)).bind fun s => .ok ⟨algorithm, s⟩

/-- `CertificateVerifyBody.Verify`, handshake-messages.go:372-376. -/
def CertVerify.verify (P : Crypto.Prims) (S : Crypto.Sig) (cv : CertVerify) (key : Crypto.PubKey)
    (handshakeHash : Bytes) : Bool :=
  Crypto.verify P S cv.algorithm.toNat key (signatureInput handshakeHash) cv.signature

/-- `CertificateRequestBody`, handshake-messages.go:382-385. -/
structure CertRequest where
  context : Bytes
  exts : List Ext
  deriving DecidableEq

def certRequestTy : Ty (Bytes × List Ext × Unit) :=
  .struct (.cons { headerSize := 1 } bytesTy (.cons { headerSize := 2 } (.slice extTy) .nil))

/-- `CertificateRequestBody.Marshal`, handshake-messages.go:391-393. -/
def CertRequest.marshal (cr : CertRequest) : Res Bytes := Syntax.marshal certRequestTy (cr.context, cr.exts, ())

/-- `CertificateRequestBody.Unmarshal`, handshake-messages.go:395-397. -/
def CertRequest.unmarshal (bs : Bytes) : Res (CertRequest × Nat) :=
  (Syntax.unmarshal certRequestTy bs).bind fun ((c, e, _), n) => .ok (⟨c, e⟩, n)

/-- `NewSessionTicketBody`, handshake-messages.go:406-412. -/
structure Ticket where
  lifetime : UInt32
  ageAdd : UInt32
  nonce : Bytes
  ticket : Bytes
  exts : List Ext
  deriving DecidableEq

def ticketTy : Ty (UInt32 × UInt32 × Bytes × Bytes × List Ext × Unit) :=
  .struct (.cons {} (.uint .w4) (.cons {} (.uint .w4) (.cons { headerSize := 1 } bytesTy
    (.cons { headerSize := 2, minSize := 1 } bytesTy (.cons { headerSize := 2 } (.slice extTy) .nil)))))

/-- `NewSessionTicketBody.Marshal`, handshake-messages.go:437-439. -/
def Ticket.marshal (t : Ticket) : Res Bytes :=
  Syntax.marshal ticketTy (t.lifetime, t.ageAdd, t.nonce, t.ticket, t.exts, ())

/-- `NewSessionTicketBody.Unmarshal`, handshake-messages.go:441-443. -/
def Ticket.unmarshal (bs : Bytes) : Res (Ticket × Nat) :=
  (Syntax.unmarshal ticketTy bs).bind fun ((l, a, n, t, e, _), r) => .ok (⟨l, a, n, t, e⟩, r)

/-- Any `HandshakeMessageBody`. -/
inductive Body where
  | clientHello (ch : ClientHello)
  | serverHello (sh : ServerHello)
  | encryptedExtensions (exts : List Ext)
  | certificate (c : CertificateMsg)
  | certificateRequest (cr : CertRequest)
  | certificateVerify (cv : CertVerify)
  | finished (f : Finished)
  | newSessionTicket (t : Ticket)
  | keyUpdate (request : UInt8)
  | endOfEarlyData
  deriving DecidableEq

/-- `EncryptedExtensionsBody`, handshake-messages.go:244-246. -/
def eeTy : Ty (List Ext × Unit) := .struct (.cons { headerSize := 2 } (.slice extTy) .nil)

/-- `KeyUpdateBody`, handshake-messages.go:452-454. -/
def keyUpdateTy : Ty (UInt8 × Unit) := .struct (.cons {} (.uint .w1) .nil)

/-- The `Type` methods. -/
def Body.type : Body → UInt8
  | .clientHello _ => typeClientHello
  | .serverHello _ => typeServerHello
  | .encryptedExtensions _ => typeEncryptedExtensions
  | .certificate _ => typeCertificate
  | .certificateRequest _ => typeCertificateRequest
  | .certificateVerify _ => typeCertificateVerify
  | .finished _ => typeFinished
  | .newSessionTicket _ => typeNewSessionTicket
  | .keyUpdate _ => typeKeyUpdate
  | .endOfEarlyData => typeEndOfEarlyData

/-- The `Marshal` methods. -/
def Body.marshal : Body → Res Bytes
  | .clientHello ch => ch.marshal
  | .serverHello sh => sh.marshal
  -- handshake-messages.go:252-254
  | .encryptedExtensions exts => Syntax.marshal eeTy (exts, ())
  | .certificate c => c.marshal
  | .certificateRequest cr => cr.marshal
  | .certificateVerify cv => cv.marshal
  | .finished f => f.marshal
  | .newSessionTicket t => t.marshal
  -- handshake-messages.go:460-462
  | .keyUpdate r => Syntax.marshal keyUpdateTy (r, ())
  -- handshake-messages.go:475-477
  | .endOfEarlyData => .ok []

/-- `EncryptedExtensionsBody.Unmarshal`, handshake-messages.go:256-258. -/
def unmarshalEE (bs : Bytes) : Res (List Ext × Nat) := (Syntax.unmarshal eeTy bs).bind fun (v, n) => .ok (v.1, n)

/-- `KeyUpdateBody.Unmarshal`, handshake-messages.go:464-466. -/
def unmarshalKeyUpdate (bs : Bytes) : Res (UInt8 × Nat) :=
  (Syntax.unmarshal keyUpdateTy bs).bind fun (v, n) => .ok (v.1, n)

/-- `HandshakeMessage.ToBody`, handshake-layer.go:70-101. -/
def toBody (parses : Bytes → Bool) (msgType : UInt8) (body : Bytes) : Res Body :=
  if msgType = typeClientHello then (safeUnmarshal (ClientHello.unmarshal 0) body).bind fun b => .ok (.clientHello b)
  else if msgType = typeServerHello then (safeUnmarshal ServerHello.unmarshal body).bind fun b => .ok (.serverHello b)
  else if msgType = typeEncryptedExtensions then
    (safeUnmarshal unmarshalEE body).bind fun b => .ok (.encryptedExtensions b)
  else if msgType = typeCertificate then
    (safeUnmarshal (CertificateMsg.unmarshal parses) body).bind fun b => .ok (.certificate b)
  else if msgType = typeCertificateRequest then
    (safeUnmarshal CertRequest.unmarshal body).bind fun b => .ok (.certificateRequest b)
  else if msgType = typeCertificateVerify then
    (safeUnmarshal CertVerify.unmarshal body).bind fun b => .ok (.certificateVerify b)
  else if msgType = typeFinished then
    (safeUnmarshal (Finished.unmarshal body.length) body).bind fun b => .ok (.finished b)
  else if msgType = typeNewSessionTicket then
    (safeUnmarshal Ticket.unmarshal body).bind fun b => .ok (.newSessionTicket b)
  else if msgType = typeKeyUpdate then (safeUnmarshal unmarshalKeyUpdate body).bind fun b => .ok (.keyUpdate b)
  else if msgType = typeEndOfEarlyData then
    -- EndOfEarlyDataBody.Unmarshal, handshake-messages.go:479-481, reads nothing
    (safeUnmarshal (fun _ => .ok ((), 0)) body).bind fun _ => .ok .endOfEarlyData
  else .err .msg

/-- `ClientHelloBody.Truncated`, handshake-messages.go:128-166. A negative slice bound is a runtime panic. -/
def ClientHello.truncated (ch : ClientHello) : Res Bytes :=
  match ch.exts.getLast? with
  | none => .err .msg
  | some pskExt =>
    if pskExt.1 ≠ ExtKind.type (.preSharedKey typeClientHello) then .err .msg
    else ch.marshal.bind fun body =>
      let chData := Handshake.Msg.marshal false ⟨typeClientHello, 0, body, 0, body.length % 2 ^ 32⟩
      (ExtKind.unmarshal (.preSharedKey typeClientHello) pskExt.2.1).bind fun (psk, _) =>
        match psk with
        | .preSharedKey _ _ binders _ =>
          let binderLen := match Syntax.marshal bindersTy (binders, ()) with
            | .ok d => d.length
            | _ => 0
          if chData.length < binderLen then .panic else .ok (chData.take (chData.length - binderLen))
        | _ => .err .msg

end Verif.Messages
