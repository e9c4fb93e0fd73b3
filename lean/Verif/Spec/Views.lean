import Verif.Spec.Handshake
import Verif.Spec.Messages

/-
What a completed handshake is, at either end, in terms of the messages on the wire, the configuration and the formulas
of RFC 8446, section 7.1: no state of a machine occurs here but for the connection it ends in.
-/

namespace Verif.Spec

open Verif Verif.Crypto Verif.Messages Verif.Negotiation Verif.Handshake Verif.Machine

/-! ### The server's flight and the secrets that follow from it -/

/-- The transcript of the hellos, the server's flight, and what the key schedule starts from. -/
structure Flight where
  h : HashId
  early : Bytes
  dh : Option Bytes
  hellos : Bytes
  sh : Msg
  ee : Msg
  auth : List Msg
  fin : Msg

namespace Flight

def handshake (F : Flight) (P : Prims) : Bytes := handshakeSecret P F.h F.early F.dh
def master (F : Flight) (P : Prims) : Bytes := masterSecret P F.h (F.handshake P)
/-- ClientHello…ServerHello -/
def toServerHello (F : Flight) (d : Bool) : Bytes := F.hellos ++ wire d [F.sh]
/-- ClientHello…the last message before the server's Finished -/
def toServerAuth (F : Flight) (d : Bool) : Bytes := F.toServerHello d ++ wire d (F.ee :: F.auth)
/-- ClientHello…server Finished -/
def toFinished (F : Flight) (d : Bool) : Bytes := F.toServerAuth d ++ wire d [F.fin]
def clientHs (F : Flight) (P : Prims) (d : Bool) : Bytes := clientHsTraffic P F.h (F.handshake P) (F.toServerHello d)
def serverHs (F : Flight) (P : Prims) (d : Bool) : Bytes := serverHsTraffic P F.h (F.handshake P) (F.toServerHello d)
def clientAp (F : Flight) (P : Prims) (d : Bool) : Bytes := clientApTraffic P F.h (F.master P) (F.toFinished d)
def serverAp (F : Flight) (P : Prims) (d : Bool) : Bytes := serverApTraffic P F.h (F.master P) (F.toFinished d)
def exporter (F : Flight) (P : Prims) (d : Bool) : Bytes := exporterMaster P F.h (F.master P) (F.toFinished d)
/-- The verify data of the server's Finished. -/
def serverVerify (F : Flight) (P : Prims) (d : Bool) : Bytes := finishedMac P F.h (F.serverHs P d) (F.toServerAuth d)
/-- The verify data of the client's Finished; `ms` are the messages the client sends before it. -/
def clientVerify (F : Flight) (P : Prims) (d : Bool) (ms : List Msg) : Bytes :=
  finishedMac P F.h (F.clientHs P d) (F.toFinished d ++ wire d ms)
/-- The resumption secret; `ms` are the messages of the client's last flight. -/
def resumption (F : Flight) (P : Prims) (d : Bool) (ms : List Msg) : Bytes :=
  resumptionMaster P F.h (F.master P) (F.toFinished d ++ wire d ms)

end Flight

/-- The traffic secret after `n` key updates. RFC 8446, 7.2 uses the label "traffic upd"; mint uses the label of the first
secret. -/
def updates (P : Prims) (h : HashId) (label : Bytes) : Nat → Bytes → Bytes
  | 0, s => s
  | n + 1, s => updates P h label n (expandLabel P h s label [] h.size)

/-- The number of KeyUpdate messages. -/
def keyUpdates (ms : List Msg) : Nat := (ms.filter fun m => m.msgType == 24).length

/-- The secrets of a connection after the handshake `F`, the client's last flight `ms`, and `nc` and `ns` updates of the
client's and the server's keys. -/
structure HasSecrets (P : Prims) (d : Bool) (F : Flight) (ms : List Msg) (nc ns : Nat) (s : Connected) : Prop where
  exporter : s.exporter = F.exporter P d
  resumption : s.resumption = F.resumption P d ms
  clientAp : s.clientAp = updates P F.h (ascii "c ap traffic") nc (F.clientAp P d)
  serverAp : s.serverAp = updates P F.h (ascii "s ap traffic") ns (F.serverAp P d)

/-! ### Contents of messages -/

/-- Whether there is an extension of a type. -/
def hasExt (t : UInt16) (exts : List Ext) : Bool := exts.any fun e => e.1 == t

/-- The list of extensions contains one of kind `k`, once, and it reads `b`. -/
def Carries (k : ExtKind) (exts : List Ext) (b : ExtBody) : Prop :=
  ∃ d, dataOf k.type exts = [d] ∧ k.unmarshal d = .ok (b, d.length)

/-- The protocol EncryptedExtensions names: the first in the list of an application_layer_protocol_negotiation extension
(16), nothing if there is none. -/
def NamesProtocol (exts : List Ext) (proto : Bytes) : Prop :=
  (dataOf 16 exts = [] ∧ proto = []) ∨
  (∃ d ps, dataOf 16 exts = [d] ∧ ExtKind.alpn.unmarshal d = .ok (.alpn ps, d.length) ∧ proto = ps.headD [])

/-- `pub` is the public key of the first certificate of a list. -/
def LeafKey (E : Env) (list : List CertEntry) (pub : PubKey) : Prop :=
  ∃ der exts rest c, list = (der, exts, ()) :: rest ∧ E.x509 der = some c ∧ c.pub = pub

/-- The signature of a CertificateVerify message is one of the transcript `t`, with the context string of a server: mint
uses that for clients as well. -/
def SignsTranscript (E : Env) (h : HashId) (cv : CertVerify) (pub : PubKey) (t : Bytes) : Prop :=
  verify E.P E.S cv.algorithm.toNat pub (signedContent .server (E.P.hash h t)) cv.signature = true

/-- The client of configuration `cfg` accepts the certificates: verification gave `chains`, or is switched off; and the
application did not object. -/
def ChainAccepted (cfg : Config) (certs : List Bytes) (chains : List (List Bytes)) : Prop :=
  ((cfg.insecureSkipVerify = true ∧ chains = []) ∨
    (cfg.insecureSkipVerify = false ∧ ∃ now, cfg.verify now cfg.serverName certs = some chains)) ∧
  ∀ f, cfg.verifyPeer = some f → f certs chains = true

/-- How the server is authenticated by the messages `auth`; `t` is the transcript before them. -/
inductive ServerAuthed (E : Env) (d : Bool) (cfg : Config) (h : HashId) (t : Bytes) (psk : Bool) (auth : List Msg)
    (certs : List Bytes) (chains : List (List Bytes)) : Prop where
  | psk (selected : psk = true) (none_ : auth = []) (noCerts : certs = []) (noChains : chains = [])
  | cert (notSelected : psk = false) (req : List Msg) (mcert mcv : Msg) (auth_eq : auth = req ++ [mcert, mcv])
      (reqOk : req = [] ∨ ∃ mr, req = [mr] ∧ mr.msgType = 13)
      (certType : mcert.msgType = 11) (cm : CertificateMsg)
      (certOk : CertificateMsg.unmarshal E.parses mcert.body = .ok (cm, mcert.body.length))
      (cvType : mcv.msgType = 15) (cv : CertVerify) (pub : PubKey)
      (cvOk : CertVerify.unmarshal mcv.body = .ok (cv, mcv.body.length)) (leaf : LeafKey E cm.list pub)
      (verified : SignsTranscript E h cv pub (t ++ wire d (req ++ [mcert])))
      (certs_eq : certs = cm.list.map (·.1)) (accepted : ChainAccepted cfg certs chains)

/-- EndOfEarlyData, if early data is accepted. -/
def EarlyEnd (accepted : Bool) (eoed : List Msg) : Prop :=
  (accepted = false ∧ eoed = []) ∨ (accepted = true ∧ ∃ m, eoed = [m] ∧ m.msgType = 5 ∧ m.body = [])

/-- How a client authenticates itself with the messages `auth`: not at all if not asked; else by a Certificate, followed by
CertificateVerify unless the list is empty. `t` is the transcript before them. -/
inductive ClientAuthSent (E : Env) (d : Bool) (cfg : Config) (h : HashId) (t : Bytes) (asked : Bool) (auth : List Msg) : Prop where
  | none (notAsked : asked = false) (none_ : auth = [])
  | empty (asked_ : asked = true) (mcert : Msg) (auth_eq : auth = [mcert]) (certType : mcert.msgType = 11) (cm : CertificateMsg)
      (certOk : CertificateMsg.unmarshal (fun _ => true) mcert.body = .ok (cm, mcert.body.length)) (empty_ : cm.list = [])
  | cert (asked_ : asked = true) (cert : Cert) (own : cert ∈ cfg.certificates) (mcert mcv : Msg) (auth_eq : auth = [mcert, mcv])
      (certType : mcert.msgType = 11) (cm : CertificateMsg)
      (certOk : CertificateMsg.unmarshal (fun _ => true) mcert.body = .ok (cm, mcert.body.length))
      (chain : cm.list.map (·.1) = cert.chain.map (·.raw))
      (cvType : mcv.msgType = 15) (cv : CertVerify)
      (cvOk : CertVerify.unmarshal mcv.body = .ok (cv, mcv.body.length))
      (signed : sign E.P E.S cv.algorithm.toNat cert.key
        (signedContent .server (E.P.hash h (t ++ wire d [mcert]))) = .ok cv.signature)

/-! ### The client's view -/

/-- The early secret of a client: made from the PSK configured for the server's name if the server selects a PSK (and empty
if none is configured); made from zeros otherwise. -/
def clientEarly (P : Prims) (cfg : Config) (h : HashId) (psk : Bool) : Bytes :=
  if psk then
    match cfg.psks cfg.serverName with
    | some k => match suiteParams k.suite with
      | some q => earlySecret P q.hash (some k.key)
      | none => []
    | none => []
  else earlySecret P h none

/-- The Diffie-Hellman secret of a client: none if the ServerHello has no key_share extension (51); else the result of key
agreement between the share in it and a private key made for the same group, whose public value is in the ClientHello with
extensions `offer`. -/
inductive ClientDh (E : Env) (cfg : Config) (offer exts : List Ext) : Option Bytes → Prop where
  | none : dataOf 51 exts = [] → ClientDh E cfg offer exts none
  | share (g : UInt16) (pub : Bytes) (shares : List KeyShareEntry) (n : Nat) (own priv secret : Bytes) :
      dataOf 51 exts = [beBytes 2 g.toNat ++ beBytes 2 pub.length ++ pub] → g ∈ cfg.groups →
      Carries (.keyShare 1) offer (.keyShare 1 0 shares) → (g, own, ()) ∈ shares →
      newKeyShare E.D n g.toNat = .ok (own, priv) → keyAgreement E.D g.toNat pub priv = .ok secret →
      ClientDh E cfg offer exts (some secret)

/-- The hash function of a cipher suite. -/
def suiteHash (s : UInt16) : Option HashId := (suiteParams s.toNat).map (·.hash)

/-- The suites a client offers out of those it may offer: with a PSK, those with the same hash function as that of the PSK.
-/
def offeredSuites (psk : Option Psk) (suites : List UInt16) : List UInt16 :=
  match psk with
  | none => suites
  | some k => suites.filter fun s => decide (suiteHash s = (suiteParams k.suite).map (·.hash))

/-- What a client of configuration `cfg` says in a hello; it may offer `suites`, and has `cookie` to return. -/
structure ClientOffer (E : Env) (d : Bool) (cfg : Config) (suites : List UInt16) (cookie : Option Bytes) (m : Msg)
    (ch : ClientHello) : Prop where
  type : m.msgType = 1
  length : m.length = m.body.length
  body : ClientHello.unmarshal (if d then 0xfefd else 0x0303) m.body = .ok (ch, m.body.length)
  version : ch.version = if d then 0xfefd else 0x0303
  sessionId : ch.sessionId = []
  suites_eq : ch.suites = offeredSuites (cfg.psks cfg.serverName) suites
  versions : Carries (.supportedVersions 1) ch.exts (.supportedVersions 1 [0x0304])
  name : Carries .serverName ch.exts (.serverName cfg.serverName)
  groups : Carries .supportedGroups ch.exts (.supportedGroups cfg.groups)
  schemes : Carries .signatureAlgorithms ch.exts (.signatureAlgorithms cfg.schemes)
  shares : ∃ shares, Carries (.keyShare 1) ch.exts (.keyShare 1 0 shares) ∧ shares.map (·.1) = cfg.groups
  alpn : if cfg.nextProtos = [] then hasExt 16 ch.exts = false else Carries .alpn ch.exts (.alpn cfg.nextProtos)
  modes : if cfg.pskModes = [] then hasExt 45 ch.exts = false else Carries .pskModes ch.exts (.pskModes cfg.pskModes)
  cookie_ : match cookie with
    | none => hasExt 44 ch.exts = false
    | some c => Carries .cookie ch.exts (.cookie c)
  early : hasExt 42 ch.exts = ((cfg.psks cfg.serverName).isSome && cfg.allowEarlyData && cookie.isNone)
  psk : match cfg.psks cfg.serverName with
    | none => hasExt 41 ch.exts = false
    | some k => ∃ p age trunc b, suiteParams k.suite = some p ∧
        Carries (.preSharedKey 1) ch.exts (.preSharedKey 1 [(k.identity, age, ())] [(b, ())] 0) ∧
        ch.truncated = .ok trunc ∧ b = binder E.P p.hash k.isResumption k.key trunc

/-- Whether a message is a ClientHello with a property. -/
def isHello (d : Bool) (f : ClientHello → Bool) (m : Msg) : Bool :=
  m.msgType == 1 &&
    (match ClientHello.unmarshal (if d then 0xfefd else 0x0303) m.body with
      | .ok (ch, _) => f ch
      | _ => false)

/-- A HelloRetryRequest that names a suite and carries a cookie, and has no other extension but supported_versions (43). -/
def Retry (m : Msg) (suite : UInt16) (cookie : Bytes) : Prop :=
  letterOf m = .helloRetryRequest ∧ ∃ r n d, ServerHello.unmarshal m.body = .ok (r, n) ∧ r.suite = suite ∧
    (dataOf 44 r.exts).head? = some d ∧ ExtKind.cookie.unmarshal d = .ok (.cookie cookie, d.length) ∧
    (∀ e ∈ r.exts, e.1 = 44 ∨ e.1 = 43)

/-- The hello a client sends last: the first one; or the answer to the last HelloRetryRequest, which offers the suite that
names and returns its cookie. -/
inductive LastHello (E : Env) (d : Bool) (cfg : Config) : List Msg → Msg → ClientHello → List UInt16 → Prop where
  | first (m : Msg) (ch : ClientHello) : ClientOffer E d cfg cfg.suites none m ch → LastHello E d cfg [] m ch cfg.suites
  | retry (rs : List Msg) (hrr : Msg) (suite : UInt16) (c : Bytes) (m : Msg) (ch : ClientHello) : Retry hrr suite c →
      suite ∈ cfg.suites → ClientOffer E d cfg [suite] (some c) m ch → LastHello E d cfg (rs ++ [hrr]) m ch [suite]

/-- What is known of a client that reports the handshake complete, having read `es` and done `acts`. -/
structure ClientView (E : Env) (d : Bool) (cfg : Config) (es : List (Event × Coins)) (acts : List Action)
    (s : Connected) where
  F : Flight
  hellos : List Msg
  retries : List Msg
  eoed : List Msg
  cauth : List Msg
  cfin : Msg
  post : List Msg
  postOut : List Msg
  hello : Msg
  ch : ClientHello
  suites : List UInt16
  sh : ServerHello
  ee : List Ext
  p : Params
  /-- what was read -/
  got : received es = retries ++ [F.sh, F.ee] ++ F.auth ++ [F.fin] ++ post
  /-- what was written -/
  out : sent acts = hellos ++ eoed ++ cauth ++ [cfin] ++ postOut
  postOutTypes : ∀ m ∈ postOut, m.msgType = 24
  transcript : HelloTranscript E.P F.h d hellos retries F.hellos
  helloTypes : ∀ m ∈ hellos, m.msgType = 1
  retryTypes : ∀ m ∈ retries, letterOf m = .helloRetryRequest
  lastHello : hellos.getLast? = some hello
  offer : LastHello E d cfg retries hello ch suites
  /-- the ServerHello -/
  shType : F.sh.msgType = 2
  shBody : ∃ n, ServerHello.unmarshal F.sh.body = .ok (sh, n)
  notRetry : sh.random.1 ≠ hrrRandom
  legacyVersion : sh.version = 0x0303
  version : (dataOf 43 sh.exts).head? = some [3, 4]
  offered : sh.suite ∈ suites
  suite : suiteParams sh.suite.toNat = some p
  hash : F.h = p.hash
  early : F.early = clientEarly E.P cfg F.h (selectsFirstPsk sh.exts)
  dh : ClientDh E cfg ch.exts sh.exts F.dh
  /-- EncryptedExtensions -/
  eeType : F.ee.msgType = 8
  eeBody : unmarshalEE F.ee.body = .ok (ee, F.ee.body.length)
  auth : ServerAuthed E d cfg F.h (F.toServerHello d ++ wire d [F.ee]) (selectsFirstPsk sh.exts) F.auth s.peerCerts s.chains
  finType : F.fin.msgType = 20
  fin : F.fin.body = F.serverVerify E.P d
  eoedOk : EarlyEnd (hasExt 42 ee) eoed
  cauthOk : ClientAuthSent E d cfg F.h (F.toFinished d ++ wire d eoed) (asksCertificate F.auth) cauth
  cfinType : cfin.msgType = 20
  cfinBody : cfin.body = F.clientVerify E.P d (eoed ++ cauth)
  /-- what the connection reports -/
  isClient : s.isClient = true
  cp : s.cp = p
  repSuite : s.params.suite = sh.suite
  repPsk : s.params.usingPSK = selectsFirstPsk sh.exts
  repEarly : s.params.usingEarlyData = hasExt 42 ee
  repAuth : s.params.usingClientAuth = asksCertificate F.auth
  repProto : NamesProtocol ee s.params.nextProto
  secrets : HasSecrets E.P d F (eoed ++ cauth ++ [cfin]) (keyUpdates postOut) (keyUpdates post) s

/-! ### The server's view -/

/-- The transcript of a server before its ServerHello: the hello it answers; if that carries a cookie, the hash in the
cookie comes first, and the HelloRetryRequest too if the server requires cookies. -/
inductive ServerHellos (d : Bool) (cfg : Config) (suite : UInt16) (exts : List Ext) (hello : Msg) : Bytes → Prop where
  | plain : (∀ c, Carries .cookie exts (.cookie c) → c = []) → ServerHellos d cfg suite exts hello (wire d [hello])
  | cookie (c plain hash app : Bytes) (prot : Protector) (rs : List Msg) : Carries .cookie exts (.cookie c) → c ≠ [] →
      cfg.cookieProtector = some prot → prot.decodeToken c = .ok plain → decodeCookie plain = .ok (suite, hash, app) →
      (∀ f, cfg.cookieHandler = some f → f app = true) →
      ((cfg.requireCookie = false ∧ rs = []) ∨
        (cfg.requireCookie = true ∧ ∃ hrr, rs = [hrr] ∧ letterOf hrr = .helloRetryRequest ∧ Framed hrr)) →
      ServerHellos d cfg suite exts hello (helloHash hash ++ wire d (rs ++ [hello]))

/-- The PSK in use at a server: none if the ServerHello does not select one; else the one stored for the identity selected,
for which the binder in the ClientHello is right. -/
inductive ServerPsk (P : Prims) (cfg : Config) (ch : ClientHello) (suite : UInt16) (exts : List Ext) : Option Psk → Prop where
  | none : hasExt 41 exts = false → ServerPsk P cfg ch suite exts none
  | selected (i : Nat) (ids : List PskIdentity) (binders : List BinderEntry) (id : PskIdentity) (b : Bytes) (k : Psk)
      (p : Params) (base trunc : Bytes) : Carries (.preSharedKey 1) ch.exts (.preSharedKey 1 ids binders 0) →
      ids[i]? = some id → binders[i]? = some (b, ()) → cfg.psks (hexString id.1) = some k → dataOf 41 exts = [beBytes 2 i] →
      k.suite = suite.toNat → suiteParams k.suite = some p → ch.truncated = .ok trunc →
      ((∀ c, Carries .cookie ch.exts (.cookie c) → c = []) → base = []) →
      b = binder P p.hash k.isResumption k.key (base ++ trunc) → ServerPsk P cfg ch suite exts (some k)

/-- The Diffie-Hellman secret of a server: none if the ServerHello has no key_share extension; else the result of key
agreement between a share of the client and a private key made for the same group, whose public value is sent. -/
inductive ServerDh (E : Env) (cfg : Config) (ch : ClientHello) (exts : List Ext) : Option Bytes → Prop where
  | none : dataOf 51 exts = [] → ServerDh E cfg ch exts none
  | share (g : UInt16) (theirs : Bytes) (shares : List KeyShareEntry) (n : Nat) (own priv secret : Bytes) :
      Carries (.keyShare 1) ch.exts (.keyShare 1 0 shares) → (g, theirs, ()) ∈ shares → g ∈ cfg.groups →
      newKeyShare E.D n g.toNat = .ok (own, priv) → keyAgreement E.D g.toNat theirs priv = .ok secret →
      dataOf 51 exts = [beBytes 2 g.toNat ++ beBytes 2 own.length ++ own] → ServerDh E cfg ch exts (some secret)

/-- How a server authenticates itself with the messages `auth`; `t` is the transcript before them. -/
inductive ServerAuthSent (E : Env) (d : Bool) (cfg : Config) (h : HashId) (t : Bytes) (psk : Bool) (auth : List Msg) : Prop where
  | psk (selected : psk = true) (none_ : auth = [])
  | cert (notSelected : psk = false) (cert : Cert) (own : cert ∈ cfg.certificates) (req : List Msg) (mcert mcv : Msg)
      (auth_eq : auth = req ++ [mcert, mcv])
      (reqOk : (cfg.requireClientAuth = false ∧ req = []) ∨
        (cfg.requireClientAuth = true ∧ ∃ mr, req = [mr] ∧ mr.msgType = 13))
      (certType : mcert.msgType = 11) (cm : CertificateMsg)
      (certOk : CertificateMsg.unmarshal (fun _ => true) mcert.body = .ok (cm, mcert.body.length))
      (chain : cm.list.map (·.1) = cert.chain.map (·.raw))
      (cvType : mcv.msgType = 15) (cv : CertVerify)
      (cvOk : CertVerify.unmarshal mcv.body = .ok (cv, mcv.body.length))
      (signed : sign E.P E.S cv.algorithm.toNat cert.key
        (signedContent .server (E.P.hash h (t ++ wire d (req ++ [mcert])))) = .ok cv.signature)

/-- What is known of a server that has sent its flight, having read `es` and done `acts`. -/
structure ServerFlight (E : Env) (d : Bool) (cfg : Config) (es : List (Event × Coins)) (acts : List Action) where
  F : Flight
  pre : List Msg
  retries : List Msg
  hello : Msg
  rest : List Msg
  out : List Msg
  ch : ClientHello
  sh : ServerHello
  ee : List Ext
  p : Params
  psk : Option Psk
  /-- what was read -/
  got : received es = pre ++ [hello] ++ rest
  /-- what was written -/
  out_eq : sent acts = retries ++ [F.sh, F.ee] ++ F.auth ++ [F.fin] ++ out
  same : pre.length = retries.length
  preTypes : ∀ m ∈ pre, m.msgType = 1
  retryTypes : ∀ m ∈ retries, letterOf m = .helloRetryRequest
  /-- the ClientHello -/
  helloType : hello.msgType = 1
  helloBody : ClientHello.unmarshal (if d then 0xfefd else 0x0303) hello.body = .ok (ch, hello.body.length)
  versions : ∃ vs, Carries (.supportedVersions 1) ch.exts (.supportedVersions 1 vs) ∧ (0x0304 : UInt16) ∈ vs
  transcript : ServerHellos d cfg sh.suite ch.exts hello F.hellos
  /-- the ServerHello -/
  shType : F.sh.msgType = 2
  shBody : ServerHello.unmarshal F.sh.body = .ok (sh, F.sh.body.length)
  legacyVersion : sh.version = 0x0303
  version : dataOf 43 sh.exts = [[3, 4]]
  offered : sh.suite ∈ ch.suites
  suite : suiteParams sh.suite.toNat = some p
  hash : F.h = p.hash
  pskOk : ServerPsk E.P cfg ch sh.suite sh.exts psk
  early : F.early = earlySecret E.P F.h (psk.map (·.key))
  dh : ServerDh E cfg ch sh.exts F.dh
  pskOrDh : psk ≠ none ∨ F.dh ≠ none
  /-- EncryptedExtensions -/
  eeType : F.ee.msgType = 8
  eeBody : unmarshalEE F.ee.body = .ok (ee, F.ee.body.length)
  acceptsEarly : hasExt 42 ee = (psk.isSome && hasExt 42 ch.exts && cfg.allowEarlyData)
  auth : ServerAuthSent E d cfg F.h (F.toServerHello d ++ wire d [F.ee]) psk.isSome F.auth
  finType : F.fin.msgType = 20
  fin : F.fin.body = F.serverVerify E.P d

/-- How the client was authenticated by the messages `auth`; `t` is the transcript before them. -/
inductive ClientAuthed (E : Env) (d : Bool) (cfg : Config) (h : HashId) (t : Bytes) (asked : Bool) (auth : List Msg)
    (certs : List Bytes) : Prop where
  | none (notAsked : asked = false) (none_ : auth = []) (noCerts : certs = [])
  | empty (asked_ : asked = true) (mcert : Msg) (auth_eq : auth = [mcert]) (certType : mcert.msgType = 11)
      (cm : CertificateMsg) (certOk : CertificateMsg.unmarshal E.parses mcert.body = .ok (cm, mcert.body.length))
      (empty_ : cm.list = []) (noCerts : certs = [])
  | cert (asked_ : asked = true) (mcert mcv : Msg) (auth_eq : auth = [mcert, mcv])
      (certType : mcert.msgType = 11) (cm : CertificateMsg)
      (certOk : CertificateMsg.unmarshal E.parses mcert.body = .ok (cm, mcert.body.length)) (nonempty : cm.list ≠ [])
      (cvType : mcv.msgType = 15) (cv : CertVerify) (pub : PubKey)
      (cvOk : CertVerify.unmarshal mcv.body = .ok (cv, mcv.body.length)) (leaf : LeafKey E cm.list pub)
      (verified : SignsTranscript E h cv pub (t ++ wire d [mcert]))
      (certs_eq : certs = cm.list.map (·.1))
      (accepted : ∀ f, cfg.verifyPeer = some f → f certs [] = true)

/-- What is known of a server that reports the handshake complete. -/
structure ServerView (E : Env) (d : Bool) (cfg : Config) (es : List (Event × Coins)) (acts : List Action)
    (s : Connected) extends ServerFlight E d cfg es acts where
  eoed : List Msg
  cauth : List Msg
  cfin : Msg
  post : List Msg
  rest_eq : rest = eoed ++ cauth ++ [cfin] ++ post
  eoedOk : EarlyEnd (hasExt 42 ee) eoed
  cauthOk : ClientAuthed E d cfg F.h (F.toFinished d ++ wire d eoed) (asksCertificate F.auth) cauth s.peerCerts
  cfinType : cfin.msgType = 20
  cfinBody : cfin.body = F.clientVerify E.P d (eoed ++ cauth)
  noEarlyRefused : hasExt 42 ch.exts = true → hasExt 42 ee = true
  /-- what the connection reports -/
  isClient : s.isClient = false
  cp : s.cp = p
  repSuite : s.params.suite = sh.suite
  repPsk : s.params.usingPSK = psk.isSome
  repEarly : s.params.usingEarlyData = hasExt 42 ee
  repAuth : s.params.usingClientAuth = asksCertificate F.auth
  repProto : NamesProtocol ee s.params.nextProto
  secrets : HasSecrets E.P d F (eoed ++ cauth ++ [cfin]) (keyUpdates post) (keyUpdates out) s

end Verif.Spec
