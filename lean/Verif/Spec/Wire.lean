import Verif.Messages.Bodies

/-
The presentation of messages and extensions in RFC 8446 (section 4 and appendix B.3), RFC 6066 (server_name), RFC 7301 (ALPN)
and RFC 9147 (the DTLS form of a ClientHello): the bytes, and the lengths that vectors may have. Only the values of the model
are used here, none of its schemas.
-/

namespace Verif.Spec

open Verif Verif.Messages

/-! ### Bytes -/

/-- A vector: its length in bytes, as a number of `k` bytes, and its contents (section 3.4). -/
def vector (k : Nat) (b : Bytes) : Bytes := beBytes k b.length ++ b

def be16 (n : UInt16) : Bytes := beBytes 2 n.toNat
def be32 (n : UInt32) : Bytes := beBytes 4 n.toNat

/-- Extension (section 4.2): type and data; and a list of them. -/
def extension (e : Ext) : Bytes := be16 e.1 ++ vector 2 e.2.1
def extensions (el : List Ext) : Bytes := vector 2 (el.map extension).flatten

/-- KeyShareEntry (section 4.2.8). -/
def keyShareEntry (s : KeyShareEntry) : Bytes := be16 s.1 ++ vector 2 s.2.1

/-- PskIdentity (section 4.2.11): identity and obfuscated age. -/
def pskIdentity (i : PskIdentity) : Bytes := vector 2 i.1 ++ be32 i.2.1

/-- The numbers of extensions (section 4.2 and RFC 7301). What a ticket says about early data is an early_data extension
(section 4.2.10). -/
def extensionNumber : ExtBody → Nat
  | .serverName _ => 0
  | .supportedGroups _ => 10
  | .signatureAlgorithms _ => 13
  | .alpn _ => 16
  | .preSharedKey .. => 41
  | .earlyData => 42
  | .ticketEarlyDataInfo _ => 42
  | .supportedVersions .. => 43
  | .cookie _ => 44
  | .pskModes _ => 45
  | .keyShare .. => 51

/-- The data of an extension (sections 4.2.1 to 4.2.11; RFC 6066, section 3; RFC 7301, section 3.1). `hs` is 1 in a ClientHello,
6 in a HelloRetryRequest, 2 in a ServerHello. -/
def extensionData : ExtBody → Bytes
  | .serverName name => vector 2 (0 :: vector 2 name)
  | .keyShare hs group shares =>
    if hs = 1 then vector 2 (shares.map keyShareEntry).flatten
    else if hs = 6 then be16 group
    else (shares.map keyShareEntry).flatten
  | .supportedGroups groups => vector 2 (groups.map be16).flatten
  | .signatureAlgorithms algs => vector 2 (algs.map be16).flatten
  | .preSharedKey hs ids binders selected =>
    if hs = 1 then vector 2 (ids.map pskIdentity).flatten ++ vector 2 (binders.map fun b => vector 1 b.1).flatten
    else be16 selected
  | .pskModes modes => vector 1 modes
  | .earlyData => []
  | .ticketEarlyDataInfo max => be32 max
  | .alpn protos => vector 2 (protos.map (vector 1)).flatten
  | .supportedVersions hs versions =>
    if hs = 1 then vector 1 (versions.map be16).flatten else (versions.map be16).flatten
  | .cookie data => vector 2 data

/-- The numbers of messages (section 4). -/
def messageNumber : Body → Nat
  | .clientHello _ => 1
  | .serverHello _ => 2
  | .newSessionTicket _ => 4
  | .endOfEarlyData => 5
  | .encryptedExtensions _ => 8
  | .certificate _ => 11
  | .certificateRequest _ => 13
  | .certificateVerify _ => 15
  | .finished _ => 20
  | .keyUpdate _ => 24

/-- CertificateEntry (section 4.4.2). -/
def certificateEntry (e : CertEntry) : Bytes := vector 3 e.1 ++ extensions e.2.1

/-- The body of a message (sections 4.1.2, 4.1.3, 4.3.1, 4.3.2, 4.4.2 to 4.4.4, 4.5, 4.6.1, 4.6.3). A DTLS ClientHello, which has
another version, has an (empty) cookie after the session identifier (RFC 9147, section 5.3). -/
def messageBody : Body → Bytes
  | .clientHello ch =>
    be16 ch.version ++ ch.random.1 ++ vector 1 ch.sessionId ++ (if ch.version = 0xfefd then vector 1 [] else []) ++
      vector 2 (ch.suites.map be16).flatten ++ vector 1 [0] ++ extensions ch.exts
  | .serverHello sh =>
    be16 sh.version ++ sh.random.1 ++ vector 1 sh.sessionId ++ be16 sh.suite ++ [sh.compression] ++ extensions sh.exts
  | .encryptedExtensions exts => extensions exts
  | .certificate c => vector 1 c.context ++ vector 3 (c.list.map certificateEntry).flatten
  | .certificateRequest cr => vector 1 cr.context ++ extensions cr.exts
  | .certificateVerify cv => be16 cv.algorithm ++ vector 2 cv.signature
  | .finished f => f.verifyData
  | .newSessionTicket t => be32 t.lifetime ++ be32 t.ageAdd ++ vector 1 t.nonce ++ vector 2 t.ticket ++ extensions t.exts
  | .keyUpdate request => [request]
  | .endOfEarlyData => []

/-- A message with its header (section 4; RFC 9147, section 5.2, for a message in one fragment with number `seq`). -/
def message (b : Body) : Bytes := UInt8.ofNat (messageNumber b) :: vector 3 (messageBody b)
def datagramMessage (seq : Nat) (b : Body) : Bytes :=
  UInt8.ofNat (messageNumber b) :: (beBytes 3 (messageBody b).length ++ beBytes 2 seq ++ beBytes 3 0 ++ vector 3 (messageBody b))

/-! ### Contents

A value can have fields that its wire form does not have: the group of a key share that is not in a HelloRetryRequest, the
selected identity in a ClientHello, versions after the first in an answer, and the session identifier, which TLS 1.3 makes empty
(it is a value of the sender's choice only in compatibility mode, which this library does not use). -/

def extensionContents : ExtBody → ExtBody
  | .keyShare hs group shares => .keyShare hs (if hs = 6 then group else 0) shares
  | .preSharedKey hs ids binders selected => .preSharedKey hs ids binders (if hs = 1 then 0 else selected)
  | .supportedVersions hs versions => .supportedVersions hs (if hs = 1 then versions else versions.take 1)
  | b => b

def messageContents : Body → Body
  | .clientHello ch => .clientHello { ch with sessionId := [] }
  | b => b

/-- There is a binder for each identity. -/
def BindersMatch : ExtBody → Prop
  | .preSharedKey _ ids binders _ => ids.length = binders.length
  | _ => True

/-! ### Lengths -/

/-- The contents of a vector have between `lo` and `hi` bytes. -/
def Between (lo hi : Nat) (b : Bytes) : Prop := lo ≤ b.length ∧ b.length ≤ hi

/-- The extensions of a list fit. -/
def ExtensionsFit (el : List Ext) : Prop := Between 0 (2 ^ 16 - 1) (el.map extension).flatten

/-- The groups whose key shares have a length that RFC 8446 fixes (section 4.2.8): secp256r1, secp384r1, secp521r1, x25519 and
the finite fields. -/
def shareLength : Nat → Option Nat
  | 23 => some 65
  | 24 => some 97
  | 25 => some 133
  | 29 => some 32
  | 256 => some 256
  | 257 => some 384
  | 258 => some 512
  | 259 => some 768
  | 260 => some 1024
  | _ => none

/-- A key share that a peer may send: of a group the implementation need not know, with a key of the right length if it has
one. -/
def ShareFits (s : KeyShareEntry) : Prop :=
  Between 1 (2 ^ 16 - 1) s.2.1 ∧ ∀ n, shareLength s.1.toNat = some n → s.2.1.length = n

/-- The groups of the key shares of an extension are among those of RFC 8446. -/
def GroupsKnown : ExtBody → Prop
  | .keyShare _ _ shares => ∀ s ∈ shares, shareLength s.1.toNat ≠ none
  | _ => True

/-- What RFC 8446 allows in an extension. -/
def ExtensionFits : ExtBody → Prop
  | .serverName name => Between 1 (2 ^ 16 - 4) name
  | .keyShare hs group shares =>
    (hs = 1 ∧ group = 0 ∧ (∀ s ∈ shares, ShareFits s) ∧ Between 0 (2 ^ 16 - 1) (shares.map keyShareEntry).flatten) ∨
    (hs = 6 ∧ shares = []) ∨ (hs = 2 ∧ group = 0 ∧ ∃ s, shares = [s] ∧ ShareFits s)
  | .supportedGroups groups => Between 2 (2 ^ 16 - 1) (groups.map be16).flatten
  | .signatureAlgorithms algs => Between 2 (2 ^ 16 - 2) (algs.map be16).flatten
  | .preSharedKey hs ids binders selected =>
    (hs = 1 ∧ selected = 0 ∧ ids.length = binders.length ∧ (∀ i ∈ ids, Between 1 (2 ^ 16 - 1) i.1) ∧
      (∀ b ∈ binders, Between 32 255 b.1) ∧ Between 7 (2 ^ 16 - 1) (ids.map pskIdentity).flatten ∧
      Between 33 (2 ^ 16 - 1) (binders.map fun b => vector 1 b.1).flatten) ∨
    (hs = 2 ∧ ids = [] ∧ binders = [])
  | .pskModes modes => Between 1 255 modes
  | .earlyData => True
  | .ticketEarlyDataInfo _ => True
  | .alpn protos => (∀ p ∈ protos, Between 1 255 p) ∧ Between 2 (2 ^ 16 - 1) (protos.map (vector 1)).flatten
  | .supportedVersions hs versions =>
    (hs = 1 ∧ Between 2 254 (versions.map be16).flatten) ∨ ((hs = 2 ∨ hs = 6) ∧ versions.length = 1)
  | .cookie data => Between 1 (2 ^ 16 - 1) data

/-- The version of a ClientHello (section 4.1.2; RFC 9147, section 5.3): other messages do not depend on the transport. -/
def helloVersion (datagram : Bool) : UInt16 := if datagram then 0xfefd else 0x0303
def VersionFits (datagram : Bool) : Body → Prop
  | .clientHello ch => ch.version = helloVersion datagram
  | _ => True

/-- The certificates of a message can be parsed. -/
def CertificatesParse (parses : Bytes → Bool) : Body → Prop
  | .certificate c => ∀ e ∈ c.list, parses e.1 = true
  | _ => True

/-- What RFC 8446 allows in a message. The lower limits of lists of extensions (such as 8 in a ClientHello) are left out: more is
allowed here. The length of a Finished is that of a hash; here any length is allowed. -/
def MessageFits : Body → Prop
  | .clientHello ch =>
    (ch.version = 0x0303 ∨ ch.version = 0xfefd) ∧ Between 0 32 ch.sessionId ∧
      Between 2 (2 ^ 16 - 2) (ch.suites.map be16).flatten ∧ ExtensionsFit ch.exts
  | .serverHello sh => Between 0 32 sh.sessionId ∧ ExtensionsFit sh.exts
  | .encryptedExtensions exts => ExtensionsFit exts
  | .certificate c =>
    Between 0 255 c.context ∧ (∀ e ∈ c.list, Between 1 (2 ^ 24 - 1) e.1 ∧ ExtensionsFit e.2.1) ∧
      Between 0 (2 ^ 24 - 1) (c.list.map certificateEntry).flatten
  | .certificateRequest cr => Between 0 255 cr.context ∧ ExtensionsFit cr.exts
  | .certificateVerify cv => Between 0 (2 ^ 16 - 1) cv.signature
  | .finished f => f.verifyDataLen = f.verifyData.length
  | .newSessionTicket t => Between 0 255 t.nonce ∧ Between 1 (2 ^ 16 - 1) t.ticket ∧ ExtensionsFit t.exts
  | .keyUpdate _ => True
  | .endOfEarlyData => True

end Verif.Spec
