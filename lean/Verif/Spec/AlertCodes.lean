import Verif.Spec.Wire
import Verif.Spec.Views

/-
The alerts of RFC 8446, appendix B.2, and what may be wrong with a message or with its extensions.
-/

namespace Verif.Spec

open Verif Verif.Messages Verif.Handshake Verif.Negotiation

/-- Alerts by name (RFC 8446, appendix B.2; RFC 7301, section 3.2). -/
inductive AlertName where
  | closeNotify | unexpectedMessage | badRecordMac | handshakeFailure | badCertificate | illegalParameter | accessDenied
  | decodeError | decryptError | protocolVersion | internalError | missingExtension | noApplicationProtocol
  deriving DecidableEq

/-- Their numbers. -/
def AlertName.number : AlertName → Nat
  | closeNotify => 0
  | unexpectedMessage => 10
  | badRecordMac => 20
  | handshakeFailure => 40
  | badCertificate => 42
  | illegalParameter => 47
  | accessDenied => 49
  | decodeError => 50
  | decryptError => 51
  | protocolVersion => 70
  | internalError => 80
  | missingExtension => 109
  | noApplicationProtocol => 120

/-- The call fails with this alert. -/
def Answers {α : Type} (r : Res α) (a : AlertName) : Prop := r = .err (.alert a.number)

/-- The message has the form of RFC 8446 and reads `b`. -/
def Decodes (datagram : Bool) (parses : Bytes → Bool) (m : Msg) (b : Body) : Prop :=
  m.msgType.toNat = messageNumber b ∧ m.body = messageBody b ∧ MessageFits b ∧ VersionFits datagram b ∧ CertificatesParse parses b

/-- It has the form of RFC 8446. -/
def WellFormed (datagram : Bool) (parses : Bytes → Bool) (m : Msg) : Prop := ∃ b, Decodes datagram parses m b

/-- One of the kinds of extension occurs twice, or has data that is not in the form of RFC 8446 (key shares being of a known
group). -/
def BadExtensions (exts : List Ext) (ks : List ExtKind) : Prop :=
  ∃ k ∈ ks, 2 ≤ (dataOf k.type exts).length ∨
    ∃ d ∈ dataOf k.type exts, ¬ ∃ b : ExtBody, b.kind = k ∧ ExtensionFits b ∧ GroupsKnown b ∧ d = extensionData b

/-- The ClientHello offers TLS 1.3 (section 4.2.1). -/
def OffersTls13 (exts : List Ext) : Prop :=
  ∃ vs : List UInt16, Carries (.supportedVersions 1) exts (.supportedVersions 1 vs) ∧ 0x0304 ∈ vs

/-- The ClientHello names a PSK that `lookup` knows (under the hexadecimal form of its identity). -/
def NamesPsk (lookup : Bytes → Option Psk) (exts : List Ext) (k : Psk) : Prop :=
  ∃ ids binders, Carries (.preSharedKey 1) exts (.preSharedKey 1 ids binders 0) ∧ ∃ i ∈ ids, lookup (hexString i.1) = some k

/-- The extensions a server reads in a ClientHello, and a client in a ServerHello and in EncryptedExtensions. -/
def helloKinds : List ExtKind :=
  [.supportedVersions 1, .serverName, .supportedGroups, .signatureAlgorithms, .earlyData, .keyShare 1, .preSharedKey 1, .alpn,
    .pskModes, .cookie]
def answerKinds : List ExtKind := [.supportedVersions 2, .cookie, .preSharedKey 2, .keyShare 2]

end Verif.Spec
