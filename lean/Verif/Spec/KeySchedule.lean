import Verif.Crypto.Model

/-
HKDF and the parts of the TLS 1.3 key schedule used in property statements, written from RFC 5869 and RFC 8446
section 7.1 and 4.2.11.2, not from the code.
-/

namespace Verif.Spec

open Verif Verif.Crypto

/-- The bytes of an ASCII string. -/
def ascii (s : String) : Bytes := s.toList.map fun c => UInt8.ofNat c.toNat

/-- RFC 5869, HKDF-Extract: HMAC-Hash(salt, IKM). -/
def extract (P : Prims) (h : HashId) (salt ikm : Bytes) : Bytes := P.hmac h salt ikm

/-- RFC 5869, 2.3: T(0) is empty, T(n+1) = HMAC(PRK, T(n) | info | n+1). -/
def block (P : Prims) (h : HashId) (prk info : Bytes) : Nat → Bytes
  | 0 => []
  | n + 1 => P.hmac h prk (block P h prk info n ++ info ++ [UInt8.ofNat (n + 1)])

/-- RFC 5869, 2.3: the first L bytes of T(1) | … | T(N), N = ceil(L/HashLen). -/
def expand (P : Prims) (h : HashId) (prk info : Bytes) (L : Nat) : Bytes :=
  (((List.range ((L + h.size - 1) / h.size)).map fun i => block P h prk info (i + 1)).flatten).take L

/-- RFC 8446, 7.1: the HkdfLabel structure. -/
def hkdfLabel (length : Nat) (label context : Bytes) : Bytes :=
  beBytes 2 length ++ (beBytes 1 (ascii "tls13 " ++ label).length ++ (ascii "tls13 " ++ label)) ++
    (beBytes 1 context.length ++ context)

/-- RFC 8446, 7.1: HKDF-Expand-Label. -/
def expandLabel (P : Prims) (h : HashId) (secret label context : Bytes) (L : Nat) : Bytes :=
  expand P h secret (hkdfLabel L label context) L

/-- RFC 8446, 7.1: Derive-Secret(secret, label, messages). -/
def derive (P : Prims) (h : HashId) (secret label messages : Bytes) : Bytes :=
  expandLabel P h secret label (P.hash h messages) h.size

/-- RFC 8446, 4.4.4: verify data of a Finished message, keyed by a traffic secret or a binder key. -/
def finishedMac (P : Prims) (h : HashId) (baseKey messages : Bytes) : Bytes :=
  P.hmac h (expandLabel P h baseKey (ascii "finished") [] h.size) (P.hash h messages)

/-- RFC 8446, 4.2.11.2: the binder for a PSK over the given hello messages. -/
def binder (P : Prims) (h : HashId) (resumption : Bool) (pskKey messages : Bytes) : Bytes :=
  finishedMac P h
    (derive P h (extract P h (List.replicate h.size 0) pskKey)
      (ascii (if resumption then "res binder" else "ext binder")) [])
    messages

/-- The exporter as the RFC defines it (RFC 8446, 7.5). -/
def rfcExporter (P : Prims) (h : HashId) (secret label context : Bytes) (L : Nat) : Bytes :=
  expandLabel P h (derive P h secret label []) (ascii "exporter") (P.hash h context) L

/-- Who signs. -/
inductive Role where
  | client | server
  deriving DecidableEq, Repr

/-- The content covered by a CertificateVerify signature (RFC 8446, 4.4.3): 64 spaces, a context string naming the role, a
zero byte and the transcript hash. -/
def signedContent (r : Role) (transcriptHash : Bytes) : Bytes :=
  List.replicate 64 (0x20 : UInt8) ++
    ascii (match r with | .server => "TLS 1.3, server CertificateVerify" | .client => "TLS 1.3, client CertificateVerify") ++
    [0] ++ transcriptHash

end Verif.Spec
