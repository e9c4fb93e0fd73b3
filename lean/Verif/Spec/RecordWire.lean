import Verif.Record.Model

/-
The presentation of records in RFC 8446, sections 5.1 to 5.4, and in RFC 9147, section 4 (RFC 6347, section 4.1).
-/

namespace Verif.Spec

open Verif

/-- A TLS record (RFC 8446, sections 5.1 and 5.2): type, legacy version, length, fragment. -/
def tlsRecord (type : UInt8) (version : Nat) (fragment : Bytes) : Bytes :=
  [type] ++ beBytes 2 version ++ beBytes 2 fragment.length ++ fragment

/-- A DTLS record (RFC 6347, section 4.1; RFC 9147, section 4, for records that are not protected): type, legacy version, epoch,
sequence number, length, fragment. -/
def dtlsRecord (type : UInt8) (version epoch seq : Nat) (fragment : Bytes) : Bytes :=
  [type] ++ beBytes 2 version ++ beBytes 2 epoch ++ beBytes 6 seq ++ beBytes 2 fragment.length ++ fragment

/-- TLSInnerPlaintext (RFC 8446, section 5.2): content, type, zeros. -/
def inner (content : Bytes) (type : UInt8) (zeros : Nat) : Bytes := content ++ [type] ++ List.replicate zeros 0

/-- The nonce of a record (RFC 8446, section 5.3): as long as the IV, and as a number the exclusive or of the IV and the sequence
number. -/
def IsNonce (nonce iv : Bytes) (seq : Nat) : Prop := nonce.length = iv.length ∧ beNat nonce = beNat iv ^^^ seq

/-- The part of a record before its fragment. -/
def headerOf (rec fragment : Bytes) : Bytes := rec.take (rec.length - fragment.length)

/-- Bytes that are a number of TLS records, of handshake or application data type, with the same version. -/
def TlsRecords (version : Nat) (b : Bytes) : Prop :=
  ∃ l : List (UInt8 × Bytes), b = (l.map fun r => tlsRecord r.1 version r.2).flatten ∧
    ∀ r ∈ l, (r.1 = 21 ∨ r.1 = 22 ∨ r.1 = 23) ∧ r.2.length ≤ 2 ^ 14

end Verif.Spec
