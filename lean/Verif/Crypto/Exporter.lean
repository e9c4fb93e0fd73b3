import Verif.Crypto.Model

/-
Model of Conn.ComputeExporter (conn.go) and of cookie-protector.go.
-/

namespace Verif.Crypto

open Verif

/-- `"exporter"` (conn.go:889). -/
def labelExporter : Bytes := [0x65, 0x78, 0x70, 0x6f, 0x72, 0x74, 0x65, 0x72]

/-- `Conn.ComputeExporter` (conn.go:875-890). `connected` says whether the state is `stateConnected`; `secret` is
`c.state.exporterSecret`, possibly nil. `hash.New().Sum(context)` appends the digest of the empty string to its
argument. `keyLength` is a Go int; a negative one, which panics in HkdfExpand, is not modelled. -/
def computeExporter (P : Prims) (connected : Bool) (secret : Option Bytes) (h : HashId) (label context : Bytes)
    (keyLength : Nat) : Res Bytes :=
  if !connected then .err .msg
  else match secret with
    | none => .err .msg
    | some s =>
      let h0 := P.hash h []
      (deriveSecret P h s label h0).bind fun tmpSecret =>
        let hc := context ++ P.hash h []
        hkdfExpandLabel P h tmpSecret labelExporter hc keyLength

/-- An AEAD with empty additional data: key, nonce, plaintext or ciphertext. -/
structure CookieAead where
  enc : Bytes → Bytes → Bytes → Bytes
  dec : Bytes → Bytes → Bytes → Option Bytes

/-- `"mint cookie source"` (cookie-protector.go:67). -/
def cookieInfo : Bytes :=
  [0x6d, 0x69, 0x6e, 0x74, 0x20, 0x63, 0x6f, 0x6f, 0x6b, 0x69, 0x65, 0x20, 0x73, 0x6f, 0x75, 0x72, 0x63, 0x65]

/-- `DefaultCookieProtector.createAEAD` (cookie-protector.go:66-86): the AES key and the AEAD nonce. The HKDF used here is
that of golang.org/x/crypto, read 44 bytes far; it is taken to be the same function as that of crypto.go. The errors of
AES and GCM for keys of wrong length do not occur. -/
def cookieKey (P : Prims) (secret nonce : Bytes) : Res (Bytes × Bytes) :=
  (hkdfExpand P .sha256 (hkdfExtract P .sha256 (some nonce) secret) cookieInfo 44).bind fun okm =>
    .ok (okm.take 32, okm.drop 32)

/-- `DefaultCookieProtector.NewToken` (cookie-protector.go:42-52); `nonce` is what the random number generator returned,
absent if it failed. -/
def newToken (P : Prims) (A : CookieAead) (secret : Bytes) (nonce : Option Bytes) (data : Bytes) : Res Bytes :=
  match nonce with
  | none => .err .msg
  | some nonce =>
    (cookieKey P secret nonce).bind fun (k, n) => .ok (nonce ++ A.enc k n data)

/-- `DefaultCookieProtector.DecodeToken` (cookie-protector.go:55-64). -/
def decodeToken (P : Prims) (A : CookieAead) (secret : Bytes) (p : Bytes) : Res Bytes :=
  if p.length < 32 then .err .msg
  else
    let nonce := p.take 32
    (cookieKey P secret nonce).bind fun (k, n) =>
      match A.dec k n (p.drop 32) with
      | some d => .ok d
      | none => .err .msg

end Verif.Crypto
