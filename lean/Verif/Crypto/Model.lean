import Verif.Basic

/-
Model of crypto.go: HKDF, key agreement, signatures and the algorithm tables.

Not modelled: the primitives themselves. Hash functions and HMAC, elliptic curve and finite field arithmetic,
signature algorithms and random number generation are fields of `Prims`, `Dh` and `Sig`; what a theorem needs to
know about them is one of its hypotheses. Logging is left out.
-/

namespace Verif.Crypto

open Verif

/-- The hash functions of Go's `crypto.Hash` that mint uses; `none` is the zero value, as returned by a map lookup
that finds nothing (crypto.go:48-59). -/
inductive HashId where
  | none | sha1 | sha256 | sha384 | sha512
  deriving DecidableEq, Repr

/-- `crypto.Hash.Size`. -/
def HashId.size : HashId → Nat
  | .none => 0
  | .sha1 => 20
  | .sha256 => 32
  | .sha384 => 48
  | .sha512 => 64

/-- The two primitives HKDF and transcripts are built from: `hash.New()…Sum(nil)` and
`hmac.New(hash.New, key)…Sum(nil)`. -/
structure Prims where
  hash : HashId → Bytes → Bytes
  hmac : HashId → Bytes → Bytes → Bytes

/-- Digests and MACs have the length of the hash function. -/
structure Prims.Sized (P : Prims) : Prop where
  hash : ∀ h b, (P.hash h b).length = h.size
  hmac : ∀ h k b, (P.hmac h k b).length = h.size

/-! ### Cipher suites -/

/-- `CipherSuiteParams` (crypto.go:31-36), without the AEAD factory, which is AES-GCM with 12 byte nonces for both suites. -/
structure Params where
  suite : Nat
  hash : HashId
  keyLen : Nat
  ivLen : Nat
  deriving DecidableEq, Repr

/-- `cipherSuiteMap` (crypto.go:91-104). -/
def suiteParams (suite : Nat) : Option Params :=
  if suite = 0x1301 then some ⟨0x1301, .sha256, 16, 12⟩
  else if suite = 0x1302 then some ⟨0x1302, .sha384, 32, 12⟩
  else none

/-! ### HKDF (crypto.go:505-616) -/

/-- `HkdfExtract` (crypto.go:505-523): a nil salt, modelled as `none`, is replaced by zeros. -/
def hkdfExtract (P : Prims) (h : HashId) (salt : Option Bytes) (input : Bytes) : Bytes :=
  P.hmac h (salt.getD (List.replicate h.size 0)) input

/-- `"tls13 "`. -/
def tls13 : Bytes := [0x74, 0x6c, 0x73, 0x31, 0x33, 0x20]

/-- `hkdfEncodeLabel` (crypto.go:546-560). The two lengths and the output length are truncated to one and two bytes. -/
def hkdfEncodeLabel (labelIn hashValue : Bytes) (outLen : Nat) : Bytes :=
  let label := tls13 ++ labelIn
  [UInt8.ofNat (outLen >>> 8), UInt8.ofNat outLen, UInt8.ofNat label.length] ++ label ++
    [UInt8.ofNat hashValue.length] ++ hashValue

/-- The loop of `HkdfExpand` (crypto.go:566-576): `i` is a byte and wraps. `fuel` bounds the number of turns; running out
of it means the loop does not end, which happens only for hash functions of length zero. -/
def hkdfExpandLoop (P : Prims) (h : HashId) (prk info : Bytes) (outLen : Nat) : Nat → Bytes → Bytes → UInt8 → Res Bytes
  | fuel, out, t, i =>
    if out.length < outLen then
      match fuel with
      | 0 => .diverge
      | fuel + 1 =>
        let t' := P.hmac h prk (t ++ info ++ [i])
        hkdfExpandLoop P h prk info outLen fuel (out ++ t') t' (i + 1)
    else .ok out

/-- `HkdfExpand` (crypto.go:562-578). -/
def hkdfExpand (P : Prims) (h : HashId) (prk info : Bytes) (outLen : Nat) : Res Bytes :=
  (hkdfExpandLoop P h prk info outLen outLen [] [] 1).bind fun out => .ok (out.take outLen)

/-- `HkdfExpandLabel` (crypto.go:580-591). -/
def hkdfExpandLabel (P : Prims) (h : HashId) (secret label hashValue : Bytes) (outLen : Nat) : Res Bytes :=
  hkdfExpand P h secret (hkdfEncodeLabel label hashValue outLen) outLen

/-- `deriveSecret` (crypto.go:593-595). -/
def deriveSecret (P : Prims) (h : HashId) (secret label messageHash : Bytes) : Res Bytes :=
  hkdfExpandLabel P h secret label messageHash h.size

/-- `labelFinished`: `"finished"` (crypto.go:538). -/
def labelFinished : Bytes := [0x66, 0x69, 0x6e, 0x69, 0x73, 0x68, 0x65, 0x64]

/-- `computeFinishedData` (crypto.go:597-602). -/
def computeFinishedData (P : Prims) (h : HashId) (baseKey input : Bytes) : Res Bytes :=
  (hkdfExpandLabel P h baseKey labelFinished [] h.size).bind fun macKey => .ok (P.hmac h macKey input)

/-- `labelForKey`, `labelForIV`: `"key"`, `"iv"` (record-layer.go:15-16). -/
def labelForKey : Bytes := [0x6b, 0x65, 0x79]
def labelForIV : Bytes := [0x69, 0x76]

/-- `makeTrafficKeys` (crypto.go:609-616): the key and the IV. -/
def makeTrafficKeys (P : Prims) (p : Params) (secret : Bytes) : Res (Bytes × Bytes) :=
  (hkdfExpandLabel P p.hash secret labelForKey [] p.keyLen).bind fun key =>
  (hkdfExpandLabel P p.hash secret labelForIV [] p.ivLen).bind fun iv => .ok (key, iv)

/-! ### Key agreement (crypto.go:119-311) -/

/-- `keyExchangeSizeFromNamedGroup` (crypto.go:143-166). -/
def keyExchangeSize (group : Nat) : Nat :=
  if group = 29 then 32
  else if group = 23 then 65
  else if group = 24 then 97
  else if group = 25 then 133
  else if group = 256 then 256
  else if group = 257 then 384
  else if group = 258 then 512
  else if group = 259 then 768
  else if group = 260 then 1024
  else 0

/-- P256, P384, P521 (common.go:135-137). -/
def isCurve (group : Nat) : Bool := group == 23 || group == 24 || group == 25

/-- FFDHE2048 … FFDHE8192 (common.go:142-146). -/
def isFfdhe (group : Nat) : Bool := 256 ≤ group && group ≤ 260

/-- The primitives of key agreement. `gen n group` is the `n`-th use of the random number generator to make a key pair
(public, private), absent if the generator fails; `point` is `elliptic.Unmarshal`, absent for an encoding that is not a
point of the curve; `mul` computes the shared secret. -/
structure Dh where
  gen : Nat → Nat → Option (Bytes × Bytes)
  point : Nat → Bytes → Bool
  mul : Nat → Bytes → Bytes → Bytes

/-- `newKeyShare` (crypto.go:214-260). -/
def newKeyShare (D : Dh) (n : Nat) (group : Nat) : Res (Bytes × Bytes) :=
  if isCurve group || isFfdhe group || group == 29 then
    match D.gen n group with
    | some kp => .ok kp
    | none => .err .msg
  else .err .msg

/-- `keyAgreement` (crypto.go:262-311). For an encoding of the right length that is not a point of the curve,
`elliptic.Unmarshal` returns nil coordinates, and `ScalarMult` dereferences them (line 271). -/
def keyAgreement (D : Dh) (group : Nat) (pub priv : Bytes) : Res Bytes :=
  if isCurve group then
    if pub.length ≠ keyExchangeSize group then .err .msg
    else if D.point group pub then .ok (D.mul group pub priv) else .panic
  else if isFfdhe group then
    if pub.length ≠ keyExchangeSize group then .err .msg else .ok (D.mul group pub priv)
  else if group = 29 then
    if pub.length ≠ keyExchangeSize group then .err .msg else .ok (D.mul group pub priv)
  else .err .msg

/-! ### Signatures (crypto.go:40-89, 184-194, 336-448) -/

/-- `signatureAlgorithm` (crypto.go:38-45). -/
inductive SigAlg where
  | unknown | pkcs1 | pss | ecdsa
  deriving DecidableEq, Repr

/-- `hashMap` (crypto.go:48-59). -/
def schemeHash (s : Nat) : HashId :=
  if s = 0x0201 then .sha1
  else if s = 0x0401 ∨ s = 0x0403 ∨ s = 0x0804 then .sha256
  else if s = 0x0501 ∨ s = 0x0503 ∨ s = 0x0805 then .sha384
  else if s = 0x0601 ∨ s = 0x0603 ∨ s = 0x0806 then .sha512
  else .none

/-- `sigMap` (crypto.go:61-72). -/
def schemeAlg (s : Nat) : SigAlg :=
  if s = 0x0201 ∨ s = 0x0401 ∨ s = 0x0501 ∨ s = 0x0601 then .pkcs1
  else if s = 0x0403 ∨ s = 0x0503 ∨ s = 0x0603 then .ecdsa
  else if s = 0x0804 ∨ s = 0x0805 ∨ s = 0x0806 then .pss
  else .unknown

/-- `curveMap` (crypto.go:74-78). -/
def schemeCurve (s : Nat) : Nat :=
  if s = 0x0403 then 23 else if s = 0x0503 then 24 else if s = 0x0603 then 25 else 0

/-- What kind of key a `crypto.Signer` or a `crypto.PublicKey` is; for ECDSA with the group of its curve
(`namedGroupFromECDSAKey`, crypto.go:131-141, 0 for a curve mint does not know). -/
inductive KeyKind where
  | rsa
  | ecdsa (curve : Nat)
  | other
  deriving DecidableEq, Repr

/-- A private key (`crypto.Signer`): its kind and an opaque value. -/
structure PrivKey where
  kind : KeyKind
  val : Nat
  deriving DecidableEq, Repr

/-- A public key, as found in a certificate. -/
structure PubKey where
  kind : KeyKind
  val : Nat
  deriving DecidableEq, Repr

/-- `schemeValidForKey` (crypto.go:184-194). -/
def schemeValidForKey (alg : Nat) (key : PrivKey) : Bool :=
  match key.kind with
  | .rsa => schemeAlg alg == .pkcs1 || schemeAlg alg == .pss
  | .ecdsa _ => schemeAlg alg == .ecdsa
  | .other => false

/-- Signature primitives: `privateKey.Sign`, and `rsa.VerifyPKCS1v15`, `rsa.VerifyPSS` or the parsing of the signature
followed by `ecdsa.Verify`, each applied to a digest. -/
structure Sig where
  sign : PrivKey → SigAlg → HashId → Bytes → Option Bytes
  verify : PubKey → SigAlg → HashId → Bytes → Bytes → Bool

/-- `sign` (crypto.go:336-385), with `allowPKCS1` (common.go:18) true. -/
def sign (P : Prims) (S : Sig) (alg : Nat) (key : PrivKey) (input : Bytes) : Res Bytes :=
  if schemeHash alg = .sha1 then .err .msg
  else
    let go := match S.sign key (schemeAlg alg) (schemeHash alg) (P.hash (schemeHash alg) input) with
      | some sig => .ok sig
      | none => .err .msg
    match key.kind with
    | .rsa => if schemeAlg alg = .pkcs1 ∨ schemeAlg alg = .pss then go else .err .msg
    | .ecdsa curve =>
      if schemeAlg alg ≠ .ecdsa then .err .msg
      else if schemeCurve alg ≠ curve then .err .msg
      else go
    | .other => .err .msg

/-- `verify` (crypto.go:387-448): whether the error is nil. -/
def verify (P : Prims) (S : Sig) (alg : Nat) (key : PubKey) (input sig : Bytes) : Bool :=
  if schemeHash alg = .sha1 then false
  else
    let go := S.verify key (schemeAlg alg) (schemeHash alg) (P.hash (schemeHash alg) input) sig
    match key.kind with
    | .rsa => if schemeAlg alg = .pkcs1 ∨ schemeAlg alg = .pss then go else false
    | .ecdsa curve => if schemeAlg alg ≠ .ecdsa then false else if schemeCurve alg ≠ curve then false else go
    | .other => false

end Verif.Crypto
