import Verif.Negotiation.Model

/-
Self-signed certificates: `newSigningKey`, `newSelfSigned` and `MakeNewSelfSignedCert` (crypto.go).
-/

namespace Verif.Crypto

open Verif Verif.Negotiation

/-- The algorithms of `crypto/x509` that mint uses (crypto.go:107-113). -/
inductive X509Alg where
  | sha1WithRSA | sha256WithRSA | sha384WithRSA | sha512WithRSA
  | ecdsaWithSHA256 | ecdsaWithSHA384 | ecdsaWithSHA512
  deriving DecidableEq, Repr

/-- `x509AlgMap` (crypto.go:106-114). -/
def x509Alg (s : Nat) : Option X509Alg :=
  if s = 0x0201 then some .sha1WithRSA
  else if s = 0x0401 then some .sha256WithRSA
  else if s = 0x0501 then some .sha384WithRSA
  else if s = 0x0601 then some .sha512WithRSA
  else if s = 0x0403 then some .ecdsaWithSHA256
  else if s = 0x0503 then some .ecdsaWithSHA384
  else if s = 0x0603 then some .ecdsaWithSHA512
  else none

/-- The template of a certificate (crypto.go:645-654), without its times and key usages, which mint does not read. -/
structure Template where
  serial : Nat
  alg : X509Alg
  commonName : Bytes
  dnsNames : List Bytes
  deriving DecidableEq, Repr

/-- What is done outside mint: `rsa.GenerateKey`, `ecdsa.GenerateKey` for the curve of a group, `Public`, `rand.Int`,
`x509.CreateCertificate` with the template as its own parent, and `x509.ParseCertificate`. Absent results are errors. -/
structure CertMaker where
  rsaKey : Option Nat
  ecKey : Nat → Option Nat
  pub : PrivKey → PubKey
  serial : Option Nat
  create : Template → PubKey → PrivKey → Option Bytes
  parse : Bytes → Option X509

/-- `ecdsa.GenerateKey` as used at crypto.go:320-325. -/
def CertMaker.newEc (M : CertMaker) (curve : Nat) : Res PrivKey :=
  match M.ecKey curve with
  | some v => .ok ⟨.ecdsa curve, v⟩
  | none => .err .msg

/-- `newSigningKey` (crypto.go:313-329). -/
def CertMaker.newSigningKey (M : CertMaker) (alg : Nat) : Res PrivKey :=
  if alg = 0x0201 ∨ alg = 0x0401 ∨ alg = 0x0501 ∨ alg = 0x0601 ∨ alg = 0x0804 ∨ alg = 0x0805 ∨ alg = 0x0806 then
    match M.rsaKey with
    | some v => .ok ⟨.rsa, v⟩
    | none => .err .msg
  else if alg = 0x0403 then M.newEc 23
  else if alg = 0x0503 then M.newEc 24
  else if alg = 0x0603 then M.newEc 25
  else .err .msg

/-- `newSelfSigned` (crypto.go:631-663): the certificate, `none` standing for the nil pointer returned if what was just made
does not parse (the error is ignored at 661). -/
def CertMaker.newSelfSigned (M : CertMaker) (name : Bytes) (alg : Nat) (priv : PrivKey) : Res (Option X509) :=
  match x509Alg alg with
  | none => .err .msg
  | some sigAlg =>
    if name.length = 0 then .err .msg
    else
      match M.serial with
      | none => .err .msg
      | some serial =>
        match M.create ⟨serial, sigAlg, name, [name]⟩ (M.pub priv) priv with
        | none => .err .msg
        | some der => .ok (M.parse der)

/-- `MakeNewSelfSignedCert` (crypto.go:618-629). -/
def CertMaker.makeNewSelfSignedCert (M : CertMaker) (name : Bytes) (alg : Nat) : Res (PrivKey × Option X509) :=
  (M.newSigningKey alg).bind fun priv =>
  (M.newSelfSigned name alg priv).bind fun cert =>
  .ok (priv, cert)

end Verif.Crypto
