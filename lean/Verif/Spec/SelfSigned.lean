import Verif.Crypto.SelfSigned

/-
What self-signed certificates are expected to be, and what is assumed of the libraries that make them.
-/

namespace Verif.Spec

open Verif Verif.Crypto Verif.Negotiation

/-- The schemes a certificate can be made for: PKCS#1 with SHA-256, 384 and 512, and ECDSA on P-256, P-384 and P-521. -/
def madeFor : List Nat := [0x0401, 0x0501, 0x0601, 0x0403, 0x0503, 0x0603]

def ecdsaSchemes : List Nat := [0x0403, 0x0503, 0x0603]
def pssSchemes : List Nat := [0x0804, 0x0805, 0x0806]

/-- An algorithm of X.509 that goes with a key, SHA-1 aside. -/
def AlgFits : X509Alg → KeyKind → Prop
  | .sha1WithRSA, _ => False
  | .sha256WithRSA, k | .sha384WithRSA, k | .sha512WithRSA, k => k = .rsa
  | .ecdsaWithSHA256, k | .ecdsaWithSHA384, k | .ecdsaWithSHA512, k => ∃ c, k = .ecdsa c

/-- A key that was generated. -/
def Generated (M : CertMaker) (k : PrivKey) : Prop :=
  (k.kind = .rsa ∧ M.rsaKey = some k.val) ∨ ∃ c, k.kind = .ecdsa c ∧ M.ecKey c = some k.val

/-- The libraries work: keys and serial numbers are generated, public keys are of the kind of the private ones, and a
certificate made from a template parses, with the names of the template and the public key. -/
structure Makes (M : CertMaker) : Prop where
  rsa : M.rsaKey.isSome
  ec : ∀ c ∈ [23, 24, 25], (M.ecKey c).isSome
  serial : M.serial.isSome
  kind : ∀ k, (M.pub k).kind = k.kind
  created : ∀ t k, AlgFits t.alg k.kind → ∃ der, M.create t (M.pub k) k = some der ∧
    M.parse der = some ⟨der, t.dnsNames, M.pub k⟩ ∧ 0 < der.length

/-- What a generated key signs, its public key verifies: PKCS#1 and PSS with an RSA key, ECDSA with an ECDSA key. -/
def SignsAndVerifies (M : CertMaker) (S : Sig) : Prop :=
  ∀ k, Generated M k → ∀ a h d,
    (h = .sha256 ∨ h = .sha384 ∨ h = .sha512) →
    ((k.kind = .rsa ∧ (a = .pkcs1 ∨ a = .pss)) ∨ ∃ c, k.kind = .ecdsa c ∧ a = .ecdsa) →
    ∃ sig, S.sign k a h d = some sig ∧ sig.length < 65536 ∧ S.verify (M.pub k) a h d sig = true

end Verif.Spec
