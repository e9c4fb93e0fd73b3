import Verif.Spec.Sha256
import Verif.Machine.Client
import Verif.Crypto.Lemmas
import Verif.Crypto.Exporter

/-
Constants that are defined by something else: the Random of a HelloRetryRequest is a digest (C74), the keys of cookies come from
a label (C36).
-/

namespace Verif.Props

open Verif Verif.Crypto Verif.Machine Verif.Spec

/-- **C74.** The Random by which a HelloRetryRequest is recognised is the SHA-256 digest of "HelloRetryRequest" (RFC 8446,
section 4.1.3). -/
theorem C74_retry_random : hrrRandom = sha256 (ascii "HelloRetryRequest") := by decide +kernel

/-- The digest of "abc", FIPS 180-4's own example, begins with ba7816bf. -/
example : (sha256 (ascii "abc")).take 4 = [0xba, 0x78, 0x16, 0xbf] := by decide +kernel

/-- **C36.** Key and nonce of a cookie are the first 32 and the next 12 bytes of the HKDF output for the protector's secret, the
cookie's nonce as salt and the label "mint cookie source". -/
theorem C36_key_material (P : Prims) (hP : P.Sized) (secret nonce : Bytes) :
    cookieKey P secret nonce =
      .ok ((expand P .sha256 (extract P .sha256 nonce secret) (ascii "mint cookie source") 44).take 32,
        (expand P .sha256 (extract P .sha256 nonce secret) (ascii "mint cookie source") 44).drop 32) := by
  have hi : cookieInfo = ascii "mint cookie source" := by decide +kernel
  rw [cookieKey, hi, hkdfExpand_eq P hP .sha256 (by decide)]
  rfl

end Verif.Props
