import Verif.Spec.Best

/-
What a server may take a cookie for, if nobody else can make one.
-/

namespace Verif.Spec

open Verif Verif.Crypto Verif.Messages Verif.Handshake Verif.Machine

/-- What is in a cookie that a server of configuration `cfg` gives out: the hash of a ClientHello that had no cookie, and a
suite; if the hello had no PSKs (41), the suite is the best of what it offers and what the server has. -/
def FromHello (P : Prims) (d : Bool) (cfg : Config) (suite : UInt16) (hash : Bytes) : Prop :=
  ∃ p m ch, suiteParams suite.toNat = some p ∧ m.msgType = 1 ∧ Framed m ∧
    ClientHello.unmarshal (if d then 0xfefd else 0x0303) m.body = .ok (ch, m.body.length) ∧
    hash = P.hash p.hash (wire d [m]) ∧ dataOf 44 ch.exts = [] ∧
    (hasExt 41 ch.exts = false → BestCommon ch.suites cfg.suites suite)

/-- The protector of a server accepts no cookies but such as the server gives out. -/
def IssuedCookies (P : Prims) (d : Bool) (cfg : Config) : Prop :=
  ∀ prot c plain suite hash app, cfg.cookieProtector = some prot → prot.decodeToken c = .ok plain →
    decodeCookie plain = .ok (suite, hash, app) → FromHello P d cfg suite hash

end Verif.Spec
