import Verif.Spec.Views

/-
The messages that make mint panic, by their contents.
-/

namespace Verif.Spec

open Verif Verif.Crypto Verif.Messages Verif.Handshake Verif.Machine

/-- The messages a client copes with: no Certificate without certificates, and no ServerHello whose key share is on a NIST
curve (groups 23, 24, 25) but not the encoding of a point. -/
structure HarmlessToClient (E : Env) (m : Msg) : Prop where
  certificate : m.msgType = typeCertificate → ∀ c n, CertificateMsg.unmarshal E.parses m.body = .ok (c, n) → c.list ≠ []
  point : m.msgType = typeServerHello → ∀ sh n g key, ServerHello.unmarshal m.body = .ok (sh, n) →
    Carries (.keyShare typeServerHello) sh.exts (.keyShare typeServerHello 0 [(g, key, ())]) →
    g.toNat ∈ [23, 24, 25] → E.D.point g.toNat key = true

/-- The messages a server copes with: no cookie if it has no cookie protector, and no key share on a NIST curve that is not
the encoding of a point. -/
structure HarmlessToServer (E : Env) (cfg : Config) (m : Msg) : Prop where
  cookie : m.msgType = typeClientHello → ∀ v ch n c, ClientHello.unmarshal v m.body = .ok (ch, n) →
    Carries .cookie ch.exts (.cookie c) → cfg.cookieProtector ≠ none
  point : m.msgType = typeClientHello → ∀ v ch n shares g key, ClientHello.unmarshal v m.body = .ok (ch, n) →
    Carries (.keyShare typeClientHello) ch.exts (.keyShare typeClientHello 0 shares) → (g, key, ()) ∈ shares →
    g.toNat ∈ [23, 24, 25] → E.D.point g.toNat key = true

/-- The functions of an application's cookie protector return. -/
def ProtectorReturns (p : Protector) : Prop := (∀ n b, (p.newToken n b).Safe) ∧ ∀ b, (p.decodeToken b).Safe

/-- What the server's configuration has to be like for it not to panic: the cipher suites are ones mint implements, every
certificate has a chain, there is a cookie protector if cookies are required, and it works. -/
structure SoundServerConfig (cfg : Config) : Prop where
  suites : ∀ s ∈ cfg.suites, ∃ p, suiteParams s.toNat = some p
  chains : ∀ c ∈ cfg.certificates, c.chain ≠ []
  protector : cfg.requireCookie = true → cfg.cookieProtector ≠ none
  returns : ∀ p, cfg.cookieProtector = some p → ProtectorReturns p

end Verif.Spec
