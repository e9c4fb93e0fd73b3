import Verif.Spec.Compatible

/-
When a server that asks for a cookie can be reached.
-/

namespace Verif.Spec

open Verif Verif.Crypto Verif.Messages Verif.Handshake Verif.Machine

/-- A CookieProtector that does its job: from a short state it makes a token, neither empty nor long, that decodes to it. -/
def ProtectorWorks (prot : Protector) : Prop :=
  ∀ n state, state.length ≤ 2000 → ∃ token, prot.newToken n state = .ok token ∧ 0 < token.length ∧ token.length ≤ 10000 ∧
    prot.decodeToken token = .ok state

/-- The application, if it makes cookies, has a short one for the client, and accepts it when it comes back. -/
def GivesCookie (cfg : Config) (c : Coins) : Prop :=
  ∀ validate, cfg.cookieHandler = some validate → ∃ app, c.appCookie = .ok (some app) ∧ app.length ≤ 1000 ∧ validate app = true

/-- A client and a server that asks for a cookie should be able to talk to each other. -/
structure CompatibleCookie (E : Env) (now : Int → Prop) (ccfg scfg : Config) : Prop where
  fits : ClientFits ccfg
  dh : ∀ g ∈ ccfg.groups, DhWorks E.D g
  required : scfg.requireCookie = true
  protector : ∃ prot, scfg.cookieProtector = some prot ∧ ProtectorWorks prot
  method : UseCert E now ccfg scfg

end Verif.Spec
