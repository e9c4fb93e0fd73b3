import Verif.Machine.Safe
import Verif.Machine.Toy

/-
C45: no message, at any state, makes either state machine panic. The code does not have this property; the messages that
make it panic are shown first, and then that, with sound configurations, there are no others.
-/

namespace Verif.Toy

open Verif Verif.Crypto Verif.Messages Verif.Negotiation Verif.Handshake Verif.Machine Verif.Spec

/-- Whether something panicked. -/
def panics {α : Type} : Res α → Bool
  | .panic => true
  | _ => false

theorem panics_ok {α : Type} {r : Res α} (h : panics r = true) : r = .panic := by
  cases r <;> first | rfl | cases h

/-- The world in which key shares for P-256 have 65 bytes, and those that start with 4 are points. -/
def curveEnv : Env :=
  { env with D := { gen := fun n _ => some (4 :: beBytes 64 (n + 5), beBytes 32 (n + 5)),
                    point := fun _ b => b.head? == some 4,
                    mul := fun _ pub priv => beBytes 32 (beNat (pub.drop 1) * beNat priv) } }

def curveClient : Config := { clientCfg with groups := [23] }
def curveServer : Config := { serverCfg with groups := [23] }

/-- The honest server's flight, but for the Certificate, which is empty. -/
def emptyCertificate : List (Event × Coins) :=
  (exchange tls clientCfg serverCfg 2).1.map fun e =>
    match e.1 with
    | .msg m => if m.msgType = 11 then (.msg (message (.certificate ⟨[], []⟩)), e.2) else e
    | _ => e

/-- A ServerHello with a share that is not a point. -/
def badShare : Msg :=
  message (.serverHello ⟨0x0303, random 9, [], 0x1301, 0,
    [(43, [3, 4], ()), (51, [0, 23, 0, 65] ++ List.replicate 65 7, ())]⟩)

/-- A ClientHello with such a share. -/
def badHello : Msg :=
  message (.clientHello ⟨0x0303, random 9, [], [0x1301],
    [(43, [2, 3, 4], ()), (51, [0, 69, 0, 23, 0, 65] ++ List.replicate 65 7, ())]⟩)

/-- A ClientHello with a cookie. -/
def cookieHello : Msg :=
  message (.clientHello ⟨0x0303, random 9, [], [0x1301], [(43, [2, 3, 4], ()), (44, [0, 1, 7], ())]⟩)

/-- A HelloRetryRequest for the suite of AES-128-CCM, which mint does not implement. -/
def ccmRetry : Msg :=
  match makeRetry tls 0x1304 [] [1] with
  | .ok (m, _) => m
  | _ => ⟨0, 0, [], 0, 0⟩

end Verif.Toy

namespace Verif.Machine

open Verif Verif.Crypto Verif.Messages Verif.Negotiation Verif.Handshake Verif.Spec Verif.Toy

/-! ### Messages that make mint panic -/

/-- C45 is violated: a server that sends a Certificate without certificates, and then a CertificateVerify, crashes the client
(client-state-machine.go:821), whatever the configuration of the client. -/
theorem C45_empty_certificate_fails : ∃ (E : Env) (x : Ctx) (cfg : Config) (c : Coins) (es : List (Event × Coins)),
    E.P.Sized ∧ (∀ s ∈ cfg.suites, ∃ p, suiteParams s.toNat = some p) ∧ clientRun E x cfg c es = .panic :=
  ⟨env, tls, clientCfg, coins 2, emptyCertificate, prims_sized, by
    intro s hs
    simp only [clientCfg, List.mem_cons, List.not_mem_nil, or_false] at hs
    rcases hs with rfl | rfl <;> exact ⟨_, rfl⟩, panics_ok (by decide +kernel)⟩

/-- C45 is violated: a server whose key share is not a point of the curve crashes the client (crypto.go:270-271). -/
theorem C45_client_point_fails : ∃ (E : Env) (x : Ctx) (cfg : Config) (c : Coins) (m : Msg) (c' : Coins),
    E.P.Sized ∧ (∀ s ∈ cfg.suites, ∃ p, suiteParams s.toNat = some p) ∧ clientRun E x cfg c [(.msg m, c')] = .panic :=
  ⟨curveEnv, tls, curveClient, coins 2, badShare, coins 4, prims_sized, by
    intro s hs
    simp only [curveClient, clientCfg, List.mem_cons, List.not_mem_nil, or_false] at hs
    rcases hs with rfl | rfl <;> exact ⟨_, rfl⟩, panics_ok (by decide +kernel)⟩

/-- C45 is violated: a client configured with a suite that mint does not implement crashes when a HelloRetryRequest names it
(client-state-machine.go:408-409). -/
theorem C45_retry_suite_fails : ∃ (E : Env) (x : Ctx) (cfg : Config) (c : Coins) (m : Msg) (c' : Coins),
    E.P.Sized ∧ HarmlessToClient E m ∧ clientRun E x cfg c [(.msg m, c')] = .panic :=
  ⟨env, tls, { clientCfg with suites := [0x1301, 0x1304] }, coins 2, ccmRetry, coins 4, prims_sized,
    ⟨fun h => absurd h (by decide +kernel), fun _ _ _ _ _ _ _ _ => rfl⟩, panics_ok (by decide +kernel)⟩

/-- C45 is violated: a client that sends a cookie crashes a server that has no cookie protector
(server-state-machine.go:176), even if it does not use cookies. -/
theorem C45_cookie_fails : ∃ (E : Env) (x : Ctx) (cfg : Config) (m : Msg) (c : Coins),
    E.P.Sized ∧ SoundServerConfig cfg ∧ cfg.requireCookie = false ∧ serverRun E x cfg [(.msg m, c)] = .panic :=
  ⟨env, tls, { serverCfg with cookieProtector := none }, cookieHello, coins 6, prims_sized,
    ⟨by
      intro s hs
      simp only [serverCfg, List.mem_cons, List.not_mem_nil, or_false] at hs
      subst hs; exact ⟨_, rfl⟩, by
      intro c hc
      simp only [serverCfg, List.mem_cons, List.not_mem_nil, or_false] at hc
      subst hc; simp [cert], (by intro h; cases h), (by intro p h; cases h)⟩, rfl, panics_ok (by decide +kernel)⟩

/-- The toy server's configuration is sound. -/
theorem serverCfg_sound : SoundServerConfig serverCfg where
  suites := by
    intro s hs
    simp only [serverCfg, List.mem_cons, List.not_mem_nil, or_false] at hs
    subst hs; exact ⟨_, rfl⟩
  chains := by
    intro c hc
    simp only [serverCfg, List.mem_cons, List.not_mem_nil, or_false] at hc
    subst hc; simp [cert]
  protector := by intro h; cases h
  returns := by
    rintro p h
    cases h
    exact ⟨fun _ _ => trivial, fun b => by simp only [protector]; split <;> trivial⟩

/-- C45 is violated: a client whose key share is not a point of the curve crashes the server (crypto.go:270-271). -/
theorem C45_server_point_fails : ∃ (E : Env) (x : Ctx) (cfg : Config) (m : Msg) (c : Coins),
    E.P.Sized ∧ SoundServerConfig cfg ∧ serverRun E x cfg [(.msg m, c)] = .panic :=
  ⟨curveEnv, tls, curveServer, badHello, coins 6, prims_sized,
    ⟨serverCfg_sound.suites, serverCfg_sound.chains, serverCfg_sound.protector, serverCfg_sound.returns⟩,
    panics_ok (by decide +kernel)⟩

/-! ### No other message does -/

/-- C45 for a client whose configuration names only suites that mint implements: whatever it reads, in whatever order, it
neither panics nor fails to return, if no Certificate it reads is empty and every key share on a NIST curve is a point. -/
theorem C45_client_partial (E : Env) (hP : E.P.Sized) (x : Ctx) (cfg : Config) (c : Coins) (es : List (Event × Coins))
    (suites : ∀ s ∈ cfg.suites, ∃ p, suiteParams s.toNat = some p) (harmless : ∀ m ∈ received es, HarmlessToClient E m) :
    (clientRun E x cfg c es).Safe :=
  clientRun_safe hP suites harmless

/-- C45 for a server with a sound configuration: whatever it reads, in whatever order, it does not panic, if no hello has a
cookie that there is no protector for, and every key share on a NIST curve is a point. (That it may fail to return is part
of C46.) -/
theorem C45_server_partial (E : Env) (hP : E.P.Sized) (x : Ctx) (cfg : Config) (es : List (Event × Coins))
    (sound : SoundServerConfig cfg) (cookies : ∀ e ∈ es, e.2.appCookie.Safe)
    (harmless : ∀ m ∈ received es, HarmlessToServer E cfg m) : serverRun E x cfg es ≠ .panic :=
  serverRun_ne_panic hP sound harmless cookies

/-- Whether a message is a Certificate without certificates. -/
def emptyCert (m : Msg) : Bool :=
  match CertificateMsg.unmarshal env.parses m.body with
  | .ok (c, _) => m.msgType == typeCertificate && c.list.isEmpty
  | _ => false

theorem harmless_of_not_empty {m : Msg} (h : emptyCert m = false) : HarmlessToClient env m where
  certificate := by
    intro ht c n hu
    simp only [emptyCert, hu, ht, beq_self_eq_true, Bool.true_and] at h
    intro hn; simp [hn] at h
  point := fun _ _ _ _ _ _ _ _ => rfl

/-- The hypotheses hold of the whole handshake of the toy client and server. -/
example : (clientEnd tls clientCfg serverCfg 2).Safe :=
  C45_client_partial env prims_sized _ _ _ _ (by
    intro s hs
    simp only [clientCfg, List.mem_cons, List.not_mem_nil, or_false] at hs
    rcases hs with rfl | rfl <;> exact ⟨_, rfl⟩)
    (by
      have h : (received (exchange tls clientCfg serverCfg 2).1).all (fun m => !emptyCert m) = true := by decide +kernel
      intro m hm
      have := List.all_eq_true.1 h m hm
      exact harmless_of_not_empty (by simpa using this))

/-- They are used: what the client reads there includes a Certificate and a CertificateVerify. -/
example : (received (exchange tls clientCfg serverCfg 2).1).map (·.msgType) = [2, 8, 11, 15, 20] := by decide +kernel

example : serverEnd tls clientCfg serverCfg 2 ≠ .panic :=
  C45_server_partial env prims_sized _ _ _ serverCfg_sound
    (by
      have h : ((exchange tls clientCfg serverCfg 2).2).all
          (fun e => match e.2.appCookie with | .panic => false | .diverge => false | _ => true) = true := by decide +kernel
      intro e he
      have := List.all_eq_true.1 h e he
      cases hc : e.2.appCookie with
      | ok a => trivial
      | err a => trivial
      | panic => simp [hc] at this
      | diverge => simp [hc] at this)
    fun m _ => ⟨fun _ _ _ _ _ _ _ => by simp [serverCfg], fun _ _ _ _ _ _ _ _ _ _ _ => rfl⟩

end Verif.Machine
