import Verif.Machine.Resumed
import Verif.Spec.Resume
import Verif.Props.Connect
import Verif.Props.KeyUpdate
import Verif.Props.Offers
import Verif.Props.Config
import Verif.Props.Completion

/-
C70: a session can be resumed.
-/

namespace Verif.Props

open Verif Verif.Crypto Verif.Messages Verif.Negotiation Verif.Handshake Verif.Machine Verif.Spec

/-- Storing a PSK in a map that is not nil does what is assumed of it. -/
theorem C70_cache (cfg : Config) (es : List (Bytes × Psk)) (name : Bytes) (k : Psk)
    (hc : cfg.psks = Conn.Cache.get (some es)) :
    ∃ c, Conn.Cache.put (some es) name k = .ok c ∧ (storing cfg name k).psks = Conn.Cache.get c := by
  refine ⟨_, rfl, funext fun n => ?_⟩
  simp only [storing, hc, Conn.Cache.get, Option.getD_some, Conn.lookup_assign]

theorem ages_agree {t0 t1 : Int} {now : Int → Prop} (h : InTime t0 t1 now) {k k' : Psk} (hk : k.receivedAt = t1)
    (hk' : k'.receivedAt = t0) {t t' : Int} (ht : now t) (ht' : now t') : AgesAgree k k' t t' := by
  obtain ⟨h1, h2, h3, h4, h5, h6⟩ := h t t' ht ht'
  refine ⟨((t - t1) / 1000000).toNat, ((t' - t0) / 1000000).toNat, ?_, ?_, ?_, ?_, ?_, ?_⟩
  · rw [hk, Int.tdiv_eq_ediv_of_nonneg h1]; omega
  · rw [hk', Int.tdiv_eq_ediv_of_nonneg h3]; omega
  all_goals omega

/-- After a handshake that went through, the client reads the ticket the server sends; and once each has stored what it has of
it, the two are compatible again at the times the ticket can be used, if they agreed on a protocol or the client has none. -/
theorem C70_resumable_partial {E : Env} (hP : E.P.Sized) {now now' : Int → Prop} {ccfg scfg : Config}
    (C : Compatible E now ccfg scfg) {x x' y y' : Ctx} (hd : y.datagram = x.datagram) {c0 : Coins} (h0 : GoodCoins now c0)
    {es fs : List (Event × Coins)} (h : Delivery E x y ccfg scfg c0 now es fs)
    {cc sc : Connected} {cacts sacts : List Action}
    (hc : clientRun E x ccfg c0 es = .ok (.connected cc, cacts, x')) (hs : serverRun E y scfg fs = .ok (.connected sc, sacts, y'))
    (hall : es.length = (sent sacts).length) (hall' : fs.length = (sent cacts).length)
    {t0 t1 : Int} {lifetime early ageAdd : UInt32} {nonce ticket : Bytes} {acts : List Action} {y2 : Ctx}
    (ht : sc.newSessionTicket E y' t0 lifetime early ageAdd nonce ticket = .ok (acts, y2))
    (hlen : 0 < ticket.length ∧ ticket.length ≤ 10000) (R : MayResume ccfg scfg)
    (hp : ccfg.nextProtos = [] ∨ sc.params.nextProto ≠ []) (T : InTime t0 t1 now') :
    ∃ (k k' : Psk) (m : Msg), acts = [.storePsk k', .queue m, .sendQueued] ∧
      cc.process E x' t1 (arrived x.datagram m) = .ok (cc, [.storePsk k], x') ∧
      k.identity = ticket ∧ k'.identity = ticket ∧
      SharePsk now' (storing ccfg ccfg.serverName k) (storing scfg (hexString k'.identity) k') k k' ∧
      Compatible E now' (storing ccfg ccfg.serverName k) (storing scfg (hexString k'.identity) k') ∧
      k.isResumption = true ∧ k.suite = sc.params.suite.toNat ∧ k'.nextProto = sc.params.nextProto := by
  obtain ⟨_, _, _, _, _, _, hc', hs', _, _, _, _, hdone⟩ := C42_completes_partial hP C hd h0 h
  rw [hc, Res.ok.injEq, Prod.mk.injEq, Prod.mk.injEq] at hc'
  rw [hs, Res.ok.injEq, Prod.mk.injEq, Prod.mk.injEq] at hs'
  obtain ⟨rfl, rfl, rfl⟩ := hc'
  obtain ⟨rfl, rfl, rfl⟩ := hs'
  obtain ⟨cc1, sc1, he1, he2, S, _⟩ := hdone hall hall'
  cases he1; cases he2
  obtain ⟨_, _, _, _, _, _, _, _, _, _, _, _, _, hoffered, _⟩ := C44_offered_partial E hP _ _ _ _ _ _ _ hc
  obtain ⟨_, _, _, _, _, _, _, _, _, _, _, _, _, _, _, _, hsuite, _⟩ := C38_server E hP _ _ _ _ _ _ hs
  have hz := suiteParams_size hsuite
  obtain ⟨k', m, rfl, _, hkey, hid, hks, hres, hnp, hadd, hread⟩ := C48_same_psk E hP cc sc y' y2 x' t0 t1 lifetime early ageAdd nonce ticket
    acts ht S.roles.1 S.suite hz S.resumption (by rw [S.params])
  obtain ⟨k, hproc, hk⟩ := hread (arrived x.datagram m) (by unfold arrived; split <;> rfl) (by unfold arrived; split <;> rfl)
  have hexp := C57_expiry_partial E cc sc y' y2 x' x' t0 t1 lifetime early ageAdd nonce ticket _ [.storePsk k] cc m k' k ht (by simp) (by simp)
    (by
      rw [← hproc]
      unfold arrived
      split
      · rfl
      · rfl) (by simp)
  have hk's : k'.suite = sc.params.suite.toNat := by rw [hks]; exact suiteParams_suite hsuite
  have hkid : k.identity = ticket := by rw [hk]; exact hid
  have hkres : k.isResumption = true := by rw [hk]; exact hres
  have hksu : k.suite = sc.params.suite.toNat := by rw [hk]; exact hk's
  obtain ⟨hagreed, _⟩ := server_settled hP C hd h0 h hs
  have SP : SharePsk now' (storing ccfg ccfg.serverName k) (storing scfg (hexString k'.identity) k') k k' := {
    client := by simp [storing]
    server := by simp [storing, hkid, hid]
    key := by rw [hk]
    suite := by rw [hk]
    sort := by rw [hk]
    known := by rw [hksu, hsuite]; rfl
    offered := ⟨sc.params.suite, by rw [← S.params]; exact hoffered, hksu.symm⟩
    modes := R.modes
    exchange := R.exchange
    ages := fun _ => ⟨by rw [hk], fun t t' h1 h2 => ages_agree T hexp.2.2.1 hexp.1 h1 h2⟩
    protocol := by
      intro _
      rcases hp with hp | hp
      · exact .inl hp
      · rcases hagreed with h | h
        · exact absurd h hp
        · right; rw [hnp]; exact h
    early := R.early }
  refine ⟨k, k', m, rfl, hproc, hkid, hid, SP, ?_, hkres, hksu, hnp⟩
  exact {
    fits := { C.fits with
      psk := by
        intro q hq
        simp only [storing, if_true, Option.some.injEq] at hq
        subst hq
        rw [hkid]; exact hlen }
    dh := C.dh
    noCookie := C.noCookie
    method := .inl ⟨k, k', SP⟩ }

/-- And the next handshake goes through, with the PSK of the ticket, and the suite and the protocol of the session: any
execution in which messages are delivered as they were sent can be completed, and at its end the two agree. -/
theorem C70_resumes_partial {E : Env} (hP : E.P.Sized) {now now' : Int → Prop} {ccfg scfg : Config}
    (C : Compatible E now ccfg scfg) {x x' y y' : Ctx} (hd : y.datagram = x.datagram) {c0 : Coins} (h0 : GoodCoins now c0)
    {es fs : List (Event × Coins)} (h : Delivery E x y ccfg scfg c0 now es fs)
    {cc sc : Connected} {cacts sacts : List Action}
    (hc : clientRun E x ccfg c0 es = .ok (.connected cc, cacts, x')) (hs : serverRun E y scfg fs = .ok (.connected sc, sacts, y'))
    (hall : es.length = (sent sacts).length) (hall' : fs.length = (sent cacts).length)
    {t0 t1 : Int} {lifetime early ageAdd : UInt32} {nonce ticket : Bytes} {acts : List Action} {y2 : Ctx}
    (ht : sc.newSessionTicket E y' t0 lifetime early ageAdd nonce ticket = .ok (acts, y2))
    (hlen : 0 < ticket.length ∧ ticket.length ≤ 10000) (R : MayResume ccfg scfg)
    (hp : ccfg.nextProtos = [] ∨ sc.params.nextProto ≠ []) (T : InTime t0 t1 now') :
    ∃ (k k' : Psk) (m : Msg), acts = [.storePsk k', .queue m, .sendQueued] ∧
      cc.process E x' t1 (arrived x.datagram m) = .ok (cc, [.storePsk k], x') ∧
      ∀ (u v : Ctx) (d0 : Coins) (gs hs : List (Event × Coins)), v.datagram = u.datagram → GoodCoins now' d0 →
        Delivery E u v (storing ccfg ccfg.serverName k) (storing scfg (hexString k'.identity) k') d0 now' gs hs →
        ∃ (gs' hs' : List (Event × Coins)) (cc' sc' : Connected) (ca sa : List Action) (u' v' : Ctx),
          Delivery E u v (storing ccfg ccfg.serverName k) (storing scfg (hexString k'.identity) k') d0 now' (gs ++ gs') (hs ++ hs') ∧
          clientRun E u (storing ccfg ccfg.serverName k) d0 (gs ++ gs') = .ok (.connected cc', ca, u') ∧
          serverRun E v (storing scfg (hexString k'.identity) k') (hs ++ hs') = .ok (.connected sc', sa, v') ∧
          SameConnection cc' sc' ∧ Resumes cc cc' ∧ Resumes sc sc' := by
  obtain ⟨k, k', m, ha, hproc, _, _, SP, C', hkres, hksu, hnp⟩ := C70_resumable_partial hP C hd h0 h hc hs hall hall' ht hlen R hp T
  refine ⟨k, k', m, ha, hproc, ?_⟩
  intro u v d0 gs hs2 hd' hg hdel
  obtain ⟨gs', hs', cc', ca, u', sc', sa, v', hdel', hc', hs'', S'⟩ := C42_reaches_partial hP C' hd' hg hdel
  obtain ⟨_, hset⟩ := server_settled hP C' hd' hg hdel' hs''
  obtain ⟨h1, h2, h3⟩ := hset k k' SP
  have hS : SameConnection cc sc := by
    obtain ⟨_, _, _, _, _, _, hc', hs', _, _, _, _, hdone⟩ := C42_completes_partial hP C hd h0 h
    rw [hc, Res.ok.injEq, Prod.mk.injEq, Prod.mk.injEq] at hc'
    rw [hs, Res.ok.injEq, Prod.mk.injEq, Prod.mk.injEq] at hs'
    obtain ⟨rfl, rfl, rfl⟩ := hc'
    obtain ⟨rfl, rfl, rfl⟩ := hs'
    obtain ⟨cc1, sc1, he1, he2, S, _⟩ := hdone hall hall'
    cases he1; cases he2
    exact S
  have hr : Resumes sc sc' := by
    refine ⟨h1, UInt16.toNat_inj.1 (by rw [h2, hksu]), ?_⟩
    rw [h3 hkres]
    show (if ccfg.nextProtos = [] then _ else _) = _
    obtain ⟨hagreed, _⟩ := server_settled hP C hd h0 h hs
    split
    · rename_i hn
      rcases hagreed with hq | ⟨hq, _⟩
      · exact hq.symm
      · rw [hn] at hq; cases hq
    · exact hnp
  refine ⟨gs', hs', cc', sc', ca, sa, u', v', hdel', hc', hs'', S', ⟨?_, ?_, ?_⟩, hr⟩
  · rw [S'.params]; exact hr.psk
  · rw [S'.params, hS.params]; exact hr.suite
  · rw [S'.params, hS.params]; exact hr.protocol

end Verif.Props

namespace Verif.Toy

open Verif Verif.Crypto Verif.Messages Verif.Negotiation Verif.Handshake Verif.Machine Verif.Spec

/-- Whether a handshake completes, its ticket is stored by both sides, and the server gives up at the hello of the next
connection, with the given alert. -/
def refusedAgain (ccfg scfg : Config) (n a : Nat) : Bool :=
  let r := play tls ccfg scfg n
  match clientRun env tls ccfg (coins 2) r.1, serverRun env tls scfg r.2 with
  | .ok (.connected cc, _, x'), .ok (.connected sc, _, y') =>
    match sc.newSessionTicket env y' 1000 100 0 7 [1] [8, 9] with
    | .ok ([.storePsk k', .queue m, .sendQueued], _) =>
      match cc.process env x' 1000 (arrived false m) with
      | .ok (_, [.storePsk k], _) =>
        sc.params.nextProto == [] &&
        failsWith a (serverRun env tls (storing scfg (hexString k'.identity) k')
          (play tls (storing ccfg ccfg.serverName k) (storing scfg (hexString k'.identity) k') 1).2)
      | _ => false
    | _ => false
  | _, _ => false

theorem refusedAgain_ok {ccfg scfg : Config} {n a : Nat} (h : refusedAgain ccfg scfg n a = true) :
    ∃ (cc cc' sc : Connected) (cacts sacts : List Action) (x' x2 y' y2 : Ctx) (k k' : Psk) (m : Msg),
      clientRun env tls ccfg (coins 2) (play tls ccfg scfg n).1 = .ok (.connected cc, cacts, x') ∧
      serverRun env tls scfg (play tls ccfg scfg n).2 = .ok (.connected sc, sacts, y') ∧
      sc.newSessionTicket env y' 1000 100 0 7 [1] [8, 9] = .ok ([.storePsk k', .queue m, .sendQueued], y2) ∧
      cc.process env x' 1000 (arrived false m) = .ok (cc', [.storePsk k], x2) ∧ sc.params.nextProto = [] ∧
      serverRun env tls (storing scfg (hexString k'.identity) k')
        (play tls (storing ccfg ccfg.serverName k) (storing scfg (hexString k'.identity) k') 1).2 = .err (.alert a) := by
  unfold refusedAgain at h
  dsimp only at h
  split at h
  · rename_i h1 h2
    split at h
    · rename_i h3
      split at h
      · rename_i h4
        rw [Bool.and_eq_true, beq_iff_eq] at h
        exact ⟨_, _, _, _, _, _, _, _, _, _, _, _, h1, h2, h3, h4, h.1, failsWith_ok h.2⟩
      · cases h
    · cases h
  · cases h

/-- Whether a handshake is delivered whole, with a protocol and without a PSK, and a ticket can be made. -/
def ticketMade (ccfg scfg : Config) (n : Nat) : Bool :=
  let r := play tls ccfg scfg n
  match clientRun env tls ccfg (coins 2) r.1, serverRun env tls scfg r.2 with
  | .ok (.connected _, cacts, _), .ok (.connected sc, sacts, y') =>
    match sc.newSessionTicket env y' 1000 100 0 7 [1] [8, 9] with
    | .ok _ => r.1.length == (sent sacts).length && (r.2.length == (sent cacts).length && (!sc.params.usingPSK &&
        sc.params.nextProto == [104, 50]))
    | _ => false
  | _, _ => false

theorem ticketMade_ok {ccfg scfg : Config} {n : Nat} (h : ticketMade ccfg scfg n = true) :
    ∃ (cc sc : Connected) (cacts sacts acts : List Action) (x' y' y2 : Ctx),
      clientRun env tls ccfg (coins 2) (play tls ccfg scfg n).1 = .ok (.connected cc, cacts, x') ∧
      serverRun env tls scfg (play tls ccfg scfg n).2 = .ok (.connected sc, sacts, y') ∧
      (play tls ccfg scfg n).1.length = (sent sacts).length ∧ (play tls ccfg scfg n).2.length = (sent cacts).length ∧
      sc.newSessionTicket env y' 1000 100 0 7 [1] [8, 9] = .ok (acts, y2) ∧ sc.params.usingPSK = false ∧
      sc.params.nextProto = [104, 50] := by
  unfold ticketMade at h
  dsimp only at h
  split at h
  · rename_i h1 h2
    split at h
    · rename_i h3
      simp only [Bool.and_eq_true, beq_iff_eq, Bool.not_eq_true'] at h
      exact ⟨_, _, _, _, _, _, _, _, h1, h2, h.1, h.2.1, h3, h.2.2.1, h.2.2.2⟩
    · cases h
  · cases h

/-- A client that offers a protocol the server does not have. -/
def otherProto : Config := { clientCfg with nextProtos := [[104, 51]] }

theorem compatible_other : Compatible env noon otherProto { serverCfg with requireClientAuth := true } :=
  { compatible with
    fits := { clientCfg_fits with protos := by decide }
    method := by
      rcases compatible.method with ⟨k, k', S⟩ | U
      · exact nomatch S.client
      · exact .inr { U with } }

theorem mayResume : MayResume clientCfg { serverCfg with requireClientAuth := true } :=
  ⟨by decide, .inr ⟨29, by decide, by decide⟩, fun _ => rfl⟩

theorem inTime : InTime 1000 1000 noon := by
  intro t t' h h'
  rw [h, h']
  omega

end Verif.Toy

namespace Verif.Props

open Verif Verif.Crypto Verif.Messages Verif.Negotiation Verif.Handshake Verif.Machine Verif.Spec

/-- A handshake with a certificate in which a protocol is agreed on, and its ticket. -/
example : ∃ (cc sc : Connected) (cacts sacts acts : List Action) (x' y' y2 : Ctx),
    let r := Toy.play Toy.tls Toy.clientCfg { Toy.serverCfg with requireClientAuth := true } 12
    Toy.env.P.Sized ∧ Compatible Toy.env Toy.noon Toy.clientCfg { Toy.serverCfg with requireClientAuth := true } ∧
    GoodCoins Toy.noon (Toy.coins 2) ∧
    Delivery Toy.env Toy.tls Toy.tls Toy.clientCfg { Toy.serverCfg with requireClientAuth := true } (Toy.coins 2) Toy.noon r.1 r.2 ∧
    clientRun Toy.env Toy.tls Toy.clientCfg (Toy.coins 2) r.1 = .ok (.connected cc, cacts, x') ∧
    serverRun Toy.env Toy.tls { Toy.serverCfg with requireClientAuth := true } r.2 = .ok (.connected sc, sacts, y') ∧
    r.1.length = (sent sacts).length ∧ r.2.length = (sent cacts).length ∧
    sc.newSessionTicket Toy.env y' 1000 100 0 7 [1] [8, 9] = .ok (acts, y2) ∧ sc.params.usingPSK = false ∧
    MayResume Toy.clientCfg { Toy.serverCfg with requireClientAuth := true } ∧ sc.params.nextProto = [104, 50] ∧
    InTime 1000 1000 Toy.noon := by
  obtain ⟨cc, sc, cacts, sacts, acts, x', y', y2, h⟩ := Toy.ticketMade_ok (ccfg := Toy.clientCfg)
    (scfg := { Toy.serverCfg with requireClientAuth := true }) (n := 12) (by decide +kernel)
  exact ⟨cc, sc, cacts, sacts, acts, x', y', y2, Toy.prims_sized, Toy.compatible, Toy.coins_good (by decide), Toy.play_delivery ..,
    h.1, h.2.1, h.2.2.1, h.2.2.2.1, h.2.2.2.2.1, h.2.2.2.2.2.1, Toy.mayResume, h.2.2.2.2.2.2, Toy.inTime⟩

/-- If the client offers protocols but none was agreed on, the session cannot be resumed, nor is there another handshake: both
sides store the PSK of the ticket, with no protocol, and at the next connection the server, which finds that the hello does not
offer the protocol of the PSK, gives up (negotiation.go:197-218). The first handshake shows that the two are compatible
otherwise. -/
theorem C70_no_protocol_fails : ∃ (E : Env) (x x' x2 y' y2 : Ctx) (now : Int → Prop) (ccfg scfg : Config) (c0 : Coins)
    (es fs gs hs : List (Event × Coins)) (cc cc' sc : Connected) (cacts sacts : List Action) (k k' : Psk) (m : Msg),
    Compatible E now ccfg scfg ∧ Delivery E x x ccfg scfg c0 now es fs ∧
    clientRun E x ccfg c0 es = .ok (.connected cc, cacts, x') ∧ serverRun E x scfg fs = .ok (.connected sc, sacts, y') ∧
    sc.newSessionTicket E y' 1000 100 0 7 [1] [8, 9] = .ok ([.storePsk k', .queue m, .sendQueued], y2) ∧
    cc.process E x' 1000 (arrived x.datagram m) = .ok (cc', [.storePsk k], x2) ∧
    MayResume ccfg scfg ∧ InTime 1000 1000 now ∧ sc.params.nextProto = [] ∧
    Delivery E x x (storing ccfg ccfg.serverName k) (storing scfg (hexString k'.identity) k') c0 now gs hs ∧
    serverRun E x (storing scfg (hexString k'.identity) k') hs = .err (.alert 120) := by
  obtain ⟨cc, cc', sc, cacts, sacts, x', x2, y', y2, k, k', m, h1, h2, h3, h4, h5, h6⟩ := Toy.refusedAgain_ok
    (ccfg := Toy.otherProto) (scfg := { Toy.serverCfg with requireClientAuth := true }) (n := 12) (a := 120) (by decide +kernel)
  exact ⟨Toy.env, Toy.tls, x', x2, y', y2, Toy.noon, _, _, Toy.coins 2, _, _, _, _, cc, cc', sc, cacts, sacts, k, k', m,
    Toy.compatible_other, Toy.play_delivery .., h1, h2, h3, h4,
    ⟨Toy.mayResume.modes, Toy.mayResume.exchange, Toy.mayResume.early⟩, Toy.inTime, h5, Toy.play_delivery .., h6⟩

end Verif.Props
