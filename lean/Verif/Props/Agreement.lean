import Verif.Machine.Agree
import Verif.Machine.Toy

/-
C41: a Finished makes both ends agree.
-/

namespace Verif.Toy

open Verif Verif.Crypto Verif.Messages Verif.Negotiation Verif.Handshake Verif.Machine Verif.Spec

/-- A protector that accepts only cookies with a hash of the right length. -/
def strictProtector : Protector :=
  { protector with
    decodeToken := fun b =>
      match protector.decodeToken b with
      | .ok plain =>
        match decodeCookie plain with
        | .ok (suite, hash, _) =>
          (match suiteParams suite.toNat with
            | some p => if hash.length = p.hash.size then .ok plain else .err .msg
            | none => .err .msg)
        | _ => .err .msg
      | _ => .err .msg }

/-- A server that requires cookies and checks them so. -/
def cookieCfg : Config := { serverCfg with requireCookie := true, cookieProtector := some strictProtector }

theorem cookieCfg_sound : SoundCookies cookieCfg := by
  intro prot c plain suite hash app hp hd hc
  simp only [cookieCfg, Option.some.injEq] at hp
  subst hp
  simp only [strictProtector] at hd
  split at hd
  · rename_i pl _
    split at hd
    · rename_i su ha ap hc'
      split at hd
      · rename_i p hsp
        split at hd
        · rename_i hl
          cases hd
          rw [hc] at hc'
          cases hc'
          exact ⟨p, hsp, hl⟩
        · cases hd
      · cases hd
    · cases hd
  · cases hd

/-- A server that has no protector. -/
def plainCfg : Config := { serverCfg with cookieProtector := none }

theorem plainCfg_sound : SoundCookies plainCfg := by
  intro prot c plain suite hash app hp
  cases hp

instance (m : Msg) : Decidable (Framed m) := by unfold Framed; infer_instance

/-- Both ends complete the handshake in `n` rounds, every message is framed, and each has read a Finished the other wrote. -/
def Meets (ccfg scfg : Config) (n : Nat) : Prop :=
  ∃ s t acts acts' x' y',
    clientRun env tls ccfg (coins 2) (exchange tls ccfg scfg n).1 = .ok (.connected s, acts, x') ∧
    serverRun env tls scfg (exchange tls ccfg scfg n).2 = .ok (.connected t, acts', y') ∧
    (∀ m ∈ received (exchange tls ccfg scfg n).1 ++ sent acts ++ received (exchange tls ccfg scfg n).2 ++ sent acts', Framed m) ∧
    (∃ m ∈ received (exchange tls ccfg scfg n).1, ∃ m' ∈ sent acts', m.msgType = 20 ∧ wire false [m] = wire false [m']) ∧
    (∃ m ∈ sent acts, ∃ m' ∈ received (exchange tls ccfg scfg n).2, m.msgType = 20 ∧ wire false [m] = wire false [m'])

def meets (ccfg scfg : Config) (n : Nat) : Bool :=
  match clientRun env tls ccfg (coins 2) (exchange tls ccfg scfg n).1, serverRun env tls scfg (exchange tls ccfg scfg n).2 with
  | .ok (.connected _, acts, _), .ok (.connected _, acts', _) =>
    decide (∀ m ∈ received (exchange tls ccfg scfg n).1 ++ sent acts ++ received (exchange tls ccfg scfg n).2 ++ sent acts', Framed m) &&
    decide (∃ m ∈ received (exchange tls ccfg scfg n).1, ∃ m' ∈ sent acts', m.msgType = 20 ∧ wire false [m] = wire false [m']) &&
    decide (∃ m ∈ sent acts, ∃ m' ∈ received (exchange tls ccfg scfg n).2, m.msgType = 20 ∧ wire false [m] = wire false [m'])
  | _, _ => false

theorem meets_ok {ccfg scfg : Config} {n : Nat} (h : meets ccfg scfg n = true) : Meets ccfg scfg n := by
  unfold meets at h
  split at h
  · rename_i s acts x' t acts' y' h1 h2
    simp only [Bool.and_eq_true, decide_eq_true_eq] at h
    exact ⟨s, t, acts, acts', x', y', h1, h2, h.1.1, h.1.2, h.2⟩
  · cases h

end Verif.Toy

namespace Verif.Props

open Verif Verif.Crypto Verif.Messages Verif.Negotiation Verif.Handshake Verif.Machine Verif.Spec

/-- A client and a server, each with whatever network it likes: nothing is assumed of how what one reads relates to what the
other wrote, but that the client read a Finished that the server wrote. (Messages are framed as the handshake layer frames
them, and the server's protector accepts its own cookies only as far as the length of the hash in them goes.) Then they agree
on the last ClientHello and the server's flight, on the transcript and the handshake secret; the client reports the suite,
PSK, early data, client authentication and protocol of the messages the server sent, and its secrets are the ones that follow
from them. Otherwise a collision of the hash function or of HMAC is found, among the inputs these two ends fed to it. -/
theorem C41_agreement (E : Env) (hP : E.P.Sized) (x y x' y' : Ctx) (ccfg scfg : Config) (c : Coins) (es es' : List (Event × Coins))
    (s : Connected) (t : SState) (acts acts' : List Action)
    (client : clientRun E x ccfg c es = .ok (.connected s, acts, x'))
    (server : serverRun E y scfg es' = .ok (t, acts', y')) (version : y.datagram = x.datagram) (cookies : SoundCookies scfg)
    (framed : ∀ m ∈ received es ++ sent acts ++ received es' ++ sent acts', Framed m)
    (finished : ∃ m ∈ received es, ∃ m' ∈ sent acts', m.msgType = 20 ∧ wire x.datagram [m] = wire x.datagram [m']) :
    Nonempty (ClientView E x.datagram ccfg es acts s) ∧ Nonempty (ServerFlight E x.datagram scfg es' acts') ∧
    ∀ (v : ClientView E x.datagram ccfg es acts s) (w : ServerFlight E x.datagram scfg es' acts'),
      (Agreed E.P x.datagram v.F v.hello w.F w.hello ∧
        s.params.suite = w.sh.suite ∧ s.params.usingPSK = w.psk.isSome ∧ s.params.usingEarlyData = hasExt 42 w.ee ∧
        s.params.usingClientAuth = asksCertificate w.F.auth ∧ NamesProtocol w.ee s.params.nextProto ∧
        HasSecrets E.P x.datagram w.F (v.eoed ++ v.cauth ++ [v.cfin]) (keyUpdates v.postOut) (keyUpdates v.post) s) ∨
      FinishedBroken E.P v.F.h (ascii "s hs traffic")
        (v.F.handshake E.P) (v.F.toServerHello x.datagram) (v.F.toServerAuth x.datagram)
        (w.F.handshake E.P) (w.F.toServerHello x.datagram) (w.F.toServerAuth x.datagram) := by
  have f1 : ∀ m ∈ received es, Framed m := fun m hm => framed m (by simp [hm])
  have f2 : ∀ m ∈ sent acts, Framed m := fun m hm => framed m (by simp [hm])
  have f3 : ∀ m ∈ received es', Framed m := fun m hm => framed m (by simp [hm])
  have f4 : ∀ m ∈ sent acts', Framed m := fun m hm => framed m (by simp [hm])
  obtain ⟨m, hm, m', hm', ht, hw⟩ := finished
  have ht' : m'.msgType = 20 := by
    obtain ⟨r, hr⟩ := wire_head x.datagram m []
    obtain ⟨r', hr'⟩ := wire_head x.datagram m' []
    rw [hr, hr', List.cons.injEq] at hw
    rw [← hw.1, ht]
  refine ⟨clientView hP client, ?_, ?_⟩
  · rcases serverFlight hP server with ⟨s0, rfl⟩ | h
    · have := retry_type (only_retries server m' hm')
      rw [ht'] at this
      cases this
    · rw [version] at h; exact h
  · intro v w
    have e1 : v.F.fin = m := finishes_unique (client_one_finished client) (by rw [v.got]; simp) hm v.finType ht
    have e2 : w.F.fin = m' := finishes_unique (server_one_finished server) (by rw [w.out_eq]; simp) hm' w.finType ht'
    rcases agree_server_finished hP v w cookies f1 f2 f3 f4 (by rw [e1, e2]; exact hw) with h | h
    · obtain ⟨h1, h2, h3, h4, h5⟩ := agreed_params v w h
      exact .inl ⟨h, by rw [v.repSuite, h1], by rw [v.repPsk, h4], by rw [v.repEarly, h2], by rw [v.repAuth, h5],
        h2 ▸ v.repProto, Verif.Machine.Agreed.secrets h v.secrets⟩
    · exact .inr h

/-- If the server has completed the handshake too, both report the same suite, use of a PSK, early data, client
authentication and protocol, have the same exporter secret and, as long as nobody has updated keys, the same traffic
secrets; or a collision is found. -/
theorem C41_both (E : Env) (hP : E.P.Sized) (x y x' y' : Ctx) (ccfg scfg : Config) (c : Coins) (es es' : List (Event × Coins))
    (s t : Connected) (acts acts' : List Action)
    (client : clientRun E x ccfg c es = .ok (.connected s, acts, x'))
    (server : serverRun E y scfg es' = .ok (.connected t, acts', y')) (version : y.datagram = x.datagram)
    (cookies : SoundCookies scfg)
    (framed : ∀ m ∈ received es ++ sent acts ++ received es' ++ sent acts', Framed m)
    (finished : ∃ m ∈ received es, ∃ m' ∈ sent acts', m.msgType = 20 ∧ wire x.datagram [m] = wire x.datagram [m']) :
    (s.params.suite = t.params.suite ∧ s.cp = t.cp ∧ s.params.usingPSK = t.params.usingPSK ∧
      s.params.usingEarlyData = t.params.usingEarlyData ∧ s.params.usingClientAuth = t.params.usingClientAuth ∧
      s.params.nextProto = t.params.nextProto ∧ s.exporter = t.exporter ∧
      ((∀ m ∈ received es ++ sent acts ++ received es' ++ sent acts', m.msgType ≠ 24) →
        s.clientAp = t.clientAp ∧ s.serverAp = t.serverAp)) ∨
    ∃ (v : ClientView E x.datagram ccfg es acts s) (w : ServerView E x.datagram scfg es' acts' t),
      FinishedBroken E.P v.F.h (ascii "s hs traffic")
        (v.F.handshake E.P) (v.F.toServerHello x.datagram) (v.F.toServerAuth x.datagram)
        (w.F.handshake E.P) (w.F.toServerHello x.datagram) (w.F.toServerAuth x.datagram) := by
  obtain ⟨⟨v⟩, _, h⟩ := C41_agreement E hP x y x' y' ccfg scfg c es es' s (.connected t) acts acts' client server version cookies
    framed finished
  obtain ⟨w⟩ : Nonempty (ServerView E x.datagram scfg es' acts' t) := version ▸ serverView hP server
  rcases h v w.toServerFlight with ⟨ha, h1, h2, h3, h4, h5, h6⟩ | h
  · refine .inl ⟨by rw [h1, w.repSuite], ?_, by rw [h2, w.repPsk], by rw [h3, w.repEarly], by rw [h4, w.repAuth],
      protocol_unique h5 w.repProto, by rw [h6.exporter, w.secrets.exporter], ?_⟩
    · rw [v.cp, w.cp]; exact (agreed_params v w.toServerFlight ha).2.2.1
    · intro hk
      have z : ∀ ms : List Msg, (∀ m ∈ ms, m.msgType ≠ 24) → keyUpdates ms = 0 := by
        intro ms hm
        simp only [keyUpdates, List.length_eq_zero_iff, List.filter_eq_nil_iff]
        intro m h; simpa using hm m h
      have z1 := z v.post fun m hm => hk m (by rw [v.got]; simp [hm])
      have z2 := z v.postOut fun m hm => hk m (by rw [v.out]; simp [hm])
      have z3 := z w.post fun m hm => hk m (by rw [w.got, w.rest_eq]; simp [hm])
      have z4 := z w.out fun m hm => hk m (by rw [w.out_eq]; simp [hm])
      rw [h6.clientAp, h6.serverAp, w.secrets.clientAp, w.secrets.serverAp, z1, z2, z3, z4]
      exact ⟨rfl, rfl⟩
  · exact .inr ⟨v, w, h⟩

/-- In the other direction: if a server that has completed the handshake read a Finished that the client wrote, they agree on
everything, the messages of the client's last flight included, and have the same resumption secret too; or a collision is
found. -/
theorem C41_server_agreement (E : Env) (hP : E.P.Sized) (x y x' y' : Ctx) (ccfg scfg : Config) (c : Coins)
    (es es' : List (Event × Coins)) (s t : Connected) (acts acts' : List Action)
    (client : clientRun E x ccfg c es = .ok (.connected s, acts, x'))
    (server : serverRun E y scfg es' = .ok (.connected t, acts', y')) (version : y.datagram = x.datagram)
    (cookies : SoundCookies scfg)
    (framed : ∀ m ∈ received es ++ sent acts ++ received es' ++ sent acts', Framed m)
    (finished : ∃ m ∈ sent acts, ∃ m' ∈ received es', m.msgType = 20 ∧ wire x.datagram [m] = wire x.datagram [m']) :
    Nonempty (ClientView E x.datagram ccfg es acts s) ∧ Nonempty (ServerView E x.datagram scfg es' acts' t) ∧
    ∀ (v : ClientView E x.datagram ccfg es acts s) (w : ServerView E x.datagram scfg es' acts' t),
      (Agreed E.P x.datagram v.F v.hello w.F w.hello ∧
        said (v.eoed ++ v.cauth ++ [v.cfin]) = said (w.eoed ++ w.cauth ++ [w.cfin]) ∧
        s.params.suite = t.params.suite ∧ s.cp = t.cp ∧ s.params.usingPSK = t.params.usingPSK ∧
        s.params.usingEarlyData = t.params.usingEarlyData ∧ s.params.usingClientAuth = t.params.usingClientAuth ∧
        s.params.nextProto = t.params.nextProto ∧ s.exporter = t.exporter ∧ s.resumption = t.resumption) ∨
      FinishedBroken E.P v.F.h (ascii "c hs traffic")
        (v.F.handshake E.P) (v.F.toServerHello x.datagram) (v.F.toFinished x.datagram ++ wire x.datagram (v.eoed ++ v.cauth))
        (w.F.handshake E.P) (w.F.toServerHello x.datagram) (w.F.toFinished x.datagram ++ wire x.datagram (w.eoed ++ w.cauth)) := by
  have f1 : ∀ m ∈ received es, Framed m := fun m hm => framed m (by simp [hm])
  have f2 : ∀ m ∈ sent acts, Framed m := fun m hm => framed m (by simp [hm])
  have f3 : ∀ m ∈ received es', Framed m := fun m hm => framed m (by simp [hm])
  have f4 : ∀ m ∈ sent acts', Framed m := fun m hm => framed m (by simp [hm])
  obtain ⟨m, hm, m', hm', ht, hw⟩ := finished
  have ht' : m'.msgType = 20 := by
    obtain ⟨r, hr⟩ := wire_head x.datagram m []
    obtain ⟨r', hr'⟩ := wire_head x.datagram m' []
    rw [hr, hr', List.cons.injEq] at hw
    rw [← hw.1, ht]
  refine ⟨clientView hP client, version ▸ serverView hP server, ?_⟩
  intro v w
  have e1 : v.cfin = m := finishes_unique (client_sends_one v) (by rw [v.out]; simp) hm v.cfinType ht
  have e2 : w.cfin = m' :=
    finishes_unique (server_reads_one server) (by rw [w.got, w.rest_eq]; simp) hm' w.cfinType ht'
  rcases agree_client_finished hP v w cookies f1 f2 f3 f4 (by rw [e1, e2]; exact hw) with ⟨h, hsaid, hwire⟩ | h
  · obtain ⟨h1, h2, h3, h4, h5⟩ := agreed_params v w.toServerFlight h
    have hsec := Verif.Machine.Agreed.secrets h v.secrets
    refine .inl ⟨h, hsaid, by rw [v.repSuite, h1, w.repSuite], by rw [v.cp, w.cp, h3], by rw [v.repPsk, h4, w.repPsk],
      by rw [v.repEarly, h2, w.repEarly], by rw [v.repAuth, h5, w.repAuth], protocol_unique (h2 ▸ v.repProto) w.repProto,
      by rw [hsec.exporter, w.secrets.exporter], ?_⟩
    rw [hsec.resumption, w.secrets.resumption, Flight.resumption, Flight.resumption, hwire]
  · exact .inr h

/-- The hypotheses hold of an honest handshake, with certificates and with cookies. -/
example : Toy.Meets Toy.clientCfg Toy.plainCfg 2 ∧ SoundCookies Toy.plainCfg := ⟨Toy.meets_ok (by decide +kernel), Toy.plainCfg_sound⟩

example : Toy.Meets Toy.clientCfg Toy.cookieCfg 3 ∧ SoundCookies Toy.cookieCfg := ⟨Toy.meets_ok (by decide +kernel), Toy.cookieCfg_sound⟩

end Verif.Props
