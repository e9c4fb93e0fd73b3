import Verif.Machine.Answers
import Verif.Machine.Agree
import Verif.Props.Agreement
import Verif.Props.Connect
import Verif.Props.Cookies
import Verif.Spec.Best

/-
C89: nobody between a client and a server can make them settle for less than they have in common.
-/

namespace Verif.Machine

open Verif Verif.Crypto Verif.Messages Verif.Negotiation Verif.Handshake Verif.Spec Verif.Props

theorem isFirst_toNat {server client : List UInt16} {n : Nat}
    (h : IsFirst (· ∈ server.map (·.toNat)) (client.map (·.toNat)) n) : BestCommon client server (UInt16.ofNat n) := by
  obtain ⟨pre, post, he, hn, hpre⟩ := h
  obtain ⟨l1, l2, rfl, h1, h2⟩ := List.map_eq_append_iff.1 he
  obtain ⟨u, l3, rfl, h3, h4⟩ := List.map_eq_cons_iff.1 h2
  subst h1 h3
  refine ⟨l1, l3, by simp, ?_, ?_⟩
  · exact (ofNat_mem hn).1
  · intro x hx hm
    exact hpre x.toNat (List.mem_map_of_mem hx) (List.mem_map_of_mem hm)

/-- The server takes the first share of a group it has. -/
theorem dh_first {D : Dh} (sg : List UInt16) : ∀ (shares : List (UInt16 × Bytes × Bytes)),
    (∀ k ∈ shares, DhWorks D k.1 ∧ ∃ n, newKeyShare D n k.1.toNat = .ok (k.2.1, k.2.2)) → ∀ n r,
    dh D (sg.map (·.toNat)) n (shares.map fun k => ⟨k.1.toNat, k.2.1⟩) = .ok (some r) →
    ∃ g : UInt16, r.1 = g.toNat ∧ BestCommon (shares.map (·.1)) sg g
  | [], _, _, _, h => by simp [dh] at h
  | (g, pub, priv) :: shares, h, n, r, hr => by
    obtain ⟨hw, n0, hk⟩ := h (g, pub, priv) (by simp)
    rcases dhGroups_honest hw hk n sg with ⟨hm, own, own', z, h1, h2, h3⟩ | ⟨hm, h3⟩
    · simp only [List.map_cons, dh, h3, Res.ok.injEq, Option.some.injEq] at hr
      subst hr
      exact ⟨g, rfl, isFirst_cons_self _ hm⟩
    · simp only [List.map_cons, dh, h3] at hr
      obtain ⟨g', e, hf⟩ := dh_first sg shares (fun k hk => h k (List.mem_cons_of_mem _ hk)) n r hr
      exact ⟨g', e, isFirst_cons hm hf⟩

theorem readHello_same {x : Ctx} {m m' : Msg} (ht : m.msgType = m'.msgType) (hb : m.body = m'.body) :
    readHello x m = readHello x m' := by
  simp only [readHello, ht, hb]

theorem arrived_said (d : Bool) (m : Msg) : (arrived d m).msgType = m.msgType ∧ (arrived d m).body = m.body := by
  cases d <;> exact ⟨rfl, rfl⟩

/-- What a server that reads the hello of a client without a PSK makes of it. -/
theorem choice_of {E : Env} (hP : E.P.Sized) {y : Ctx} {scfg : Config} {es : List (Event × Coins)} {acts : List Action}
    (a : AfterHello E y scfg es acts) {st : CStart} {c0 : Coins} {x0 x1 : Ctx} {w : CWaitSH} {a0 : List Action}
    (hst : st.next E x0 c0 = .ok (w, a0, x1)) (hx0 : x0.datagram = y.datagram) (nopsk : st.cfg.psks st.cfg.serverName = none)
    (dhw : ∀ g ∈ st.cfg.groups, DhWorks E.D g)
    (ht : w.clientHello.msgType = a.m.msgType) (hb : w.clientHello.body = a.m.body) :
    BestCommon st.cfg.suites scfg.suites a.n.params.suite ∧
    (BestCommon st.cfg.nextProtos scfg.nextProtos a.n.params.nextProto ∨
      (a.n.params.nextProto = [] ∧ ∀ p ∈ st.cfg.nextProtos, p ∉ scfg.nextProtos)) ∧
    a.n.params.usingPSK = false ∧ a.n.params.usingDH = true ∧
    ∃ g : UInt16, UInt16.ofNat a.n.dhGroup = g ∧ BestCommon st.cfg.groups scfg.groups g := by
  obtain ⟨mh⟩ := CStart.next_hello hP hst
  obtain ⟨o, ho, O⟩ := hello_read (y := a.x0) mh (by rw [a.datagram.1, hx0]) true
  obtain ⟨e1, e2⟩ := arrived_said true w.clientHello
  rw [readHello_same (e1.trans ht) (e2.trans hb)] at ho
  obtain ⟨f, hx2, ⟨_, _, _, h⟩ | ⟨hsend, n, hn, hfin⟩⟩ := SStart.next_ok a.next
  · cases h
  cases hn
  obtain ⟨hdp, cert, psk, et, proto, hcert, hpsk, het, halpn, hneq⟩ := SStart.finish_ok hfin
  have hof := f.hello
  rw [ho, Res.ok.injEq, Prod.mk.injEq] at hof
  obtain ⟨hch, hoo⟩ := hof
  obtain ⟨hn1, hn2, hn3⟩ : mh.psk = none ∧ mh.early = false ∧ mh.suites = st.cfg.suites := by
    rcases mh.pskOk with ⟨_, h1, h2, h3⟩ | ⟨k, _, _, _, h1, _⟩
    · exact ⟨h1, h2, h3⟩
    · rw [nopsk] at h1; cases h1
  have hids : f.o.ids = [] := by rw [← hoo]; exact (O.noPsk hn1).1
  have hpc : f.pskc = none := by
    rcases choosePsk_ok f.psk with ⟨_, h, _⟩ | ⟨h, _⟩
    · exact h
    · exact absurd hids h
  have hmode : (pskMode f.dhc.isSome f.pskc.isSome f.o.modes).2 = false := by
    have hm := C28_psk_mode f.dhc.isSome f.pskc.isSome f.o.modes _ _ rfl
    cases hu : (pskMode f.dhc.isSome f.pskc.isSome f.o.modes).2 with
    | false => rfl
    | true =>
      have := hm.2.1 hu
      rw [hpc] at this; cases this
  have hdh1 : (pskMode f.dhc.isSome f.pskc.isSome f.o.modes).1 = true := by
    rcases hdp with h | h
    · exact h
    · rw [hmode] at h; cases h
  have hnone : psk = none := by rw [hpsk, hmode]; rfl
  refine ⟨?_, ?_, ?_, ?_, ?_⟩
  · have h1 := f.suiteOk
    rw [hpc] at h1
    have h2 := ((C28_suite_without_psk _ _).1 _).1 h1
    have h3 : f.ch.suites = st.cfg.suites := by rw [← hch]; exact hn3
    rw [h3] at h2
    have : a.n.params.suite = UInt16.ofNat f.suite := by rw [hneq]
    rw [this]
    exact isFirst_toNat h2
  · have h1 := C28_alpn psk f.o.alpn scfg.nextProtos
    rw [halpn, hnone] at h1
    have h2 : f.o.alpn = st.cfg.nextProtos := by rw [← hoo]; exact O.alpn
    rw [h2] at h1
    have h3 : a.n.params.nextProto = proto := by rw [hneq]
    rw [h3]
    rcases h1 with ⟨pre, post, h4, h5, h6⟩ | ⟨h4, h5, _⟩
    · exact .inl ⟨pre, post, h4, h5.1, fun p hp hm => h6 p hp ⟨hm, by simp⟩⟩
    · exact .inr ⟨h4, fun p hp hm => h5 p hp ⟨hm, by simp⟩⟩
  · rw [hneq]; exact hmode
  · rw [hneq]; exact hdh1
  · have h1 := (C28_psk_mode f.dhc.isSome f.pskc.isSome f.o.modes _ _ rfl).1 hdh1
    cases hd : f.dhc with
    | none => rw [hd] at h1; cases h1
    | some r =>
      have h2 := f.dh
      have h3 : (f.o.shares.map fun e => (⟨e.1.toNat, e.2.1⟩ : Share)) = mh.shares.map fun k => ⟨k.1.toNat, k.2.1⟩ := by
        rw [← hoo, O.shares_, List.map_map]; rfl
      rw [h3, hd] at h2
      have h4 : ∀ k ∈ mh.shares, DhWorks E.D k.1 ∧ ∃ n, newKeyShare E.D n k.1.toNat = .ok (k.2.1, k.2.2) := by
        intro k hk
        obtain ⟨h5, h6⟩ := makeShares_mem mh.sharesOk k hk
        exact ⟨dhw _ h5, h6⟩
      obtain ⟨g, h5, h6⟩ := dh_first scfg.groups mh.shares h4 _ _ h2
      have h7 : mh.shares.map (·.1) = st.cfg.groups := by
        obtain ⟨sh', h1, h2⟩ := makeShares_fits (D := E.D) c0.dh dhw
        have h8 := mh.sharesOk
        rw [h1, Res.ok.injEq] at h8
        rw [← h8]; exact h2
      rw [h7] at h6
      have h8 : a.n.dhGroup = r.1 := by
        rw [hneq]; obtain ⟨r1, r2, r3⟩ := r; simp only [hd]
      exact ⟨g, by rw [h8, h5]; simp, h6⟩

end Verif.Machine

namespace Verif.Props

open Verif Verif.Crypto Verif.Messages Verif.Negotiation Verif.Handshake Verif.Machine Verif.Spec

theorem choice_core (E : Env) (hP : E.P.Sized) (x y x' y' : Ctx) (ccfg scfg : Config) (c : Coins)
    (es es' : List (Event × Coins)) (s : Connected) (t : SState) (acts acts' : List Action)
    (client : clientRun E x ccfg c es = .ok (.connected s, acts, x'))
    (server : serverRun E y scfg es' = .ok (t, acts', y')) (version : y.datagram = x.datagram) (cookies : SoundCookies scfg)
    (framed : ∀ m ∈ received es ++ sent acts ++ received es' ++ sent acts', Framed m)
    (finished : ∃ m ∈ received es, ∃ m' ∈ sent acts', m.msgType = 20 ∧ wire x.datagram [m] = wire x.datagram [m'])
    (noPsk : ccfg.psks ccfg.serverName = none) (groups : ∀ g ∈ ccfg.groups, DhWorks E.D g) :
    (∃ (ac : AtConnected E x ccfg c es s acts x') (V : ClientView E x.datagram ccfg es acts s)
        (w : ServerFlight E x.datagram scfg es' acts'), ClientViewOf ac V ∧ Agreed E.P x.datagram V.F V.hello w.F w.hello ∧
      s.params.suite = w.sh.suite ∧ (∃ g, ToldGroup (received es) g ∧ BestCommon ccfg.groups scfg.groups g) ∧
      (BestCommon ccfg.nextProtos scfg.nextProtos s.params.nextProto ∨
        (s.params.nextProto = [] ∧ ∀ p ∈ ccfg.nextProtos, p ∉ scfg.nextProtos)) ∧
      s.params.usingClientAuth = scfg.requireClientAuth ∧ s.params.usingPSK = false ∧
      (V.retries = [] → BestCommon ccfg.suites scfg.suites s.params.suite)) ∨
    ∃ (v : ClientView E x.datagram ccfg es acts s) (w : ServerFlight E x.datagram scfg es' acts'),
      FinishedBroken E.P v.F.h (ascii "s hs traffic")
        (v.F.handshake E.P) (v.F.toServerHello x.datagram) (v.F.toServerAuth x.datagram)
        (w.F.handshake E.P) (w.F.toServerHello x.datagram) (w.F.toServerAuth x.datagram) := by
  obtain ⟨_, _, hall⟩ := C41_agreement E hP x y x' y' ccfg scfg c es es' s t acts acts' client server version cookies framed finished
  obtain ⟨ac, V, hV⟩ := clientViewAt hP client
  have hafter : Nonempty (AfterHello E y scfg es' acts') := by
    rcases serverHelloOf server with ⟨s0, rfl⟩ | h
    · obtain ⟨m, hm, m', hm', ht, hw⟩ := finished
      have ht' : m'.msgType = 20 := by
        obtain ⟨r, hr⟩ := wire_head x.datagram m []
        obtain ⟨r', hr'⟩ := wire_head x.datagram m' []
        rw [hr, hr', List.cons.injEq] at hw
        rw [← hw.1, ht]
      have := retry_type (only_retries server m' hm')
      rw [ht'] at this
      cases this
    · exact h
  obtain ⟨as⟩ := hafter
  have hflight : ∃ w : ServerFlight E y.datagram scfg es' acts', w.hello = as.m ∧ w.F = as.F ∧
      as.n.params.suite = w.sh.suite ∧ NamesProtocol w.ee as.n.params.nextProto ∧
      asksCertificate w.F.auth = as.f.wait.params.usingClientAuth ∧ as.n.params.usingPSK = w.psk.isSome := by
    obtain ⟨w, hw⟩ := as.flight hP
    exact ⟨w, hw.hello, hw.F, hw.suite, hw.proto, hw.asks, hw.usingPSK⟩
  rw [version] at hflight
  obtain ⟨w, hhello, hF, hsuite, hproto, hasks, husing⟩ := hflight
  rcases hall V w with ⟨hag, g1, g2, g3, g4, g5, _⟩ | h
  swap
  · exact .inr ⟨V, w, h⟩
  refine .inl ⟨ac, V, w, hV, hag, g1, ?_⟩
  have hmsg := hag.messages
  simp only [List.cons_append, said_cons, List.cons.injEq, Prod.mk.injEq] at hmsg
  obtain ⟨⟨m1, m2⟩, ⟨m3, m4⟩, _⟩ := hmsg
  rw [hhello, hV.hello] at m1 m2
  obtain ⟨st, c0, x0, a0, hst, hx0, hcase⟩ := ac.at0.at0.atSH.made
  have hst' : st.cfg.psks = ccfg.psks ∧ st.cfg.serverName = ccfg.serverName ∧ st.cfg.groups = ccfg.groups ∧
      st.cfg.nextProtos = ccfg.nextProtos := by
    rcases hcase with ⟨_, rfl, _⟩ | hR
    · exact ⟨rfl, rfl, rfl, rfl⟩
    · obtain ⟨R⟩ := hR
      rw [R.st_eq]; exact ⟨rfl, rfl, rfl, rfl⟩
  obtain ⟨q1, q2, q3, q4⟩ := hst'
  obtain ⟨r1, r2, r3, r4, g, r5, r6⟩ := choice_of hP as hst (hx0.trans version.symm) (by rw [q1, q2]; exact noPsk)
    (by rw [q3]; exact groups) m1 m2
  rw [q3] at r6
  rw [q4] at r2
  have hncfg : as.n.cfg = scfg := by
    obtain ⟨f, hx2, ⟨_, _, _, h⟩ | ⟨hsend, n, hn, hfin⟩⟩ := SStart.next_ok as.next
    · cases h
    cases hn
    obtain ⟨_, _, _, _, _, _, _, _, _, hneq⟩ := SStart.finish_ok hfin
    rw [hneq]
  refine ⟨⟨g, ⟨V.F.sh, by rw [V.got]; simp, ?_⟩, r6⟩, ?_, ?_, ?_, ?_⟩
  · obtain ⟨h1, h2⟩ := serverHello_made as.f.shOk
    obtain ⟨_, he51, _⟩ := sh_exts as.f.extsOk
    rw [r4, r5] at he51
    have e : w.F.sh = as.f.sh := by rw [hF]; rfl
    refine ⟨_, _, _, by rw [m3, e]; exact h1, by rw [m4, e]; exact h2, he51⟩
  · rw [protocol_unique g5 hproto]; exact r2
  · rw [g4, hasks]
    simp only [NegFacts.wait, r3, hncfg, Bool.not_false, Bool.true_and]
  · rw [g2, ← husing, r3]
  · intro hno
    rw [g1, ← hsuite]
    rcases hcase with ⟨_, rfl, _⟩ | hR
    · exact r1
    · obtain ⟨R⟩ := hR
      have hm : R.hrr ∈ V.retries := by
        have h1 : ∀ l, l = R.pre ++ [R.hrr] → R.hrr ∈ l := by rintro _ rfl; simp
        rw [hV.retries]
        exact h1 _ R.rs_eq
      rw [hno] at hm
      cases hm

/-- A client without a PSK for the server's name and a server, each with whatever network it likes between them: if the client
completes the handshake, and the Finished it read is one this server wrote, then what was negotiated is the best the two
configurations have in common, whatever anybody did to the messages. The group of the key agreement is the first of the
client's groups that the server has too, the protocol the first of the client's protocols that the server has too (none, only
if they have none in common); a certificate was asked for exactly if the server is configured to ask; and, unless the client
was sent a HelloRetryRequest, the suite is the first of the client's suites that the server has too. Otherwise a collision of
the hash function or of HMAC is found, among the inputs these two ends fed to it. -/
theorem C89_choice_partial (E : Env) (hP : E.P.Sized) (x y x' y' : Ctx) (ccfg scfg : Config) (c : Coins)
    (es es' : List (Event × Coins)) (s : Connected) (t : SState) (acts acts' : List Action)
    (client : clientRun E x ccfg c es = .ok (.connected s, acts, x'))
    (server : serverRun E y scfg es' = .ok (t, acts', y')) (version : y.datagram = x.datagram) (cookies : SoundCookies scfg)
    (framed : ∀ m ∈ received es ++ sent acts ++ received es' ++ sent acts', Framed m)
    (finished : ∃ m ∈ received es, ∃ m' ∈ sent acts', m.msgType = 20 ∧ wire x.datagram [m] = wire x.datagram [m'])
    (noPsk : ccfg.psks ccfg.serverName = none) (groups : ∀ g ∈ ccfg.groups, DhWorks E.D g) :
    ((∃ g, ToldGroup (received es) g ∧ BestCommon ccfg.groups scfg.groups g) ∧
      (BestCommon ccfg.nextProtos scfg.nextProtos s.params.nextProto ∨
        (s.params.nextProto = [] ∧ ∀ p ∈ ccfg.nextProtos, p ∉ scfg.nextProtos)) ∧
      s.params.usingClientAuth = scfg.requireClientAuth ∧ s.params.usingPSK = false ∧
      ((∀ m ∈ received es, letterOf m ≠ .helloRetryRequest) → BestCommon ccfg.suites scfg.suites s.params.suite)) ∨
    ∃ (v : ClientView E x.datagram ccfg es acts s) (w : ServerFlight E x.datagram scfg es' acts'),
      FinishedBroken E.P v.F.h (ascii "s hs traffic")
        (v.F.handshake E.P) (v.F.toServerHello x.datagram) (v.F.toServerAuth x.datagram)
        (w.F.handshake E.P) (w.F.toServerHello x.datagram) (w.F.toServerAuth x.datagram) := by
  rcases choice_core E hP x y x' y' ccfg scfg c es es' s t acts acts' client server version cookies framed finished noPsk groups
    with ⟨_, V, _, _, _, _, h1, h2, h3, h4, h5⟩ | h
  · refine .inl ⟨h1, h2, h3, h4, fun hno => h5 ?_⟩
    rw [List.eq_nil_iff_forall_not_mem]
    intro m hm
    exact hno m (by rw [V.got]; simp [hm]) (V.retryTypes m hm)
  · exact .inr h

/-- With a PSK the suite of the PSK is taken: here the server is configured for another one only, which the client offers as
well. -/
theorem C89_psk_suite_fails : ∃ (ccfg scfg : Config) (s t : Connected) (acts acts' : List Action) (x' y' : Ctx),
    ccfg.psks ccfg.serverName ≠ none ∧
    clientRun Toy.env Toy.tls ccfg (Toy.coins 2) (Toy.exchange Toy.tls ccfg scfg 2).1 = .ok (.connected s, acts, x') ∧
    serverRun Toy.env Toy.tls scfg (Toy.exchange Toy.tls ccfg scfg 2).2 = .ok (.connected t, acts', y') ∧
    s.params.suite ∉ scfg.suites ∧ ∃ u, BestCommon ccfg.suites scfg.suites u := by
  obtain ⟨s, acts, x', h1, h2⟩ := Toy.clientHas_ok (f := fun s => s.params.suite == 0x1301)
    (r := clientRun Toy.env Toy.tls Toy.pskClient (Toy.coins 2)
      (Toy.exchange Toy.tls Toy.pskClient { Toy.pskServer with suites := [0x1302] } 2).1) (by decide +kernel)
  obtain ⟨t, acts', y', h3, _⟩ := Toy.serverHas_ok (f := fun _ => true)
    (r := serverRun Toy.env Toy.tls { Toy.pskServer with suites := [0x1302] }
      (Toy.exchange Toy.tls Toy.pskClient { Toy.pskServer with suites := [0x1302] } 2).2) (by decide +kernel)
  refine ⟨Toy.pskClient, { Toy.pskServer with suites := [0x1302] }, s, t, acts, acts', x', y', by simp [Toy.pskClient, Toy.clientCfg],
    h1, h3, ?_, 0x1302, [0x1301], [], rfl, by simp, by simp⟩
  rw [show s.params.suite = 0x1301 by simpa using h2]
  simp

/-- The hypotheses hold of an honest handshake between a client and a server whose preferences differ: the best they have in
common is the client's third suite and its second protocol. -/
example : Toy.Meets { Toy.clientCfg with suites := [0x1303, 0x1304, 0x1301], nextProtos := [[104, 51], [104, 50]] } Toy.plainCfg 2 ∧
    SoundCookies Toy.plainCfg ∧ (∀ g ∈ Toy.clientCfg.groups, DhWorks Toy.env.D g) ∧
    BestCommon [0x1303, 0x1304, 0x1301] Toy.plainCfg.suites 0x1301 ∧
    BestCommon [[104, 51], [104, 50]] Toy.plainCfg.nextProtos [104, 50] :=
  ⟨Toy.meets_ok (by decide +kernel), Toy.plainCfg_sound, fun g hg => by
      rw [List.mem_singleton.1 hg]; exact Toy.dh_works,
    ⟨[0x1303, 0x1304], [], rfl, by decide, by decide⟩, ⟨[[104, 51]], [], rfl, by decide, by decide⟩⟩

end Verif.Props
