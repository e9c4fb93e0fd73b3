import Verif.Props.Downgrade
import Verif.Machine.Alerts

/-
C89 for a client that offers a PSK.
-/

namespace Verif.Machine

open Verif Verif.Crypto Verif.Messages Verif.Negotiation Verif.Handshake Verif.Spec Verif.Props

/-- The server finds no share only if it has none of the groups. -/
theorem dh_none {D : Dh} (sg : List UInt16) : ∀ (shares : List (UInt16 × Bytes × Bytes)),
    (∀ k ∈ shares, DhWorks D k.1 ∧ ∃ n, newKeyShare D n k.1.toNat = .ok (k.2.1, k.2.2)) → ∀ n,
    dh D (sg.map (·.toNat)) n (shares.map fun k => ⟨k.1.toNat, k.2.1⟩) = .ok none →
    ∀ g ∈ shares.map (·.1), g ∉ sg
  | [], _, _, _ => by simp
  | (g, pub, priv) :: shares, h, n, hr => by
    obtain ⟨hw, n0, hk⟩ := h (g, pub, priv) (by simp)
    rcases dhGroups_honest hw hk n sg with ⟨hm, own, own', z, h1, h2, h3⟩ | ⟨hm, h3⟩
    · simp only [List.map_cons, dh, h3, Res.ok.injEq] at hr
      cases hr
    · simp only [List.map_cons, dh, h3] at hr
      have ih := dh_none sg shares (fun k hk => h k (List.mem_cons_of_mem _ hk)) n hr
      intro g' hg'
      rw [List.map_cons, List.mem_cons] at hg'
      rcases hg' with rfl | hg'
      · exact hm
      · exact ih g' hg'

/-- When the PSK is used alone. -/
theorem pskMode_alone {canDoDH canDoPSK : Bool} {modes : List UInt8} (h1 : (pskMode canDoDH canDoPSK modes).1 = false)
    (h2 : (pskMode canDoDH canDoPSK modes).2 = true) : (1 ∉ modes ∨ canDoDH = false) ∧ ∃ m ∈ modes, m ≠ 1 := by
  simp only [pskMode, foldl_or, foldl_and] at h1 h2
  rw [h2] at h1
  cases canDoDH with
  | true =>
    have hm : (1 : UInt8) ∉ modes := by simpa using h1
    refine ⟨.inl hm, ?_⟩
    have hne : modes.length > 0 := by
      by_contra hc
      simp [hc] at h2
    obtain ⟨m, hmm⟩ := List.exists_mem_of_length_pos hne
    exact ⟨m, hmm, fun e => hm (e ▸ hmm)⟩
  | false =>
    refine ⟨.inr rfl, ?_⟩
    simp at h2
    exact h2.1.2

/-- What a server that reads the hello of a client makes of it. -/
theorem choice_psk {E : Env} (hP : E.P.Sized) {y : Ctx} {scfg : Config} {es : List (Event × Coins)} {acts : List Action}
    (a : AfterHello E y scfg es acts) {st : CStart} {c0 : Coins} {x0 x1 : Ctx} {w : CWaitSH} {a0 : List Action}
    (hst : st.next E x0 c0 = .ok (w, a0, x1)) (hx0 : x0.datagram = y.datagram)
    (dhw : ∀ g ∈ st.cfg.groups, DhWorks E.D g)
    (ht : w.clientHello.msgType = a.m.msgType) (hb : w.clientHello.body = a.m.body) :
    (a.n.params.usingPSK = false →
      BestCommon st.cfg.nextProtos scfg.nextProtos a.n.params.nextProto ∨
      (a.n.params.nextProto = [] ∧ ∀ p ∈ st.cfg.nextProtos, p ∉ scfg.nextProtos)) ∧
    (a.n.params.usingPSK = true → ∃ k k', st.cfg.psks st.cfg.serverName = some k ∧
      scfg.psks (hexString k.identity) = some k' ∧ a.n.params.suite.toNat = k'.suite ∧ a.n.params.suite ∈ st.cfg.suites ∧
      a.n.params.nextProto = if k'.nextProto ∈ st.cfg.nextProtos ∧ k'.nextProto ∈ scfg.nextProtos then k'.nextProto else []) ∧
    ((a.n.params.usingDH = true ∧ BestCommon st.cfg.groups scfg.groups (UInt16.ofNat a.n.dhGroup)) ∨
      (a.n.params.usingPSK = true ∧ (1 ∉ st.cfg.pskModes ∨ ∀ g ∈ st.cfg.groups, g ∉ scfg.groups) ∧
        ∃ m ∈ st.cfg.pskModes, m ≠ 1)) := by
  obtain ⟨mh⟩ := CStart.next_hello hP hst
  obtain ⟨o, ho, O⟩ := hello_read (y := a.x0) mh (by rw [a.datagram.1, hx0]) true
  obtain ⟨e1, e2⟩ := arrived_said true w.clientHello
  rw [readHello_same (e1.trans ht) (e2.trans hb)] at ho
  obtain ⟨f, hx2, ⟨_, _, _, h⟩ | ⟨hsend, n, hn, hfin⟩⟩ := SStart.next_ok a.next
  · cases h
  cases hn
  obtain ⟨hdp, cert, psk, et, proto, hcert, hpsk, het, halpn, hneq⟩ := SStart.finish_ok hfin
  have hof := f.hello
  rw [ho, Res.ok.injEq, Prod.mk.injEq] at hof
  obtain ⟨hch, hoo⟩ := hof
  have hu : a.n.params.usingPSK = (pskMode f.dhc.isSome f.pskc.isSome f.o.modes).2 := by rw [hneq]
  have hd : a.n.params.usingDH = (pskMode f.dhc.isSome f.pskc.isSome f.o.modes).1 := by rw [hneq]
  have hp : a.n.params.nextProto = proto := by rw [hneq]
  have ha : f.o.alpn = st.cfg.nextProtos := by rw [← hoo]; exact O.alpn
  have hmodes : f.o.modes = st.cfg.pskModes := by rw [← hoo]; exact O.modes
  have halpn' := C28_alpn psk f.o.alpn scfg.nextProtos
  rw [halpn, ha] at halpn'
  have hsh : (f.o.shares.map fun e => (⟨e.1.toNat, e.2.1⟩ : Share)) = mh.shares.map fun k => ⟨k.1.toNat, k.2.1⟩ := by
    rw [← hoo, O.shares_, List.map_map]; rfl
  have hdhf := f.dh
  rw [hsh] at hdhf
  have h4 : ∀ k ∈ mh.shares, DhWorks E.D k.1 ∧ ∃ n, newKeyShare E.D n k.1.toNat = .ok (k.2.1, k.2.2) := by
    intro k hk
    obtain ⟨h5, h6⟩ := makeShares_mem mh.sharesOk k hk
    exact ⟨dhw _ h5, h6⟩
  have h7 : mh.shares.map (·.1) = st.cfg.groups := by
    obtain ⟨sh', h1, h2⟩ := makeShares_fits (D := E.D) c0.dh dhw
    have h8 := mh.sharesOk
    rw [h1, Res.ok.injEq] at h8
    rw [← h8]; exact h2
  rw [hp, hu, hd]
  refine ⟨?_, ?_, ?_⟩
  · intro hno
    rw [hno] at hpsk
    simp only [Bool.false_eq_true, if_false] at hpsk
    rw [hpsk] at halpn'
    rcases halpn' with ⟨pre, post, h4, h5, h6⟩ | ⟨h4, h5, _⟩
    · exact .inl ⟨pre, post, h4, h5.1, fun p hp hm => h6 p hp ⟨hm, by simp⟩⟩
    · exact .inr ⟨h4, fun p hp hm => h5 p hp ⟨hm, by simp⟩⟩
  · intro hyes
    have hsome := (C28_psk_mode f.dhc.isSome f.pskc.isSome f.o.modes _ _ rfl).2.1 hyes
    obtain ⟨⟨i, k', pr⟩, hpc⟩ := Option.isSome_iff_exists.1 hsome
    have hpf := f.psk
    rw [hpc] at hpf
    rcases choosePsk_ok hpf with ⟨_, h, _⟩ | ⟨hne, base, trunc, _, _, hneg⟩
    · cases h
    rcases mh.pskOk with ⟨_, h1, _⟩ | ⟨k, p, bd, tr, h1, _, h2, _, hsuites, _⟩
    · exact absurd (by rw [← hoo]; exact (O.noPsk h1).1) hne
    refine ⟨k, k', h1, ?_⟩
    have hids : f.o.ids = [(k.identity, sinceMs c0.now k.receivedAt + k.ticketAgeAdd, ())] := by
      rw [← hoo]; exact (O.psk_ _ _ _ h2).1
    obtain ⟨id, hid, hcache⟩ := pskFrom_cached hneg
    rw [hids] at hid
    simp only [List.map_cons, List.map_nil, List.mem_singleton] at hid
    subst hid
    refine ⟨hcache, ?_⟩
    have hs := f.suiteOk
    rw [hpc] at hs
    obtain ⟨hs1, hs2⟩ := ((C28_suite_with_psk_partial k' _ _).1 _).1 hs
    have hs3 : a.n.params.suite = UInt16.ofNat f.suite := by rw [hneq]
    obtain ⟨u, hu1, hu2⟩ := List.mem_map.1 hs2
    have hs4 : a.n.params.suite = u := by rw [hs3, ← hu2]; simp
    refine ⟨by rw [hs4, hu2, hs1], ?_, ?_⟩
    · rw [hs4]
      have : f.ch.suites = mh.suites := by rw [← hch]
      rw [this, hsuites] at hu1
      exact (List.mem_filter.1 hu1).1
    · rw [hyes, hpc] at hpsk
      simp only [if_true, Option.map_some] at hpsk
      rw [hpsk] at halpn'
      rcases halpn' with ⟨pre, post, h4, h5, h6⟩ | ⟨h4, h5, _⟩
      · have e := h5.2 k' rfl
        rw [if_pos ⟨by rw [← e, h4]; simp, by rw [← e]; exact h5.1⟩, e]
      · rw [if_neg (fun hc => h5 _ hc.1 ⟨hc.2, fun q hq => by cases hq; rfl⟩), h4]
  · cases hdh : (pskMode f.dhc.isSome f.pskc.isSome f.o.modes).1 with
    | true =>
      refine .inl ⟨rfl, ?_⟩
      have h1 := (C28_psk_mode f.dhc.isSome f.pskc.isSome f.o.modes _ _ rfl).1 hdh
      cases hdc : f.dhc with
      | none => rw [hdc] at h1; cases h1
      | some r =>
        rw [hdc] at hdhf
        obtain ⟨g, h5, h6⟩ := dh_first scfg.groups mh.shares h4 _ _ hdhf
        rw [h7] at h6
        have h8 : a.n.dhGroup = r.1 := by
          rw [hneq]; obtain ⟨r1, r2, r3⟩ := r; simp only [hdc]
        rw [h8, h5]
        simpa using h6
    | false =>
      have hyes : (pskMode f.dhc.isSome f.pskc.isSome f.o.modes).2 = true := by
        rcases hdp with h | h
        · rw [hdh] at h; cases h
        · exact h
      obtain ⟨h1, h2⟩ := pskMode_alone hdh hyes
      rw [hmodes] at h1 h2
      refine .inr ⟨hyes, ?_, h2⟩
      rcases h1 with h1 | h1
      · exact .inl h1
      · right
        have hdc : f.dhc = none := by simpa using h1
        rw [hdc] at hdhf
        have := dh_none scfg.groups mh.shares h4 _ hdhf
        rw [h7] at this
        exact this

end Verif.Machine

namespace Verif.Props

open Verif Verif.Crypto Verif.Messages Verif.Negotiation Verif.Handshake Verif.Machine Verif.Spec

/-- The same for a client that may have a PSK for the server's name, whatever anybody does to the messages. Keys are agreed
on in the first of the client's groups that the server has too, unless the PSK is used alone; and that happens only if the
client's configured modes name another one than PSK with key agreement (1), and either do not name that one or the two have
no group in common. So a client that allows PSKs only together with key agreement always gets it. If the PSK is used, it is
the one the server keeps under the identity of the client's, the suite is that PSK's and one of the client's, and the protocol
is that PSK's if both ends have it, none otherwise; if it is not used, the protocol is the first of the client's that the
server has too. A certificate is asked for exactly if the server is configured to ask and the PSK is not used. Otherwise a
collision of the hash function or of HMAC is found. -/
theorem C89_psk (E : Env) (hP : E.P.Sized) (x y x' y' : Ctx) (ccfg scfg : Config) (c : Coins)
    (es es' : List (Event × Coins)) (s : Connected) (t : SState) (acts acts' : List Action)
    (client : clientRun E x ccfg c es = .ok (.connected s, acts, x'))
    (server : serverRun E y scfg es' = .ok (t, acts', y')) (version : y.datagram = x.datagram) (cookies : SoundCookies scfg)
    (framed : ∀ m ∈ received es ++ sent acts ++ received es' ++ sent acts', Framed m)
    (finished : ∃ m ∈ received es, ∃ m' ∈ sent acts', m.msgType = 20 ∧ wire x.datagram [m] = wire x.datagram [m'])
    (groups : ∀ g ∈ ccfg.groups, DhWorks E.D g) :
    (((∃ g, ToldGroup (received es) g ∧ BestCommon ccfg.groups scfg.groups g) ∨
        (s.params.usingPSK = true ∧ (1 ∉ ccfg.pskModes ∨ ∀ g ∈ ccfg.groups, g ∉ scfg.groups) ∧ ∃ m ∈ ccfg.pskModes, m ≠ 1)) ∧
      (s.params.usingPSK = true → ∃ k k', ccfg.psks ccfg.serverName = some k ∧ scfg.psks (hexString k.identity) = some k' ∧
        s.params.suite.toNat = k'.suite ∧ s.params.suite ∈ ccfg.suites ∧
        s.params.nextProto = if k'.nextProto ∈ ccfg.nextProtos ∧ k'.nextProto ∈ scfg.nextProtos then k'.nextProto else []) ∧
      (s.params.usingPSK = false → BestCommon ccfg.nextProtos scfg.nextProtos s.params.nextProto ∨
        (s.params.nextProto = [] ∧ ∀ p ∈ ccfg.nextProtos, p ∉ scfg.nextProtos)) ∧
      s.params.usingClientAuth = (!s.params.usingPSK && scfg.requireClientAuth)) ∨
    ∃ (v : ClientView E x.datagram ccfg es acts s) (w : ServerFlight E x.datagram scfg es' acts'),
      FinishedBroken E.P v.F.h (ascii "s hs traffic")
        (v.F.handshake E.P) (v.F.toServerHello x.datagram) (v.F.toServerAuth x.datagram)
        (w.F.handshake E.P) (w.F.toServerHello x.datagram) (w.F.toServerAuth x.datagram) := by
  obtain ⟨_, _, hall⟩ := C41_agreement E hP x y x' y' ccfg scfg c es es' s t acts acts' client server version cookies framed finished
  obtain ⟨ac, V, hV⟩ := clientViewAt hP client
  have hafter : Nonempty (AfterHello E y scfg es' acts') := by
    rcases serverHelloOf server with ⟨s0, rfl⟩ | h
    · obtain ⟨m, hm, m', hm', ht, hw⟩ := finished
      have ht' : m'.msgType = 20 := by
        obtain ⟨r, hr⟩ := wire_head x.datagram m []
        obtain ⟨r', hr'⟩ := wire_head x.datagram m' []
        rw [hr, hr', List.cons.injEq] at hw
        rw [← hw.1, ht]
      have := retry_type (only_retries server m' hm')
      rw [ht'] at this
      cases this
    · exact h
  obtain ⟨as⟩ := hafter
  have hflight : ∃ w : ServerFlight E y.datagram scfg es' acts', w.hello = as.m ∧ w.F = as.F ∧
      as.n.params.suite = w.sh.suite ∧ NamesProtocol w.ee as.n.params.nextProto ∧
      asksCertificate w.F.auth = as.f.wait.params.usingClientAuth ∧ as.n.params.usingPSK = w.psk.isSome := by
    obtain ⟨w, hw⟩ := as.flight hP
    exact ⟨w, hw.hello, hw.F, hw.suite, hw.proto, hw.asks, hw.usingPSK⟩
  rw [version] at hflight
  obtain ⟨w, hhello, hF, hsuite, hproto, hasks, husing⟩ := hflight
  rcases hall V w with ⟨hag, g1, g2, g3, g4, g5, _⟩ | h
  swap
  · exact .inr ⟨V, w, h⟩
  left
  have hmsg := hag.messages
  simp only [List.cons_append, said_cons, List.cons.injEq, Prod.mk.injEq] at hmsg
  obtain ⟨⟨m1, m2⟩, ⟨m3, m4⟩, _⟩ := hmsg
  rw [hhello, hV.hello] at m1 m2
  obtain ⟨st, c0, x0, a0, hst, hx0, hcase⟩ := ac.at0.at0.atSH.made
  obtain ⟨q1, q2, q3, q4, q5⟩ : st.cfg.psks = ccfg.psks ∧ st.cfg.serverName = ccfg.serverName ∧ st.cfg.groups = ccfg.groups ∧
      st.cfg.nextProtos = ccfg.nextProtos ∧ st.cfg.pskModes = ccfg.pskModes := by
    rcases hcase with ⟨_, rfl, _⟩ | hR
    · exact ⟨rfl, rfl, rfl, rfl, rfl⟩
    · obtain ⟨R⟩ := hR
      rw [R.st_eq]; exact ⟨rfl, rfl, rfl, rfl, rfl⟩
  have q6 : ∀ u ∈ st.cfg.suites, u ∈ ccfg.suites := by
    rcases hcase with ⟨_, rfl, _⟩ | hR
    · exact fun _ h => h
    · obtain ⟨R⟩ := hR
      rw [R.st_eq]
      intro u hu
      have h := R.offered
      rw [List.mem_singleton] at hu
      rw [hu]
      simpa using h
  obtain ⟨r1, r2, r3⟩ := choice_psk hP as hst (hx0.trans version.symm) (by rw [q3]; exact groups) m1 m2
  rw [q3, q5] at r3
  rw [q4] at r1
  rw [q1, q2, q4] at r2
  have hu : s.params.usingPSK = as.n.params.usingPSK := by rw [g2, husing]
  have hncfg : as.n.cfg = scfg := by
    obtain ⟨f, hx2, ⟨_, _, _, h⟩ | ⟨hsend, n, hn, hfin⟩⟩ := SStart.next_ok as.next
    · cases h
    cases hn
    obtain ⟨_, _, _, _, _, _, _, _, _, hneq⟩ := SStart.finish_ok hfin
    rw [hneq]
  rw [hu, protocol_unique g5 hproto]
  refine ⟨?_, ?_, r1, ?_⟩
  · rcases r3 with ⟨r4, r6⟩ | h
    · refine .inl ⟨_, ⟨V.F.sh, by rw [V.got]; simp, ?_⟩, r6⟩
      obtain ⟨h1, h2⟩ := serverHello_made as.f.shOk
      obtain ⟨_, he51, _⟩ := sh_exts as.f.extsOk
      rw [r4] at he51
      have e : w.F.sh = as.f.sh := by rw [hF]; rfl
      refine ⟨_, _, _, by rw [m3, e]; exact h1, by rw [m4, e]; exact h2, he51⟩
    · exact .inr h
  · intro h
    obtain ⟨k, k', h1, h2, h3, h4, h5⟩ := r2 h
    have e : s.params.suite = as.n.params.suite := by rw [g1, hsuite]
    exact ⟨k, k', h1, h2, by rw [e]; exact h3, by rw [e]; exact q6 _ h4, h5⟩
  · rw [g4, hasks]
    simp only [NegFacts.wait, hncfg]

/-- The hypotheses hold of an honest handshake with a PSK and key agreement, and of one with the PSK alone. -/
example : Toy.Meets Toy.pskClient { Toy.plainCfg with psks := Toy.pskServer.psks } 2 ∧
    SoundCookies { Toy.plainCfg with psks := Toy.pskServer.psks } ∧
    (∀ g ∈ Toy.pskClient.groups, DhWorks Toy.env.D g) ∧ (∀ m ∈ Toy.pskClient.pskModes, m = 1) ∧
    Toy.Meets { Toy.pskClient with pskModes := [0] } { Toy.plainCfg with psks := Toy.pskServer.psks } 2 :=
  ⟨Toy.meets_ok (by decide +kernel), (fun _ _ _ _ _ _ hp => by cases hp), fun g hg => by
      rw [List.mem_singleton.1 hg]; exact Toy.dh_works, by decide, Toy.meets_ok (by decide +kernel)⟩

end Verif.Props
