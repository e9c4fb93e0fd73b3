import Verif.Conn.Report
import Verif.Props.Agreement
import Verif.Props.Failed
import Verif.Props.Stream

/-
C73: what ConnectionState, GetHsState and ComputeExporter report.
-/

namespace Verif.Props

open Verif Verif.Crypto Verif.Messages Verif.Negotiation Verif.Handshake Verif.Machine Verif.Spec Verif.Conn Verif.Record

theorem clientCode_connected (s : CState) : (clientCode s = 8 ∨ clientCode s = 18) ↔ (HState.client s).connected? ≠ none := by
  cases s <;> simp [clientCode, HState.connected?]

theorem serverCode_connected (s : SState) : (serverCode s = 8 ∨ serverCode s = 18) ↔ (HState.server s).connected? ≠ none := by
  cases s <;> simp [serverCode, HState.connected?]

/-- C73, before the handshake is complete: whatever was called before, and whatever failed, the state reported is one of the
two Connected states if and only if the handshake is complete; if it is not, nothing else is reported, and there is no
exporter. -/
theorem C73_before (E : Env) (cfg : Config) (isClient nb st : Bool) (tl el : UInt32) (d : Bool) (ks : List HCall) :
    let c := (HConn.new cfg isClient nb st tl el d).calls E ks
    ((c.report.state = 8 ∨ c.report.state = 18) ↔ c.complete = true) ∧
    (c.complete = false → c.report = Report.nothing c.hsState ∧ ∀ label context n, c.exporter E.P label context n = .err .msg) := by
  intro c
  have hi : c.Inv := calls_inv E ks (new_inv cfg isClient nb st tl el d)
  have hst : c.report.state = c.hsState := by
    unfold HConn.report
    split
    · split <;> rfl
    · rfl
  refine ⟨?_, fun hc => ⟨by rw [HConn.report, hc]; rfl, fun label context n => ?_⟩⟩
  · rw [hst, hi.complete]
    unfold HConn.hsState HConn.connected
    cases hs : c.hState with
    | none => simp
    | some s =>
      cases s with
      | client s => simpa [Option.isSome_iff_ne_none] using clientCode_connected s
      | server s => simpa [Option.isSome_iff_ne_none] using serverCode_connected s
  · rw [hi.complete] at hc
    unfold HConn.connected at hc
    unfold HConn.exporter
    rw [Option.isSome_eq_false_iff, Option.isNone_iff_eq_none] at hc
    rw [hc]
    rfl

/-- C73, after the handshake: whatever the application calls and whatever the transport delivers, what is reported does not
change any more, and the exporter does not either. -/
theorem C73_stable (W : World) (c : Live) (ks : List Call) :
    (Live.calls W c ks).2.report = c.report ∧
    ∀ P label context n, (Live.calls W c ks).2.exporter P label context n = c.exporter P label context n := by
  have h := calls_kept W ks c
  unfold Kept at h
  refine ⟨?_, fun P label context n => ?_⟩
  · unfold Live.report Connected.report; rw [h]
  · unfold Live.exporter; rw [h]

theorem hasExt_dataOf (t : UInt16) (exts : List Ext) : hasExt t exts = false ↔ dataOf t exts = [] := by
  simp [hasExt, dataOf]

theorem told_client {E : Env} (hP : E.P.Sized) {x x' : Ctx} {cfg : Config} {c : Coins} {es : List (Event × Coins)} {s : Connected}
    {acts : List Action} (h : clientRun E x cfg c es = .ok (.connected s, acts, x')) :
    s.isClient = true ∧ ClientTold E cfg (received es) (Connected.report 8 s) := by
  obtain ⟨V⟩ := clientView hP h
  have hp : suiteParams s.params.suite.toNat = some V.p := by rw [V.repSuite]; exact V.suite
  obtain ⟨n, hsh⟩ := V.shBody
  refine ⟨V.isClient, rfl, V.F.auth ++ [V.F.fin] ++ V.post, ⟨V.retries, V.F.sh, V.F.ee,
    V.sh, n, V.ee, V.p, by rw [V.got]; simp, V.retryTypes, V.shType, hsh, V.eeType, V.eeBody, hp, suiteParams_suite V.suite, V.repPsk,
    V.repProto, V.repEarly⟩, ?_⟩
  show (s.params.usingPSK = true ∧ s.peerCerts = [] ∧ s.chains = []) ∨ _
  rw [V.repPsk]
  cases V.auth with
  | psk h1 h2 h3 h4 => exact .inl ⟨h1, h3, h4⟩
  | cert h1 req mcert mcv h2 h3 h4 cm h5 h6 cv pub h7 h8 h9 h10 h11 =>
    refine .inr ⟨V.repPsk.trans h1, req, mcert, [mcv] ++ [V.F.fin] ++ V.post, by rw [h2]; simp, ?_, ⟨h4, cm, h5, h10⟩, h11⟩
    rcases h3 with rfl | ⟨mr, rfl, h⟩
    · simp
    · simpa using h

/-- C73 for a client: after any execution that completes, and any calls later, the client reports the suite and the PSK of
the ServerHello it received, the protocol and early data of EncryptedExtensions, the certificates in the Certificate message
and the chains verification gave for them; no certificates if a PSK is in use. -/
theorem C73_client (W : World) (hP : W.E.P.Sized) (x x' y : Ctx) (cfg : Config) (c : Coins) (es : List (Event × Coins)) (s : Connected)
    (acts : List Action) (h : clientRun W.E x cfg c es = .ok (.connected s, acts, x')) (nb : Bool) (sn : Bytes)
    (o i : Machine.Keys) (v : Nat) (conn : List (Except Err Bytes)) (ks : List Call) :
    ClientTold W.E cfg (received es) (Live.calls W (Live.start W s y nb sn o i v conn) ks).2.report := by
  rw [(C73_stable W _ ks).1]
  obtain ⟨h1, h2⟩ := told_client hP h
  rw [Live.report, show (Live.start W s y nb sn o i v conn).st = s from rfl, h1]
  exact h2

theorem told_server {E : Env} (hP : E.P.Sized) {x x' : Ctx} {cfg : Config} {es : List (Event × Coins)} {s : Connected}
    {acts : List Action} (h : serverRun E x cfg es = .ok (.connected s, acts, x')) :
    s.isClient = false ∧ ServerTold E (received es) (sent acts) (Connected.report 18 s) := by
  obtain ⟨V⟩ := serverView hP h
  have hp : suiteParams s.params.suite.toNat = some V.p := by rw [V.repSuite]; exact V.suite
  have hpsk : V.psk.isSome = hasExt 41 V.sh.exts := by
    have := V.pskOk
    generalize V.psk = k at this
    cases this with
    | none h => simpa using h.symm
    | selected i ids bs id b k p base trunc h1 h2 h3 h4 h5 h6 h7 h8 h9 h10 =>
      cases hh : hasExt 41 V.sh.exts with
      | true => rfl
      | false => rw [(hasExt_dataOf _ _).1 hh] at h5; cases h5
  have htypes : ∀ m ∈ V.pre ++ [V.hello] ++ V.eoed, m.msgType = 1 ∨ m.msgType = 5 := by
    intro m hm
    simp only [List.mem_append, List.mem_singleton] at hm
    rcases hm with (hm | rfl) | hm
    · exact .inl (V.preTypes m hm)
    · exact .inl V.helloType
    · rcases V.eoedOk with ⟨-, he⟩ | ⟨-, m', he, ht, -⟩
      · rw [he] at hm; cases hm
      · rw [he] at hm; simp only [List.mem_singleton] at hm; subst hm; exact .inr ht
  refine ⟨V.isClient, rfl, ⟨V.F.auth ++ [V.F.fin] ++ V.out, ⟨V.retries, V.F.sh, V.F.ee,
    V.sh, _, V.ee, V.p, by rw [V.out_eq]; simp, V.retryTypes, V.shType, V.shBody, V.eeType, V.eeBody, hp, suiteParams_suite V.suite,
    V.repPsk.trans hpsk, V.repProto, V.repEarly⟩⟩, V.pre ++ [V.hello] ++ V.eoed ++ V.cauth, V.cfin, V.post, by rw [V.got, V.rest_eq]; simp,
    V.cfinType, ?_, ?_⟩
  · intro m hm
    rw [List.mem_append] at hm
    rcases hm with hm | hm
    · rcases htypes m hm with h | h <;> rw [h] <;> decide
    · cases V.cauthOk with
      | none h1 h2 h3 => rw [h2] at hm; cases hm
      | empty h1 mcert h2 h3 cm h4 h5 h6 => rw [h2] at hm; simp only [List.mem_singleton] at hm; rw [hm, h3]; decide
      | cert h1 mcert mcv h2 h3 cm h4 h5 h6 cv pub h7 h8 h9 h10 h11 =>
        rw [h2] at hm
        simp only [List.mem_cons, List.not_mem_nil, or_false] at hm
        rcases hm with rfl | rfl
        · rw [h3]; decide
        · rw [h6]; decide
  · show (_ ∧ s.peerCerts = []) ∨ ∃ m ∈ _, HasCerts E m s.peerCerts
    cases V.cauthOk with
    | none h1 h2 h3 =>
      refine .inl ⟨fun m hm => ?_, h3⟩
      rw [h2, List.append_nil] at hm
      rcases htypes m hm with h | h <;> rw [h] <;> decide
    | empty h1 mcert h2 h3 cm h4 h5 h6 => exact .inr ⟨mcert, by rw [h2]; simp, h3, cm, h4, by rw [h6, h5]; rfl⟩
    | cert h1 mcert mcv h2 h3 cm h4 h5 h6 cv pub h7 h8 h9 h10 h11 => exact .inr ⟨mcert, by rw [h2]; simp, h3, cm, h4, h10⟩

/-- C73 for a server, apart from the chains. -/
theorem C73_server (W : World) (hP : W.E.P.Sized) (x x' y : Ctx) (cfg : Config) (es : List (Event × Coins)) (s : Connected)
    (acts : List Action) (h : serverRun W.E x cfg es = .ok (.connected s, acts, x')) (nb : Bool) (sn : Bytes)
    (o i : Machine.Keys) (v : Nat) (conn : List (Except Err Bytes)) (ks : List Call) :
    ServerTold W.E (received es) (sent acts) (Live.calls W (Live.start W s y nb sn o i v conn) ks).2.report := by
  rw [(C73_stable W _ ks).1]
  obtain ⟨h1, h2⟩ := told_server hP h
  rw [Live.report, show (Live.start W s y nb sn o i v conn).st = s from rfl, h1]
  exact h2

/-- C73, when Handshake has completed the handshake, and no call of it has failed: the state reported is that of the role, and
the rest as for `C73_client` and `C73_server`, for an execution of the state machine that ends like this one. -/
theorem C73_complete (E : Env) (hP : E.P.Sized) (cfg : Config) (isClient nb st : Bool) (tl el : UInt32) (d : Bool) (c : HConn)
    (h : Attempted E (HConn.new cfg isClient nb st tl el d) c) (hc : c.complete = true) :
    (isClient = true ∧ ∃ s coins es acts x, clientRun E ⟨d, 0, []⟩ cfg coins es = .ok (.connected s, acts, x) ∧
      c.hState = some (.client (.connected s)) ∧ ClientTold E cfg (received es) c.report) ∨
    (isClient = false ∧ ∃ s es acts x, serverRun E ⟨d, 0, []⟩ cfg es = .ok (.connected s, acts, x) ∧
      c.hState = some (.server (.connected s)) ∧ ServerTold E (received es) (sent acts) c.report) := by
  obtain ⟨-, hi⟩ := attempted_followed (x0 := ⟨d, 0, []⟩) (cfg := cfg) h ⟨rfl, rfl⟩ (new_inv cfg isClient nb st tl el d)
  have hrole : c.isClient = isClient := by
    clear hc hi
    induction h with
    | refl => rfl
    | step c t ts _ _ ih => rw [← ih]; exact (calls_same E [.handshake t ts] c).2.1
  obtain ⟨s, ⟨hs, coins, es, acts, x, hr⟩ | ⟨hs, es, acts, x, hr⟩⟩ := C51_run E cfg isClient nb st tl el d c h hc
  · obtain ⟨h1, h2⟩ := told_client hP hr
    refine .inl ⟨by rw [← hrole, ← hi.role _ hs]; rfl, s, coins, es, acts, x, hr, hs, ?_⟩
    rw [show c.report = Connected.report 8 s by
      rw [HConn.report, hc, if_pos rfl, hs]
      simp [HState.connected?, HConn.hsState, hs, clientCode, h1]]
    exact h2
  · obtain ⟨h1, h2⟩ := told_server hP hr
    refine .inr ⟨by rw [← hrole, ← hi.role _ hs]; rfl, s, es, acts, x, hr, hs, ?_⟩
    rw [show c.report = Connected.report 18 s by
      rw [HConn.report, hc, if_pos rfl, hs]
      simp [HState.connected?, HConn.hsState, hs, serverCode, h1]]
    exact h2

/-- No chains are ever reported by a server. -/
theorem server_chains {E : Env} {x x' : Ctx} {cfg : Config} {es : List (Event × Coins)} {s : Connected}
    {acts : List Action} (h : serverRun E x cfg es = .ok (.connected s, acts, x')) : s.chains = [] := by
  obtain ⟨es1, a1, x1, wf, auth, a, m, ce, s0, a2, post, a3, hx1, hau, next, hes, hacts, run⟩ := serverKnows h
  obtain ⟨_, _, _, _, _, _, _, _, _, _, _, hs0, _⟩ := SWaitFinished.next_ok next
  have hs0e := SState.connected.inj hs0
  have key : ∀ (es : List (Event × Coins)) (x x' : Ctx) (t t' : Connected) (acts : List Action),
      (SState.connected t).run E x es = .ok (.connected t', acts, x') → t'.chains = t.chains := by
    intro es
    induction es with
    | nil =>
      intro x x' t t' acts h
      simp only [SState.run, Res.ok.injEq, Prod.mk.injEq, SState.connected.injEq] at h
      rw [h.1]
    | cons e es ih =>
      intro x x' t t' acts h
      obtain ⟨e, k⟩ := e
      simp only [SState.run, Res.bind_eq_ok, Res.ok.injEq, Prod.mk.injEq] at h
      obtain ⟨⟨s1, b1, y1⟩, h1, ⟨s2, b2, y2⟩, h2, rfl, -, -⟩ := h
      cases SState.step_ok h1 with
      | post _ m s' acts x' hp =>
        rw [ih _ _ _ _ _ h2]
        have := process_kept hp
        rw [this]
      | data _ d => exact ih _ _ _ _ _ h2
  rw [key _ _ _ _ _ _ run, hs0e]

theorem certs_unique {E : Env} {b : Bytes} {c c' : CertificateMsg} {n n' : Nat} (h : CertificateMsg.unmarshal E.parses b = .ok (c, n))
    (h' : CertificateMsg.unmarshal (fun _ => true) b = .ok (c', n')) : c = c' := by
  simp only [CertificateMsg.unmarshal, Res.bind_eq_ok] at h h'
  obtain ⟨⟨⟨a, l, u⟩, k⟩, h1, h⟩ := h
  obtain ⟨⟨⟨a', l', u'⟩, k'⟩, h1', h'⟩ := h'
  rw [h1] at h1'
  simp only [Res.ok.injEq, Prod.mk.injEq] at h1'
  obtain ⟨⟨rfl, rfl, -⟩, -⟩ := h1'
  split at h
  · simp at h h'
    exact h.1.symm.trans h'.1
  · cases h

/-- C73, both ends: if the client read a Finished that the server wrote, then whatever else the network did, and whatever is
called later, both report the same suite, protocol, use of a PSK and of early data; the certificates the client reports are
those of a chain of the server's configuration, or none if a PSK is in use; and the exporters give the same. Otherwise a
collision is found. -/
theorem C73_same (W : World) (hP : W.E.P.Sized) (x y x' y' z z' : Ctx) (ccfg scfg : Config) (c : Coins) (es es' : List (Event × Coins))
    (s t : Connected) (acts acts' : List Action)
    (client : clientRun W.E x ccfg c es = .ok (.connected s, acts, x'))
    (server : serverRun W.E y scfg es' = .ok (.connected t, acts', y')) (version : y.datagram = x.datagram)
    (cookies : SoundCookies scfg)
    (framed : ∀ m ∈ received es ++ sent acts ++ received es' ++ sent acts', Framed m)
    (finished : ∃ m ∈ received es, ∃ m' ∈ sent acts', m.msgType = 20 ∧ wire x.datagram [m] = wire x.datagram [m'])
    (nb nb' : Bool) (sn sn' : Bytes) (o i o' i' : Machine.Keys) (v v' : Nat) (conn conn' : List (Except Err Bytes)) (ks ks' : List Call) :
    let a := (Live.calls W (Live.start W s z nb sn o i v conn) ks).2
    let b := (Live.calls W (Live.start W t z' nb' sn' o' i' v' conn') ks').2
    (a.report.suite = b.report.suite ∧ a.report.nextProto = b.report.nextProto ∧ a.report.psk = b.report.psk ∧
      a.report.early = b.report.early ∧
      ((a.report.psk = true ∧ a.report.certs = []) ∨
        (a.report.psk = false ∧ ∃ cert ∈ scfg.certificates, a.report.certs = cert.chain.map (·.raw))) ∧
      ∀ label context n, a.exporter W.E.P label context n = b.exporter W.E.P label context n) ∨
    ∃ (v : ClientView W.E x.datagram ccfg es acts s) (w : ServerView W.E x.datagram scfg es' acts' t),
      FinishedBroken W.E.P v.F.h (ascii "s hs traffic")
        (v.F.handshake W.E.P) (v.F.toServerHello x.datagram) (v.F.toServerAuth x.datagram)
        (w.F.handshake W.E.P) (w.F.toServerHello x.datagram) (w.F.toServerAuth x.datagram) := by
  intro a b
  obtain ⟨ra, ea⟩ := C73_stable W (Live.start W s z nb sn o i v conn) ks
  obtain ⟨rb, eb⟩ := C73_stable W (Live.start W t z' nb' sn' o' i' v' conn') ks'
  obtain ⟨⟨V⟩, -, h⟩ := C41_agreement W.E hP x y x' y' ccfg scfg c es es' s (.connected t) acts acts' client server version cookies
    framed finished
  obtain ⟨w⟩ : Nonempty (ServerView W.E x.datagram scfg es' acts' t) := version ▸ serverView hP server
  rcases h V w.toServerFlight with ⟨ha, h1, h2, h3, -, h5, h6⟩ | h
  · have hcp : s.cp = t.cp := by rw [V.cp, w.cp]; exact (agreed_params V w.toServerFlight ha).2.2.1
    have hex : s.exporter = t.exporter := by rw [h6.exporter, w.secrets.exporter]
    refine .inl ⟨?_, ?_, ?_, ?_, ?_, fun label context n => ?_⟩
    · show a.report.suite = b.report.suite
      rw [show a.report = _ from ra, show b.report = _ from rb]
      show suiteParams s.params.suite.toNat = suiteParams t.params.suite.toNat
      rw [h1, w.repSuite]
    · rw [show a.report = _ from ra, show b.report = _ from rb]
      exact protocol_unique h5 w.repProto
    · rw [show a.report = _ from ra, show b.report = _ from rb]
      exact h2.trans w.repPsk.symm
    · rw [show a.report = _ from ra, show b.report = _ from rb]
      exact h3.trans w.repEarly.symm
    · rw [show a.report = _ from ra]
      show (s.params.usingPSK = true ∧ s.peerCerts = []) ∨ (s.params.usingPSK = false ∧ ∃ cert ∈ scfg.certificates, s.peerCerts = _)
      rw [V.repPsk]
      have hm := ha.messages
      simp only [List.cons_append, said_cons, List.cons.injEq, Prod.mk.injEq, said_append] at hm
      have hauth : said V.F.auth = said w.F.auth := (List.append_inj' hm.2.2.2 rfl).1
      have hsel := (agreed_params V w.toServerFlight ha).2.2.2.1
      cases V.auth with
      | psk g1 g2 g3 g4 => exact .inl ⟨g1, g3⟩
      | cert g1 req mcert mcv g2 g3 g4 cm g5 g6 cv pub g7 g8 g9 g10 g11 =>
        refine .inr ⟨g1, ?_⟩
        cases w.auth with
        | psk k1 k2 => rw [← hsel, g1] at k1; cases k1
        | cert k1 cert k2 req' mcert' mcv' k3 k4 k5 cm' k6 k7 k8 cv' k9 k10 =>
          refine ⟨cert, k2, ?_⟩
          rw [g2, k3, said_append, said_append] at hauth
          have hb := (List.append_inj' hauth rfl).2
          simp only [said_cons, List.cons.injEq, Prod.mk.injEq] at hb
          rw [hb.1.2] at g5
          rw [g10, certs_unique g5 k6, k7]
    · rw [show a.exporter _ _ _ _ = _ from ea _ label context n, show b.exporter _ _ _ _ = _ from eb _ label context n]
      show computeExporter W.E.P true (some s.exporter) s.cp.hash label context n = computeExporter W.E.P true (some t.exporter) t.cp.hash label context n
      rw [hcp, hex]
  · exact .inr ⟨V, w, h⟩

/-- The chains of the peer's certificates are missing at a server, always: it has not verified any. Here the server requires
client authentication, and reports the client's certificate and no chain. -/
theorem C73_server_chains_fails :
    (∀ (E : Env) (x x' : Ctx) (cfg : Config) (es : List (Event × Coins)) (s : Connected) (acts : List Action),
      serverRun E x cfg es = .ok (.connected s, acts, x') → (Connected.report 18 s).chains = []) ∧
    ∃ (s : Connected) (acts : List Action) (x' : Ctx) (es : List (Event × Coins)),
      serverRun Toy.env Toy.tls { Toy.plainCfg with requireClientAuth := true } es = .ok (.connected s, acts, x') ∧
      (Connected.report 18 s).certs = [[9, 2]] := by
  refine ⟨fun E x x' cfg es s acts h => server_chains h, ?_⟩
  obtain ⟨cl, x, co, ci, sv, y, so, si, ca, sa, hc, hs, h1, h2, h3, h4, h⟩ := Toy.linked_ok
    (f := fun _ _ _ _ s _ _ _ => s.peerCerts == [[9, 2]])
    (r := clientRun Toy.env Toy.tls Toy.clientCfg (Toy.coins 2) (Toy.exchange Toy.tls Toy.clientCfg { Toy.plainCfg with requireClientAuth := true } 2).1)
    (r' := serverRun Toy.env Toy.tls { Toy.plainCfg with requireClientAuth := true } (Toy.exchange Toy.tls Toy.clientCfg { Toy.plainCfg with requireClientAuth := true } 2).2)
    (by decide +kernel)
  exact ⟨sv, sa, y, _, hs, (beq_iff_eq.1 h :)⟩

/-- `C73_before`: a client that has sent its ClientHello, and one that has failed. -/
example : (FailedCase.client.calls Toy.env [.handshake FailedCase.setupTurn []]).report = Report.nothing 2 ∧
    (FailedCase.client.calls Toy.env [.handshake FailedCase.setupTurn [FailedCase.badTurn]]).report = Report.nothing 2 ∧
    (FailedCase.client.calls Toy.env [.handshake FailedCase.setupTurn FailedCase.clientTurns]).report.certs = [[9, 1]] := by
  decide +kernel

/-- `C73_complete`: a client that first would block, and a server. -/
example : (∃ c, Attempted Toy.env FailedCase.client c ∧ c.complete = true ∧ c.report.chains = [[[9, 1]]]) ∧
    ∃ c, Attempted Toy.env FailedCase.server c ∧ c.complete = true ∧ c.report.nextProto = [104, 50] := by
  refine ⟨⟨_, .step _ FailedCase.setupTurn FailedCase.clientTurns (.step _ FailedCase.setupTurn [] .refl (.inr ?_)) (.inl ?_), ?_, ?_⟩,
    _, .step _ FailedCase.setupTurn (FailedCase.serverTurns id) .refl (.inl ?_), ?_, ?_⟩ <;> decide +kernel

/-- `C73_client`, `C73_server`, `C73_same`: a handshake of the toy world after which the client asks for a key update and
writes. What the client reports is not nothing. -/
example : SoundCookies Toy.plainCfg ∧ Toy.Meets Toy.clientCfg Toy.plainCfg 2 ∧ ∃ (s : Connected) (acts : List Action) (x' : Ctx) (o i : Machine.Keys),
    clientRun Toy.env Toy.tls Toy.clientCfg (Toy.coins 2) (Toy.exchange Toy.tls Toy.clientCfg Toy.plainCfg 2).1 = .ok (.connected s, acts, x') ∧
    (Live.calls Toy.world (Live.start Toy.world s x' true [97] o i 0 []) [.update true, .write [1]]).2.report =
      ⟨8, suiteParams 0x1301, [104, 50], [[[9, 1]]], [[9, 1]], false, false⟩ ∧
    (Live.calls Toy.world (Live.start Toy.world s x' true [97] o i 0 []) [.update true, .write [1]]).2.st.clientAp ≠ s.clientAp := by
  obtain ⟨cl, x, co, ci, sv, y, so, si, ca, sa, hc, hs, h1, h2, h3, h4, h⟩ := Toy.linked_ok
    (f := fun s x o i _ _ _ _ =>
      decide ((Live.calls Toy.world (Live.start Toy.world s x true [97] o i 0 []) [.update true, .write [1]]).2.report =
        ⟨8, suiteParams 0x1301, [104, 50], [[[9, 1]]], [[9, 1]], false, false⟩) &&
      decide ((Live.calls Toy.world (Live.start Toy.world s x true [97] o i 0 []) [.update true, .write [1]]).2.st.clientAp ≠ s.clientAp))
    (r := clientRun Toy.env Toy.tls Toy.clientCfg (Toy.coins 2) (Toy.exchange Toy.tls Toy.clientCfg Toy.plainCfg 2).1)
    (r' := serverRun Toy.env Toy.tls Toy.plainCfg (Toy.exchange Toy.tls Toy.clientCfg Toy.plainCfg 2).2) (by decide +kernel)
  simp only [Bool.and_eq_true, decide_eq_true_eq] at h
  exact ⟨Toy.plainCfg_sound, Toy.meets_ok (by decide +kernel), cl, ca, x, co, ci, hc, h.1, h.2⟩

end Verif.Props
