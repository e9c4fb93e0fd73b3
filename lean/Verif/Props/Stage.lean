import Verif.Spec.Stage
import Verif.Machine.Refused
import Verif.Props.Report

/-
C90: GetHsState tells how far the handshake is.
-/

namespace Verif.Props

open Verif Verif.Crypto Verif.Messages Verif.Negotiation Verif.Handshake Verif.Machine Verif.Spec Verif.Conn Verif.Record

theorem last_replicate {α : Type} (n : Nat) (a : α) : (List.replicate n a).getLast? = none ∨ (List.replicate n a).getLast? = some a := by
  cases n with
  | zero => exact .inl rfl
  | succ n => exact .inr (by rw [List.replicate_succ', List.getLast?_concat])

theorem client_isClient {E : Env} {x x' : Ctx} {cfg : Config} {c : Coins} {es : List (Event × Coins)} {s : Connected}
    {acts : List Action} (h : clientRun E x cfg c es = .ok (.connected s, acts, x')) : s.isClient = true := by
  refine clientRun_induct (fun _ s _ _ => ∀ t, s = .connected t → t.isClient = true) ?_ ?_ h s rfl
  · rintro w acts x' - t ht; cases ht
  · intro es s acts x1 e ce s' acts' x2 ih hst t ht
    cases hst with
    | retry => cases ht
    | hello => cases ht
    | ee _ _ _ _ _ h => obtain ⟨_, _, _, _, _, _, _, _, _, ⟨_, rfl⟩ | ⟨_, rfl⟩⟩ := CWaitEE.next_ok h <;> cases ht
    | certCR _ _ _ _ _ h => have := CWaitEE.nextCertCR_ok h; subst ht; simp at this
    | cert _ _ _ _ _ h => have := CWaitCert.next_ok h; subst ht; simp at this
    | cv _ _ _ _ _ h => have := CWaitCV.next_ok h; subst ht; simp at this
    | finished _ _ _ _ _ h =>
      obtain ⟨_, _, _, _, _, _, _, _, _, _, _, _, _, _, _, _, _, _, _, _, _, _, _, _, _, _, rfl, _⟩ := CWaitFinished.next_ok h
      cases ht
      rfl
    | post s m s'' _ _ next => cases ht; rw [Connected.process_isClient next]; exact ih s rfl
    | data s d => exact ih t ht

/-- C90 for a client: in every state an execution reaches, the number of the state is that of how far the messages read are. -/
theorem C90_client (E : Env) (x x' : Ctx) (cfg : Config) (c : Coins) (es : List (Event × Coins)) (s : CState) (acts : List Action)
    (h : clientRun E x cfg c es = .ok (s, acts, x')) : clientCode s = clientStage (word es) := by
  have hat := clientAt h
  cases s with
  | start s => exact hat.elim
  | waitSH s =>
    obtain ⟨r, hr⟩ := hat
    rw [hr]
    unfold clientStage
    rcases last_replicate r Letter.helloRetryRequest with h | h <;> rw [h] <;> rfl
  | waitEE e => obtain ⟨r, hr⟩ := hat; rw [hr]; simp [clientStage, clientCode]
  | waitCertCR e => obtain ⟨r, hr⟩ := hat; rw [hr]; simp [clientStage, clientCode]
  | waitCert e => obtain ⟨r, hr⟩ := hat; rw [hr]; simp [clientStage, clientCode]
  | waitCV e => obtain ⟨r, e, hr | hr⟩ := hat <;> rw [hr] <;> simp [clientStage, clientCode]
  | waitFinished s =>
    obtain ⟨r, psk, auth, ⟨rfl, rfl⟩ | ⟨rfl, e, rfl | rfl⟩, hr⟩ := hat <;> rw [hr] <;> simp [clientStage, clientCode]
  | connected s =>
    obtain ⟨n, r, psk, auth, post, -, -, hp, hr⟩ := hat
    have hc := client_isClient h
    rw [hr]
    rcases List.eq_nil_or_concat post with rfl | ⟨post', l, rfl⟩
    · unfold clientStage; rw [List.append_nil, List.getLast?_concat]; simp [clientCode, hc]
    · have hl := hp l (by simp)
      simp only [List.concat_eq_append, ← List.append_assoc]
      unfold clientStage
      rw [List.getLast?_concat]
      rcases hl with rfl | rfl | rfl <;> simp [clientCode, hc]

theorem flight_sent {E : Env} {x x' : Ctx} {cfg : Config} {es : List (Event × Coins)} {s : SState}
    {acts : List Action} (h : serverRun E x cfg es = .ok (s, acts, x')) :
    (∃ w, s = .start w) ∨ ∃ m ∈ sent acts, m.msgType = 8 := by
  refine serverRun_induct (fun _ s acts _ => (∃ w, s = .start w) ∨ ∃ m ∈ sent acts, m.msgType = 8) (.inl ⟨_, rfl⟩) ?_ h
  intro es s acts x1 e ce s' acts' x2 ih hst
  rw [sent_append]
  have more : (∃ m ∈ sent acts, m.msgType = 8) → ∃ m ∈ sent acts ++ sent acts', m.msgType = 8 := by
    rintro ⟨m, hm, ht⟩
    exact ⟨m, List.mem_append_left _ hm, ht⟩
  have old : (∀ w, s ≠ .start w) → ∃ m ∈ sent acts, m.msgType = 8 := by
    intro hs
    rcases ih with ⟨w, hw⟩ | ih
    · exact absurd hw (hs w)
    · exact ih
  cases hst with
  | retry s m r x2 next => exact .inl ⟨_, rfl⟩
  | hello s m n x1' s'' _ x2' next neg =>
    right
    obtain ⟨f, _, hf⟩ := SNegotiated.next_ok neg
    have he : f.ee ∈ sent acts' := by
      rcases hf with ⟨_, _, _, _, rfl⟩ | ⟨_, _, _, rfl⟩ | ⟨_, _, _, rfl⟩ <;> simp [NegFacts.sent, sent]
    exact ⟨f.ee, List.mem_append_right _ he, (unmarshalEE_made f.eeOk).1⟩
  | _ => exact .inr (more (old fun w => by simp))

theorem clientHello_not_seven {out : List Msg} (h : ∀ m ∈ out, m.msgType = typeServerHello) : (out.any fun m => m.msgType == 8) = false := by
  simp only [List.any_eq_false]
  intro m hm
  rw [h m hm]
  decide

/-- C90 for a server: the same, except while it reads past early data it has refused. -/
theorem C90_server (E : Env) (x x' : Ctx) (cfg : Config) (es : List (Event × Coins)) (s : SState) (acts : List Action)
    (h : serverRun E x cfg es = .ok (s, acts, x')) :
    serverCode s = serverStage (sent acts) (word es) ∨ (serverCode s = 12 ∧ SkipsEarlyData x.datagram (received es) (sent acts) (word es)) := by
  have hat := serverAt h
  have hfl : (∀ w, s ≠ .start w) → ((sent acts).any fun m => m.msgType == 8) = true := by
    intro hs
    rcases flight_sent h with ⟨w, hw⟩ | ⟨m, hm, ht⟩
    · exact absurd hw (hs w)
    · exact List.any_eq_true.2 ⟨m, hm, by simp [ht]⟩
  generalize hout : sent acts = out at *
  generalize hw : word es = w at *
  cases s with
  | start s => left; unfold serverStage; rw [if_pos (clientHello_not_seven hat.1)]; rfl
  | negotiated s => exact hat.elim
  | waitFlight2 s => exact hat.elim
  | readPast =>
    right
    exact ⟨rfl, hat.1, readPast_offered h, hat.2⟩
  | waitEOED s =>
    left
    obtain ⟨h1, h2, r, n, rfl⟩ := hat
    unfold serverStage
    rw [if_neg (by rw [hfl (by simp)]; simp)]
    cases n with
    | zero => simp [h2, serverCode]
    | succ n => rw [List.replicate_succ', ← List.append_assoc, List.getLast?_concat]; simp [serverCode, List.mem_replicate]
  | waitCert s =>
    left
    obtain ⟨h1, r, early, ⟨h2, n, rfl⟩ | ⟨h2, n, rfl⟩, rfl⟩ := hat
    · unfold serverStage
      rw [if_neg (by rw [hfl (by simp)]; simp), ← List.append_assoc, List.getLast?_concat]
      simp [h1, serverCode]
    · unfold serverStage
      rw [if_neg (by rw [hfl (by simp)]; simp)]
      cases n with
      | zero => simp [h1, h2, serverCode]
      | succ n => rw [List.replicate_succ', ← List.append_assoc, List.getLast?_concat]; simp [h1, serverCode]
  | waitCV s =>
    left
    obtain ⟨h1, r, early, -, rfl⟩ := hat
    unfold serverStage
    rw [if_neg (by rw [hfl (by simp)]; simp), List.getLast?_concat]
    rfl
  | waitFinished s =>
    left
    obtain ⟨r, early, auth, h2, h3, rfl⟩ := hat
    unfold serverStage
    rw [if_neg (by rw [hfl (by simp)]; simp)]
    rcases h3 with ⟨h3, rfl⟩ | ⟨h3, rfl | rfl⟩
    · rw [List.append_nil]
      rcases h2 with ⟨h2, n, rfl⟩ | ⟨h2, n, rfl⟩
      · rw [← List.append_assoc, List.getLast?_concat]
        simp [h3, serverCode]
      · cases n with
        | zero => simp [h3, h2, serverCode]
        | succ n => rw [List.replicate_succ', ← List.append_assoc, List.getLast?_concat]; simp [h3, serverCode]
    · rw [List.getLast?_concat]; rfl
    · rw [show ∀ l : List Letter, l ++ [.certificate false, .certificateVerify] = l ++ [.certificate false] ++ [.certificateVerify] by simp,
        List.getLast?_concat]; rfl
  | connected s =>
    left
    obtain ⟨hc, n, r, early, auth, post, -, -, -, hp, rfl⟩ := hat
    unfold serverStage
    rw [if_neg (by rw [hfl (by simp)]; simp)]
    rcases List.eq_nil_or_concat post with rfl | ⟨post', l, rfl⟩
    · rw [List.append_nil, List.getLast?_concat]; simp [serverCode, hc]
    · have hl := hp l (by simp)
      simp only [List.concat_eq_append, ← List.append_assoc]
      rw [List.getLast?_concat]
      rcases hl with rfl | rfl <;> simp [serverCode, hc]

/-- C90 for a Conn, between any calls of Handshake none of which has failed: the state reported is StateInit (0) before the
first, and else the stage of an execution of the state machine; or the machine is in one of the states in between, where a
non-blocking Handshake returns too: Start (1) with a HelloRetryRequest to be answered, Negotiated (11) with a ClientHello to be
answered, WaitFlight2 (14) before WaitCert or WaitFinished. -/
theorem C90_conn (E : Env) (cfg : Config) (isClient nb st : Bool) (tl el : UInt32) (d : Bool) (c : HConn)
    (h : Attempted E (HConn.new cfg isClient nb st tl el d) c) :
    c.report.state = 0 ∨
    (isClient = true ∧ ∃ coins es s acts x, clientRun E ⟨d, 0, []⟩ cfg coins es = .ok (s, acts, x) ∧
      (c.report.state = clientStage (word es) ∨
        (c.report.state = 1 ∧ clientStage (word es) = 2 ∧ ∃ m, letterOf m = .helloRetryRequest))) ∨
    (isClient = false ∧ ∃ es s acts x, serverRun E ⟨d, 0, []⟩ cfg es = .ok (s, acts, x) ∧
      (c.report.state = serverStage (sent acts) (word es) ∨
        (c.report.state = 12 ∧ SkipsEarlyData d (received es) (sent acts) (word es)) ∨
        (c.report.state = 11 ∧ serverStage (sent acts) (word es) = 9) ∨
        (c.report.state = 14 ∧ (serverStage (sent acts) (word es) = 15 ∨ serverStage (sent acts) (word es) = 17)))) := by
  obtain ⟨hf, hi⟩ := attempted_followed (x0 := ⟨d, 0, []⟩) (cfg := cfg) h ⟨rfl, rfl⟩ (new_inv cfg isClient nb st tl el d)
  have hrole : c.isClient = isClient := by
    clear hf hi
    induction h with
    | refl => rfl
    | step c t ts _ _ ih => rw [← ih]; exact (calls_same E [.handshake t ts] c).2.1
  have hst : c.report.state = c.hsState := by
    unfold HConn.report
    split
    · split <;> rfl
    · rfl
  rw [hst]
  unfold HConn.Followed at hf
  cases hs : c.hState with
  | none => left; rw [HConn.hsState, hs]
  | some q =>
    right
    have hq := hi.role _ hs
    rw [hs] at hf
    cases q with
    | client s =>
      refine .inl ⟨by rw [← hrole, ← hq]; rfl, ?_⟩
      have hcode : c.hsState = clientCode s := by rw [HConn.hsState, hs]
      rw [hcode]
      have hre : ∃ x', CReaches E ⟨d, 0, []⟩ cfg x' s := by
        simp only [Conn.Follows] at hf
        split at hf
        · exact ⟨_, hf⟩
        · exact hf
      obtain ⟨x', hre⟩ := hre
      have norm : (∃ c es acts, clientRun E ⟨d, 0, []⟩ cfg c es = .ok (s, acts, x')) →
          ∃ coins es s' acts x, clientRun E ⟨d, 0, []⟩ cfg coins es = .ok (s', acts, x) ∧
            (clientCode s = clientStage (word es) ∨
              (clientCode s = 1 ∧ clientStage (word es) = 2 ∧ ∃ m, letterOf m = .helloRetryRequest)) :=
        fun ⟨c, es, acts, hr⟩ => ⟨c, es, s, acts, x', hr, .inl (C90_client _ _ _ _ _ _ _ _ hr)⟩
      cases s with
      | start s =>
        obtain ⟨co, es, w, acts, x1, m, acts', hr, hn⟩ := hre
        refine ⟨co, es, _, acts, x1, hr, .inr ⟨rfl, (C90_client _ _ _ _ _ _ _ _ hr).symm, m, ?_⟩⟩
        obtain ⟨sh, hck, ⟨hrr, _⟩ | ⟨_, _, _, h0⟩⟩ := CWaitSH.next_ok hn
        · obtain ⟨ht, ⟨n, hd⟩, _⟩ := checkHello_ok hck
          exact retry_letter ht hd hrr
        · cases h0
      | _ => exact norm hre
    | server s =>
      refine .inr ⟨by rw [← hrole, ← hq]; rfl, ?_⟩
      have hcode : c.hsState = serverCode s := by rw [HConn.hsState, hs]
      rw [hcode]
      have hre : ∃ x', SReaches E ⟨d, 0, []⟩ cfg x' s := by
        simp only [Conn.Follows] at hf
        split at hf
        · exact ⟨_, hf⟩
        · exact hf
      obtain ⟨x', hre⟩ := hre
      cases s with
      | negotiated n =>
        obtain ⟨es, s, acts, x1, m, co, hr, hn⟩ := hre
        refine ⟨es, _, acts, x1, hr, .inr (.inr (.inl ⟨rfl, ?_⟩))⟩
        rcases C90_server _ _ _ _ _ _ _ hr with h | ⟨h, _⟩
        · exact h.symm
        · cases h
      | waitFlight2 w =>
        obtain ⟨es, acts, hr⟩ := hre
        refine ⟨es, _, acts, x', hr, .inr (.inr (.inr ⟨rfl, ?_⟩))⟩
        rcases C90_server _ _ _ _ _ _ _ hr with h | ⟨h, _⟩ <;> simp only [SWait.nextFlight2] at h <;> split at h
        · exact .inl h.symm
        · exact .inr h.symm
        · cases h
        · cases h
      | _ =>
        obtain ⟨es, acts, hr⟩ := hre
        refine ⟨es, _, acts, x', hr, ?_⟩
        rcases C90_server _ _ _ _ _ _ _ hr with h | h
        · exact .inl h
        · exact .inr (.inl h)

/-! ### The exporter -/

theorem client_hash {E : Env} (hP : E.P.Sized) {x x' : Ctx} {cfg : Config} {c : Coins} {es : List (Event × Coins)} {s : Connected}
    {acts : List Action} (h : clientRun E x cfg c es = .ok (.connected s, acts, x')) : suiteParams s.params.suite.toNat = some s.cp := by
  obtain ⟨V⟩ := clientView hP h
  rw [V.cp, V.repSuite]
  exact V.suite

theorem server_hash {E : Env} (hP : E.P.Sized) {x x' : Ctx} {cfg : Config} {es : List (Event × Coins)} {s : Connected}
    {acts : List Action} (h : serverRun E x cfg es = .ok (.connected s, acts, x')) : suiteParams s.params.suite.toNat = some s.cp := by
  obtain ⟨V⟩ := serverView hP h
  rw [V.cp, V.repSuite]
  exact V.suite

/-- C73: the exporter of a Conn whose handshake is complete, without a failed call of Handshake, always succeeds; what it
gives is derived from the exporter secret of the connection with the hash function of the suite that ConnectionState reports. -/
theorem C73_exporter (E : Env) (hP : E.P.Sized) (cfg : Config) (isClient nb st : Bool) (tl el : UInt32) (d : Bool) (c : HConn)
    (h : Attempted E (HConn.new cfg isClient nb st tl el d) c) (hc : c.complete = true) :
    ∃ s p, (c.hState = some (.client (.connected s)) ∨ c.hState = some (.server (.connected s))) ∧ c.report.suite = some p ∧
      ∀ label context n, c.exporter E.P label context n =
        .ok (expandLabel E.P p.hash (derive E.P p.hash s.exporter label []) (ascii "exporter") (context ++ E.P.hash p.hash []) n) := by
  have key : ∀ s q, c.hState = some q → q.connected? = some s → suiteParams s.params.suite.toNat = some s.cp →
      c.report.suite = some s.cp ∧ ∀ label context n, c.exporter E.P label context n =
        .ok (expandLabel E.P s.cp.hash (derive E.P s.cp.hash s.exporter label []) (ascii "exporter") (context ++ E.P.hash s.cp.hash []) n) := by
    intro s q h1 h2 h3
    refine ⟨by simp [HConn.report, hc, h1, h2, Connected.report, h3], fun label context n => ?_⟩
    obtain ⟨out, h4, -, h5⟩ := C35_value_partial E.P hP s.cp.hash (suiteParams_size h3) s.exporter label context n
    rw [← h5, ← h4]
    simp [HConn.exporter, h1, h2]
  obtain ⟨s, ⟨hs, coins, es, acts, x, hr⟩ | ⟨hs, es, acts, x, hr⟩⟩ := C51_run E cfg isClient nb st tl el d c h hc
  · exact ⟨s, s.cp, .inl hs, key s _ hs rfl (client_hash hP hr)⟩
  · exact ⟨s, s.cp, .inr hs, key s _ hs rfl (server_hash hP hr)⟩

/-- The same on a connection in use. -/
theorem C73_exporter_later (W : World) (hP : W.E.P.Sized) (s : Connected) (run : (∃ x cfg coins es acts x', clientRun W.E x cfg coins es =
      .ok (.connected s, acts, x')) ∨ ∃ x cfg es acts x', serverRun W.E x cfg es = .ok (.connected s, acts, x'))
    (y : Ctx) (nb : Bool) (sn : Bytes) (o i : Machine.Keys) (v : Nat) (conn : List (Except Err Bytes)) (ks : List Call) :
    let c := (Live.calls W (Live.start W s y nb sn o i v conn) ks).2
    ∃ p, c.report.suite = some p ∧ ∀ label context n, c.exporter W.E.P label context n =
      .ok (expandLabel W.E.P p.hash (derive W.E.P p.hash s.exporter label []) (ascii "exporter") (context ++ W.E.P.hash p.hash []) n) := by
  intro c
  have h3 : suiteParams s.params.suite.toNat = some s.cp := by
    rcases run with ⟨x, cfg, coins, es, acts, x', h⟩ | ⟨x, cfg, es, acts, x', h⟩
    · exact client_hash hP h
    · exact server_hash hP h
  obtain ⟨h1, h2⟩ := C73_stable W (Live.start W s y nb sn o i v conn) ks
  refine ⟨s.cp, by rw [h1]; exact h3, fun label context n => ?_⟩
  rw [h2]
  obtain ⟨out, h4, -, h5⟩ := C35_value_partial W.E.P hP s.cp.hash (suiteParams_size h3) s.exporter label context n
  rw [← h5, ← h4]
  rfl

/-- The stages of an honest handshake, as the client and the server read on; the client comes by WaitCertCR and WaitCV. -/
example : Toy.Meets Toy.clientCfg Toy.plainCfg 2 ∧
    ((List.range 6).map fun n => clientStage ((word (Toy.exchange Toy.tls Toy.clientCfg Toy.plainCfg 2).1).take n)) = [2, 3, 7, 5, 6, 8] :=
  ⟨Toy.meets_ok (by decide +kernel), by decide +kernel⟩

/-- `C90_conn` and `C73_exporter`: a client whose first call of Handshake would block, then goes on to the end. -/
example : (∃ c, Attempted Toy.env FailedCase.client c ∧ c.complete = false ∧ c.report.state = 2) ∧
    ∃ c, Attempted Toy.env FailedCase.client c ∧ c.complete = true ∧ c.report.state = 8 := by
  refine ⟨⟨_, .step _ FailedCase.setupTurn [] .refl (.inr ?_), ?_, ?_⟩,
    _, .step _ FailedCase.setupTurn FailedCase.clientTurns (.step _ FailedCase.setupTurn [] .refl (.inr ?_)) (.inl ?_), ?_, ?_⟩ <;> decide +kernel

end Verif.Props
