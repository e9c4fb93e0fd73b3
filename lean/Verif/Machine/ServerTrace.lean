import Verif.Machine.Refused

/-
How a server gets to each of its states.
-/

namespace Verif.Machine

open Verif Verif.Crypto Verif.Messages Verif.Negotiation Verif.Handshake Verif.Spec

/-- What is known once a server has answered a hello with its flight: the events `es0` before the hello `m`, and `rest`
after it. -/
structure AfterHello (E : Env) (x : Ctx) (cfg : Config) (es : List (Event × Coins)) (acts : List Action) where
  es0 : List (Event × Coins)
  a0 : List Action
  x0 : Ctx
  m : Msg
  ce : Coins
  n : SNegotiated
  x1 : Ctx
  rest : List (Event × Coins)
  run0 : serverRun E x cfg es0 = .ok (.start ⟨cfg⟩, a0, x0)
  hellos : ∀ e ∈ es0, ∃ m, e.1 = .msg m ∧ m.msgType = typeClientHello
  retries : (sent a0).length = es0.length ∧ ∀ m ∈ sent a0, m.msgType = typeServerHello
  datagram : x0.datagram = x.datagram ∧ x1.datagram = x.datagram
  next : (⟨cfg⟩ : SStart).next E x0 ce m = .ok (.negotiated n, x1)
  f : NegFacts E x1 ce n
  es_eq : es = es0 ++ [(.msg m, ce)] ++ rest
  sent_eq : ∃ post, sent acts = sent a0 ++ sent f.sent ++ post

/-- EndOfEarlyData, if early data is accepted. -/
def EoedOk (using_ : Bool) (eoed : List Msg) : Prop :=
  (using_ = false ∧ eoed = []) ∨ (using_ = true ∧ ∃ m, eoed = [m] ∧ m.msgType = typeEndOfEarlyData ∧ m.body = [])

/-- How the client was authenticated by the messages `auth`: `t` is the transcript before them. -/
inductive ClientAuthedBy (E : Env) (x : Ctx) (cfg : Config) (h : HashId) (t : Bytes) (asked : Bool) (auth : List Msg)
    (peerCerts : List Bytes) : Prop where
  | none (noAuth : asked = false) (none_ : auth = []) (certs : peerCerts = [])
  | empty (noAuth : asked = true) (mcert : Msg) (auth_eq : auth = [mcert]) (certType : mcert.msgType = typeCertificate)
      (cm : CertificateMsg) (certOk : safeUnmarshal (CertificateMsg.unmarshal E.parses) mcert.body = .ok cm)
      (empty_ : cm.list = []) (certs : peerCerts = [])
  | cert (noAuth : asked = true) (mcert mcv : Msg) (auth_eq : auth = [mcert, mcv])
      (certType : mcert.msgType = typeCertificate) (cm : CertificateMsg)
      (certOk : safeUnmarshal (CertificateMsg.unmarshal E.parses) mcert.body = .ok cm) (nonempty : cm.list ≠ [])
      (cvType : mcv.msgType = typeCertificateVerify) (cv : CertVerify) (pub : PubKey)
      (cvOk : safeUnmarshal CertVerify.unmarshal mcv.body = .ok cv) (leaf : leafKey E cm = .ok pub)
      (verified : cv.verify E.P E.S pub (E.P.hash h (t ++ x.bytes mcert)) = true)
      (certs : peerCerts = cm.list.map (·.1))
      (accepted : ∀ f, cfg.verifyPeer = some f → f peerCerts [] = true)

/-- What is known in the states in which a server waits for the client's second flight. -/
structure AtFlight2 (E : Env) (x : Ctx) (cfg : Config) (es : List (Event × Coins)) (acts : List Action)
    (params : ConnParams) (sec : SSecrets) (auth : List Msg) where
  after : AfterHello E x cfg es acts
  noPost : sent acts = sent after.a0 ++ sent after.f.sent
  eoed : List Msg
  received_eq : received after.rest = eoed ++ auth
  eoedOk : EoedOk after.n.params.usingEarlyData eoed
  notRejected : after.n.params.usingEarlyData = false → after.n.params.rejectedEarlyData = false
  params_eq : params = after.f.wait.params
  sec_eq : sec = after.f.wait.sec.add (wire x.datagram (eoed ++ auth))

/-- What is known of each state of a server. -/
def ServerKnows (E : Env) (x : Ctx) (cfg : Config) (es : List (Event × Coins)) (acts : List Action) (x' : Ctx) : SState → Prop
  | .start s => s = ⟨cfg⟩ ∧ (∀ e ∈ es, ∃ m, e.1 = .msg m ∧ m.msgType = typeClientHello) ∧
      (sent acts).length = es.length ∧ ∀ m ∈ sent acts, m.msgType = typeServerHello
  | .negotiated _ => False
  | .waitEOED s => ∃ a : AfterHello E x cfg es acts, s = a.f.wait ∧ received a.rest = [] ∧ a.n.params.usingEarlyData = true ∧
      sent acts = sent a.a0 ++ sent a.f.sent
  | .readPast => ∃ a : AfterHello E x cfg es acts, a.n.params.usingEarlyData = false ∧ a.n.params.rejectedEarlyData = true
  | .waitFlight2 _ => False
  | .waitCert s => s.cfg = cfg ∧ s.params.usingClientAuth = true ∧ Nonempty (AtFlight2 E x cfg es acts s.params s.sec [])
  | .waitCV s => s.cfg = cfg ∧ s.params.usingClientAuth = true ∧ ∃ mcert,
      Nonempty (AtFlight2 E x cfg es acts s.params s.sec [mcert]) ∧ mcert.msgType = typeCertificate ∧
      safeUnmarshal (CertificateMsg.unmarshal E.parses) mcert.body = .ok s.cert ∧ s.cert.list ≠ []
  | .waitFinished s => ∃ auth, ∃ a : AtFlight2 E x cfg es acts s.params s.sec auth,
      ClientAuthedBy E x cfg s.sec.cp.hash (a.after.f.wait.sec.transcript ++ wire x.datagram a.eoed) s.params.usingClientAuth auth
        s.peerCerts
  | .connected s => ∃ (es1 : List (Event × Coins)) (a1 : List Action) (x1 : Ctx) (wf : SWaitFinished) (auth : List Msg)
      (a : AtFlight2 E x cfg es1 a1 wf.params wf.sec auth) (m : Msg) (ce : Coins) (s0 : Connected) (a2 : List Action)
      (post : List (Event × Coins)) (a3 : List Action),
      x1.datagram = x.datagram ∧
      ClientAuthedBy E x cfg wf.sec.cp.hash (a.after.f.wait.sec.transcript ++ wire x.datagram a.eoed) wf.params.usingClientAuth auth
        wf.peerCerts ∧
      wf.next E x1 m = .ok (.connected s0, a2, x1) ∧ es = es1 ++ [(.msg m, ce)] ++ post ∧ acts = a1 ++ a2 ++ a3 ∧
      (SState.connected s0).run E x1 post = .ok (.connected s, a3, x')

theorem SState.run_ok_snoc {E : Env} {es : List (Event × Coins)} {e : Event} {c : Coins} {x x1 x' : Ctx} {s s1 s' : SState}
    {a1 a2 : List Action} (h : s.run E x es = .ok (s1, a1, x1)) (hst : s1.step E x1 c e = .ok (s', a2, x')) :
    s.run E x (es ++ [(e, c)]) = .ok (s', a1 ++ a2, x') := by
  rw [SState.run_append, h]
  simp [SState.run, hst]

/-- A step is a step. -/
theorem SStep.step {E : Env} {x x' : Ctx} {c : Coins} {s s' : SState} {e : Event} {acts : List Action}
    (h : SStep E x c s e s' acts x') : s.step E x c e = .ok (s', acts, x') := by
  cases h with
  | skip => rfl
  | early => rfl
  | retry _ _ _ _ next => simp [SState.step, next]
  | hello _ _ _ _ _ _ _ next neg => simp [SState.step, next, neg]
  | eoed _ _ _ _ _ next => simp [SState.step, next]
  | cert _ _ _ _ _ next => exact next
  | cv _ _ _ _ _ next => exact next
  | finished _ _ _ _ _ next => exact next
  | post _ _ _ _ _ next => simp [SState.step, next]
  | data => rfl

theorem settle_wait (s : SWait) : (s.params.usingClientAuth = true ∧ (SState.waitFlight2 s).settle = .waitCert s) ∨
    (s.params.usingClientAuth = false ∧ (SState.waitFlight2 s).settle = .waitFinished ⟨s.params, s.sec, []⟩) := by
  simp only [SState.settle, SWait.nextFlight2]
  cases h : s.params.usingClientAuth <;> simp

theorem NegFacts.wait_cfg {E : Env} {x : Ctx} {c : Coins} {s : SNegotiated} (f : NegFacts E x c s) : f.wait.cfg = s.cfg := rfl

theorem knows_settle {E : Env} {x : Ctx} {cfg : Config} {es : List (Event × Coins)} {acts : List Action} {x' : Ctx} {s : SWait}
    (hcfg : s.cfg = cfg) (a : AtFlight2 E x cfg es acts s.params s.sec []) :
    ServerKnows E x cfg es acts x' (SState.waitFlight2 s).settle := by
  rcases settle_wait s with ⟨h1, h2⟩ | ⟨h1, h2⟩
  · rw [h2]; exact ⟨hcfg, h1, ⟨a⟩⟩
  · rw [h2]; exact ⟨[], a, .none h1 rfl rfl⟩

theorem SSecrets.add_nil (s : SSecrets) : s.add [] = s := by simp [SSecrets.add]

theorem SSecrets.add_add (s : SSecrets) (a b : Bytes) : (s.add a).add b = s.add (a ++ b) := by simp [SSecrets.add]

theorem start_cfg {E : Env} {x x' : Ctx} {c : Coins} {s : SStart} {m : Msg} {n : SNegotiated}
    (h : s.next E x c m = .ok (.negotiated n, x')) : n.cfg = s.cfg := by
  obtain ⟨f, _, ⟨_, _, _, h⟩ | ⟨_, n', hn, hfin⟩⟩ := SStart.next_ok h
  · cases h
  · cases hn
    obtain ⟨_, _, _, _, _, _, _, _, _, rfl⟩ := SStart.finish_ok hfin
    rfl

/-- The same hello, with one more event read and possibly more sent. -/
def AfterHello.extend {E : Env} {x : Ctx} {cfg : Config} {es : List (Event × Coins)} {acts : List Action}
    (a : AfterHello E x cfg es acts) (e : Event × Coins) (acts' : List Action) :
    AfterHello E x cfg (es ++ [e]) (acts ++ acts') :=
  { a with
    rest := a.rest ++ [e]
    es_eq := (congrArg (· ++ [e]) a.es_eq).trans (by simp)
    sent_eq := by
      obtain ⟨post, h⟩ := a.sent_eq
      exact ⟨post ++ sent acts', by rw [sent_append, h]; simp⟩ }

theorem serverKnows {E : Env} {x : Ctx} {cfg : Config} {es : List (Event × Coins)} {s : SState}
    {acts : List Action} {x' : Ctx} (h : serverRun E x cfg es = .ok (s, acts, x')) :
    ServerKnows E x cfg es acts x' s := by
  have := serverRun_induct (cfg := cfg)
    (fun es s acts x' => serverRun E x cfg es = .ok (s, acts, x') ∧ ServerKnows E x cfg es acts x' s) ?_ ?_ h
  · exact this.2
  · exact ⟨rfl, rfl, by simp, rfl, by simp [sent]⟩
  · rintro es s acts x1 e ce s' acts' x2 ⟨hrun, ih⟩ hst
    refine ⟨SState.run_ok_snoc hrun hst.step, ?_⟩
    have hx := serverRun_datagram hrun
    have hx2 := (SStep.datagram hst).trans hx
    cases hst with
    | skip =>
      obtain ⟨a, h1, h2⟩ := ih
      exact ⟨a.extend _ _, h1, h2⟩
    | early s d =>
      obtain ⟨a, h1, h2, h3, h4⟩ := ih
      refine ⟨a.extend _ _, h1, ?_, h3, ?_⟩
      · show received (a.rest ++ _) = []
        rw [received_append, h2]; rfl
      · exact (congrArg sent (List.append_nil acts)).trans h4
    | retry s m hrr x2 next =>
      obtain ⟨rfl, h1, h2, h3⟩ := ih
      have ht := SStart.retry_type next
      obtain ⟨f, _, _⟩ := SStart.next_ok next
      have hch := (readHello_ok f.hello).1
      refine ⟨rfl, ?_, ?_, ?_⟩
      · intro e he
        rcases List.mem_append.1 he with he | he
        · exact h1 e he
        · rw [List.mem_singleton] at he; subst he; exact ⟨m, rfl, hch⟩
      · rw [sent_append, List.length_append, List.length_append, h2]; rfl
      · intro m' hm'
        rw [sent_append] at hm'
        rcases List.mem_append.1 hm' with hm' | hm'
        · exact h3 m' hm'
        · have : m' = hrr := by simpa [sent] using hm'
          rw [this]; exact ht.1
    | hello s m n x1' s'' _ x2' next neg =>
      obtain ⟨rfl, h1, h2, h3⟩ := ih
      obtain ⟨f, rfl, hf⟩ := SNegotiated.next_ok neg
      have hx1 := (SStart.next_datagram next).trans hx
      have hncfg : n.cfg = cfg := start_cfg next
      let mk (acts' : List Action) (h : ∃ k ks, acts' = f.sent ++ [.rekeyIn k ks]) :
          AfterHello E x cfg (es ++ [(.msg m, ce)]) (acts ++ acts') :=
        { es0 := es, a0 := acts, x0 := x1, m := m, ce := ce, n := n, x1 := x1', rest := [], run0 := hrun, hellos := h1,
          retries := ⟨h2, h3⟩, datagram := ⟨hx, hx1⟩, next := next, f := f, es_eq := by simp,
          sent_eq := by
            obtain ⟨k, ks, rfl⟩ := h
            exact ⟨[], by rw [sent_append, sent_append]; simp [sent]⟩ }
      have hs : ∀ k ks, sent (acts ++ (f.sent ++ [.rekeyIn k ks])) = sent acts ++ sent f.sent := by
        intro k ks
        rw [sent_append, sent_append]; simp [sent]
      rcases hf with ⟨h4, keys, _, rfl, rfl⟩ | ⟨h4, h5, rfl, rfl⟩ | ⟨h4, h5, rfl, rfl⟩
      · exact ⟨mk _ ⟨_, _, rfl⟩, rfl, rfl, h4, hs _ _⟩
      · exact ⟨mk _ ⟨_, _, rfl⟩, h4, h5⟩
      · refine knows_settle hncfg ?_
        exact { after := mk _ ⟨_, _, rfl⟩, noPost := hs _ _, eoed := [], received_eq := rfl, eoedOk := Or.inl ⟨h4, rfl⟩,
                notRejected := fun _ => h5, params_eq := rfl, sec_eq := (SSecrets.add_nil _).symm }
    | eoed s m s'' acts' x2' next =>
      obtain ⟨a, rfl, h2, h3, h4⟩ := ih
      obtain ⟨ht, hb, rfl, keys, _, rfl, rfl⟩ := SWait.nextEOED_ok next
      refine knows_settle (start_cfg a.next) ?_
      exact { after := a.extend _ _
              noPost := by
                show sent (acts ++ _) = sent a.a0 ++ sent a.f.sent
                rw [sent_append, h4]; simp [sent]
              eoed := [m]
              received_eq := by
                show received (a.rest ++ _) = _
                rw [received_append, h2]; rfl
              eoedOk := Or.inr ⟨h3, m, rfl, ht, hb⟩
              notRejected := fun h => by rw [show (a.extend _ _).n = a.n from rfl, h3] at h; cases h
              params_eq := rfl
              sec_eq := by
                show a.f.wait.sec.add _ = a.f.wait.sec.add _
                simp [wire, Ctx.bytes, hx] }
    | cert s m s'' acts' x2' next =>
      obtain ⟨hcfg, hauth, ⟨a⟩⟩ := ih
      obtain ⟨ht, rfl, rfl, cm, hd, h⟩ := SWait.nextCert_ok next
      let a' (params : ConnParams) (hp : params = s.params) (sec : SSecrets) (hsec : sec = s.sec.add (x2.bytes m)) :
          AtFlight2 E x cfg (es ++ [(.msg m, ce)]) (acts ++ []) params sec [m] :=
        { after := a.after.extend _ _
          noPost := (congrArg sent (List.append_nil acts)).trans a.noPost
          eoed := a.eoed
          received_eq := by
            show received (a.after.rest ++ _) = _
            rw [received_append, a.received_eq]; simp [received]
          eoedOk := a.eoedOk
          notRejected := a.notRejected
          params_eq := hp.trans a.params_eq
          sec_eq := by
            rw [hsec]
            refine (congrArg (fun z => SSecrets.add z _) a.sec_eq).trans ?_
            rw [SSecrets.add_add]
            show a.after.f.wait.sec.add _ = a.after.f.wait.sec.add _
            simp [wire, Ctx.bytes, hx] }
      rcases h with ⟨hl, rfl⟩ | ⟨hl, rfl⟩
      · exact ⟨[m], a' _ rfl _ rfl, .empty hauth m rfl ht cm hd hl rfl⟩
      · exact ⟨hcfg, hauth, m, ⟨a' _ rfl _ rfl⟩, ht, hd, hl⟩
    | cv s m s'' acts' x2' next =>
      obtain ⟨hcfg, hauth, mcert, ⟨a⟩, hct, hcd, hcl⟩ := ih
      obtain ⟨ht, rfl, rfl, cv, pub, hd, hl, hv, hvp, rfl⟩ := SWaitCV.next_ok next
      refine ⟨[mcert, m], 
        { after := a.after.extend _ _
          noPost := (congrArg sent (List.append_nil acts)).trans a.noPost
          eoed := a.eoed
          received_eq := by
            show received (a.after.rest ++ _) = _
            rw [received_append, a.received_eq]; simp [received]
          eoedOk := a.eoedOk
          notRejected := a.notRejected
          params_eq := a.params_eq
          sec_eq := by
            refine (congrArg (fun z => SSecrets.add z _) a.sec_eq).trans ?_
            rw [SSecrets.add_add]
            show a.after.f.wait.sec.add _ = a.after.f.wait.sec.add _
            simp [wire, Ctx.bytes, hx] }, ?_⟩
      refine .cert hauth mcert m rfl hct s.cert hcd hcl ht cv pub hd hl ?_ rfl ?_
      · have h1 : s.sec.transcript = a.after.f.wait.sec.transcript ++ wire x.datagram a.eoed ++ x.bytes mcert := by
          refine (congrArg SSecrets.transcript a.sec_eq).trans ?_
          simp [SSecrets.add, wire, Ctx.bytes]
        rw [h1] at hv
        exact hv
      · rw [hcfg] at hvp; exact hvp
    | finished s m s'' acts' x2' next =>
      obtain ⟨auth, a, hau⟩ := ih
      obtain ⟨ht, rfl, _, _, _, _, _, _, _, _, _, rfl, _⟩ := SWaitFinished.next_ok next
      exact ⟨es, acts, _, s, auth, a, m, ce, _, acts', [], [], hx, hau, next, by simp, by simp, rfl⟩
    | post s0 m s1 _ _ next =>
      obtain ⟨es1, a1, x1', wf, auth, a, m', ce', s0', a2, post, a3, h1, h2, h3, h4, h5, h6⟩ := ih
      refine ⟨es1, a1, x1', wf, auth, a, m', ce', s0', a2, post ++ [(.msg m, ce)], a3 ++ acts', h1, h2, h3, by simp [h4],
        by simp [h5], SState.run_ok_snoc h6 ?_⟩
      simp [SState.step, next]
    | data s0 d =>
      obtain ⟨es1, a1, x1', wf, auth, a, m', ce', s0', a2, post, a3, h1, h2, h3, h4, h5, h6⟩ := ih
      refine ⟨es1, a1, x1', wf, auth, a, m', ce', s0', a2, post ++ [(.appData d, ce)], a3 ++ [], h1, h2, h3, by simp [h4],
        by simp [h5], SState.run_ok_snoc h6 rfl⟩

end Verif.Machine
