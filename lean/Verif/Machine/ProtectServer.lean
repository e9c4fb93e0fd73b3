import Verif.Machine.Protect
import Verif.Machine.EarlyData

/-
Which keys protect which handshake message at a server.
-/

namespace Verif.Machine

open Verif Verif.Crypto Verif.Messages Verif.Negotiation Verif.Handshake Verif.Spec

/-! ### The flight -/

/-- What Negotiated does is determined by its state. -/
theorem NegFacts.unique {E : Env} {x : Ctx} {c : Coins} {s : SNegotiated} (f g : NegFacts E x c s) : f = g := by
  obtain ⟨f1, f2, f3, f4, f5, f6, f7, f8, f9, f10, f11, f12, f13, f14, f15, f16, f17, f18, f19, h1, h2, h3, h4, h5, h6, h7, h8, h9,
    h10, h11, h12, h13, h14⟩ := f
  obtain ⟨g1, g2, g3, g4, g5, g6, g7, g8, g9, g10, g11, g12, g13, g14, g15, g16, g17, g18, g19, k1, k2, k3, k4, k5, k6, k7, k8, k9,
    k10, k11, k12, k13, k14⟩ := g
  cases h1.symm.trans k1
  cases h2.symm.trans k2
  cases h3.symm.trans k3
  cases h4.symm.trans k4
  cases h5.symm.trans k5
  cases h6.symm.trans k6
  cases h7.symm.trans k7
  cases h8.symm.trans k8
  cases h9.symm.trans k9
  cases h10.symm.trans k10
  cases h11.symm.trans k11
  cases h12.symm.trans k12
  cases h13.symm.trans k13
  cases h14.symm.trans k14
  rfl

theorem serverAuth_queue {E : Env} {x x' : Ctx} {s : SNegotiated} {hid : HashId} {t t' : Bytes} {acts : List Action}
    (h : serverAuth E x s hid t = .ok (acts, t', x')) : acts = (sent acts).map .queue := by
  rcases serverAuth_ok h with ⟨_, rfl, rfl, _⟩ | ⟨_, acts1, t1, x1, cert, m, x2, cv, mv, hr, _, _, _, _, rfl, rfl⟩
  · rfl
  · rcases serverRequest_ok hr with ⟨_, rfl, rfl, _⟩ | ⟨_, exts, mr, _, hmr, rfl, rfl⟩ <;> rfl

/-- Waiting for a hello a server has sent in the clear only, and has no keys to read with. -/
theorem server_begin {E : Env} {x : Ctx} {cfg : Config} {es : List (Event × Coins)} {s : SStart}
    {acts : List Action} {x' : Ctx} (h : serverRun E x cfg es = .ok (.start s, acts, x')) :
    sealedWith none acts = under none (sent acts) ∧ sendKeys none acts = none ∧ lastIn acts = none := by
  have := serverRun_induct (cfg := cfg) (fun _ s acts _ => ∀ w, s = .start w →
    sealedWith none acts = under none (sent acts) ∧ sendKeys none acts = none ∧ lastIn acts = none) ?_ ?_ h
  · exact this s rfl
  · intro w _; exact ⟨rfl, rfl, rfl⟩
  · intro es s acts x1 e ce s' acts' x2 ih hst w' hw'
    cases hst with
    | retry s m hrr x2 next =>
      obtain ⟨h1, h2, h3⟩ := ih s rfl
      refine ⟨?_, ?_, ?_⟩
      · rw [sealedWith_append, sent_append, under_append, h1, h2]; rfl
      · rw [sendKeys_append, h2]; rfl
      · rw [lastIn_append, h3]; rfl
    | hello s m n x1' s'' _ x2' next neg =>
      obtain ⟨f, rfl, ⟨_, _, _, rfl, _⟩ | ⟨_, _, rfl, _⟩ | ⟨_, _, rfl, _⟩⟩ := SNegotiated.next_ok neg
      · cases hw'
      · cases hw'
      · rcases settle_wait f.wait with ⟨_, h2⟩ | ⟨_, h2⟩ <;> rw [h2] at hw' <;> cases hw'
    | eoed s m s'' acts' x2' next =>
      obtain ⟨_, _, _, _, _, rfl, _⟩ := SWait.nextEOED_ok next
      rcases settle_wait { s with sec := s.sec.add (x1.bytes m) } with ⟨_, h2⟩ | ⟨_, h2⟩ <;> rw [h2] at hw' <;> cases hw'
    | cert s m s'' acts' x2' next =>
      obtain ⟨_, _, _, _, _, ⟨_, h⟩ | ⟨_, h⟩⟩ := SWait.nextCert_ok next <;> rw [h] at hw' <;> cases hw'
    | cv s m s'' acts' x2' next =>
      obtain ⟨_, _, _, _, _, _, _, _, _, h⟩ := SWaitCV.next_ok next
      rw [h] at hw'; cases hw'
    | finished s m s'' acts' x2' next =>
      obtain ⟨_, _, _, _, _, _, _, _, _, _, _, h, _⟩ := SWaitFinished.next_ok next
      rw [h] at hw'; cases hw'
    | skip => cases hw'
    | early => cases hw'
    | post => cases hw'
    | data => cases hw'

/-- The actions of the flight. -/
theorem NegFacts.sealed {E : Env} (hP : E.P.Sized) {x : Ctx} {c : Coins} {n : SNegotiated} (f : NegFacts E x c n) :
    sealedWith none f.sent = (none, f.sh) :: under (some (trafficKeysOf E.P f.p f.hs.serverHs)) ([f.ee] ++ Spec.sent f.acts ++ [f.fin]) ∧
    sendKeys none f.sent = some (trafficKeysOf E.P f.p f.ap.serverAp) ∧ lastIn f.sent = none := by
  have hsz := suiteParams_size f.suiteOk
  have h1 := makeKeys hP hsz f.serverKeysOk
  have h2 := makeKeys hP hsz f.apKeysOk
  have h3 := serverAuth_queue f.authOk
  simp only [NegFacts.sent]
  rw [h3]
  simp only [sealedWith_append, sendKeys_append, sealedWith_queue, sendKeys_queue, lastIn_append, lastIn_queue, ← h1, ← h2]
  rw [← h3]
  simp [sealedWith, sendKeys, under, lastIn]

/-! ### Runs -/

theorem serverRun_prefix {E : Env} {x : Ctx} {s0 : SState} {es1 es2 : List (Event × Coins)} {s : SState}
    {acts : List Action} {x' : Ctx} (h : s0.run E x (es1 ++ es2) = .ok (s, acts, x')) :
    ∃ s1 a1 x1 a2, s0.run E x es1 = .ok (s1, a1, x1) ∧ s1.run E x1 es2 = .ok (s, a2, x') ∧ acts = a1 ++ a2 := by
  rw [SState.run_append] at h
  simp only [Res.bind_eq_ok, Res.ok.injEq, Prod.mk.injEq] at h
  obtain ⟨⟨s1, a1, x1⟩, h1, ⟨s2, a2, x2⟩, h2, rfl, rfl, rfl⟩ := h
  exact ⟨_, _, _, _, h1, h2, rfl⟩

/-- The states of a server after its flight: 1, waiting for the end of early data; 2, waiting for what comes before the end of
the handshake; 3, connected. -/
def SState.stage : SState → Nat
  | .waitEOED _ => 1
  | .waitCert _ => 2
  | .waitCV _ => 2
  | .waitFinished _ => 2
  | .connected _ => 3
  | _ => 0

/-- The keys a server past its flight reads with; `k`, those of early data. -/
def SState.reading (P : Prims) (k : Keys) : SState → Option Keys
  | .waitEOED _ => some k
  | .waitCert s => some (trafficKeysOf P s.sec.cp s.sec.clientHs)
  | .waitCV s => some (trafficKeysOf P s.sec.cp s.sec.clientHs)
  | .waitFinished s => some (trafficKeysOf P s.sec.cp s.sec.clientHs)
  | .connected s => some (trafficKeysOf P s.cp s.clientAp)
  | _ => none

theorem settle_flight2 {P : Prims} {k : Keys} (s : SWait) :
    ((SState.waitFlight2 s).settle.stage = 2) ∧ (SState.waitFlight2 s).settle.sec? = some s.sec ∧
    (SState.waitFlight2 s).settle.reading P k = some (trafficKeysOf P s.sec.cp s.sec.clientHs) := by
  rcases settle_wait s with ⟨_, h⟩ | ⟨_, h⟩ <;> rw [h] <;> exact ⟨rfl, rfl, rfl⟩

/-- What the state after the flight is. -/
structure AtAnswer (E : Env) (x : Ctx) (cfg : Config) {es : List (Event × Coins)} {acts : List Action}
    (a : AfterHello E x cfg es acts) (rest : List (Event × Coins)) (acts' : List Action) (s : SState) (x' : Ctx) where
  s1 : SState
  x2 : Ctx
  n1 : Nat
  k1 : Keys
  a2 : List Action
  run : s1.run E x2 rest = .ok (s, a2, x')
  acts_eq : acts' = a.a0 ++ ((a.f.sent ++ [.rekeyIn n1 k1]) ++ a2)
  state : (s1 = .readPast ∧ a.n.params.usingEarlyData = false ∧ a.n.params.rejectedEarlyData = true) ∨
    (s1 = .waitEOED a.f.wait ∧ a.n.params.usingEarlyData = true ∧ makeTrafficKeys E.P a.f.p a.n.earlyTraffic = .ok k1) ∨
    (s1 = (SState.waitFlight2 a.f.wait).settle ∧ a.n.params.usingEarlyData = false ∧ k1 = a.f.clientKeys)

theorem atAnswer {E : Env} {x : Ctx} {cfg : Config} {es rest : List (Event × Coins)} {s : SState}
    {acts acts' : List Action} {x' : Ctx} (a : AfterHello E x cfg es acts)
    (h : serverRun E x cfg (a.es0 ++ ([(.msg a.m, a.ce)] ++ rest)) = .ok (s, acts', x')) :
    Nonempty (AtAnswer E x cfg a rest acts' s x') := by
  obtain ⟨s1, a1, x1, a2, h1, h2, hacts⟩ := serverRun_prefix h
  have h0 := a.run0
  rw [serverRun, h1] at h0
  simp only [Res.ok.injEq, Prod.mk.injEq] at h0
  obtain ⟨e1, e2, e3⟩ := h0
  rw [e1, e3] at h2
  rw [e2] at hacts
  simp only [List.singleton_append, SState.run, SState.step, a.next, Res.bind_ok, Res.bind_eq_ok, Res.ok.injEq, Prod.mk.injEq] at h2
  obtain ⟨⟨s3, a3, x3⟩, ⟨⟨s4, a4, x4⟩, hneg, rfl, rfl, rfl⟩, ⟨s5, a5, x5⟩, hrest, rfl, ha2, rfl⟩ := h2
  obtain ⟨f, hx, hf⟩ := SNegotiated.next_ok hneg
  rw [f.unique a.f] at hx hf
  rw [← ha2] at hacts
  rcases hf with ⟨h4, keys, hk, rfl, rfl⟩ | ⟨h4, h5, rfl, rfl⟩ | ⟨h4, h5, rfl, rfl⟩
  · exact ⟨⟨_, _, _, _, _, hrest, hacts, Or.inr (Or.inl ⟨rfl, h4, hk⟩)⟩⟩
  · exact ⟨⟨_, _, _, _, _, hrest, hacts, Or.inl ⟨rfl, h4, h5⟩⟩⟩
  · exact ⟨⟨_, _, _, _, _, hrest, hacts, Or.inr (Or.inr ⟨rfl, h4, rfl⟩)⟩⟩

theorem server_readPast {E : Env} : ∀ {es : List (Event × Coins)} {x x' : Ctx} {s : SState} {acts : List Action},
    SState.readPast.run E x es = .ok (s, acts, x') → s = .readPast ∧ acts = []
  | [], x, x', s, acts, h => by
    simp only [SState.run, Res.ok.injEq, Prod.mk.injEq] at h
    exact ⟨h.1.symm, h.2.1.symm⟩
  | (e, c) :: es, x, x', s, acts, h => by
    simp only [SState.run, Res.bind_eq_ok, Res.ok.injEq, Prod.mk.injEq] at h
    obtain ⟨⟨s1, a1, x1⟩, h1, ⟨s2, a2, x2⟩, h2, rfl, rfl, rfl⟩ := h
    cases e with
    | bad =>
      simp only [SState.step, Res.ok.injEq, Prod.mk.injEq] at h1
      obtain ⟨rfl, rfl, rfl⟩ := h1
      obtain ⟨h3, h4⟩ := server_readPast h2
      exact ⟨h3, by rw [h4]; rfl⟩
    | msg m => simp [SState.step] at h1
    | appData d => simp [SState.step] at h1

/-- One step of a server past its flight. -/
theorem server_step {E : Env} (hP : E.P.Sized) {x x' : Ctx} {c : Coins} {s s' : SState} {e : Event} {acts : List Action}
    {sec : SSecrets} (hsec : s.sec? = some sec) (hst : s.stage ≠ 0) (hz : 0 < sec.cp.hash.size)
    (h : SStep E x c s e s' acts x') (k : Keys) :
    (∃ sec', s'.sec? = some sec' ∧ sec'.cp = sec.cp ∧ sec'.clientHs = sec.clientHs ∧ sec'.ap = sec.ap ∧ s'.stage ≠ 0 ∧
      s.stage ≤ s'.stage ∧ s'.stage ≤ 2 ∧
      sent acts = [] ∧ (∀ k, sealedWith k acts = [] ∧ sendKeys k acts = k) ∧ (∀ act ∈ acts, ∀ n, act ≠ .resetOut n) ∧
      s'.reading E.P k = (lastIn acts).or (s.reading E.P k) ∧
      ((∃ m, e = .msg m ∧ m.msgType ≠ 20 ∧ s'.stage = 2) ∨ (∃ d, e = .appData d ∧ s' = s))) ∨
    (∃ c' m, s' = .connected c' ∧ e = .msg m ∧ m.msgType = 20 ∧ c'.isClient = false ∧ c'.cp = sec.cp ∧
      c'.clientAp = sec.ap.clientAp ∧ c'.serverAp = sec.ap.serverAp ∧ sent acts = [] ∧
      (∀ k, sealedWith k acts = [] ∧ sendKeys k acts = k) ∧ (∀ act ∈ acts, ∀ n, act ≠ .resetOut n) ∧
      s'.reading E.P k = (lastIn acts).or (s.reading E.P k)) := by
  cases h with
  | skip => cases hsec
  | early s d =>
    exact Or.inl ⟨sec, hsec, rfl, rfl, rfl, hst, Nat.le_refl _, by simp [SState.stage], rfl, fun k => ⟨rfl, rfl⟩, by simp, rfl,
      Or.inr ⟨d, rfl, rfl⟩⟩
  | retry => cases hsec
  | hello => cases hsec
  | eoed s m s'' acts' x2' next =>
    obtain ⟨ht, _, _, keys, hk, rfl, rfl⟩ := SWait.nextEOED_ok next
    cases hsec
    obtain ⟨h1, h2, h3⟩ := settle_flight2 (P := E.P) (k := k) { s with sec := s.sec.add (x.bytes m) }
    refine Or.inl ⟨_, h2, rfl, rfl, rfl, by rw [h1]; decide, by rw [h1]; simp [SState.stage], by rw [h1]; decide, rfl,
      fun k => ⟨rfl, rfl⟩, by simp, ?_, Or.inl ⟨m, rfl, by rw [ht]; decide, h1⟩⟩
    rw [h3, makeKeys hP hz hk]; rfl
  | cert s m s'' acts' x2' next =>
    obtain ⟨ht, rfl, _, _, _, ⟨_, rfl⟩ | ⟨_, rfl⟩⟩ := SWait.nextCert_ok next
    all_goals
      cases hsec
      exact Or.inl ⟨_, rfl, rfl, rfl, rfl, by simp [SState.stage], by simp [SState.stage], by simp [SState.stage], rfl,
        fun k => ⟨rfl, rfl⟩, by simp, rfl, Or.inl ⟨m, rfl, by rw [ht]; decide, rfl⟩⟩
  | cv s m s'' acts' x2' next =>
    obtain ⟨ht, rfl, _, _, _, _, _, _, _, rfl⟩ := SWaitCV.next_ok next
    cases hsec
    exact Or.inl ⟨_, rfl, rfl, rfl, rfl, by simp [SState.stage], by simp [SState.stage], by simp [SState.stage], rfl,
      fun k => ⟨rfl, rfl⟩, by simp, rfl, Or.inl ⟨m, rfl, by rw [ht]; decide, rfl⟩⟩
  | finished s m s'' acts' x2' next =>
    obtain ⟨ht, _, _, _, _, keys, _, _, _, _, hk, rfl, rfl⟩ := SWaitFinished.next_ok next
    cases hsec
    refine Or.inr ⟨_, m, rfl, rfl, ht, rfl, rfl, rfl, rfl, rfl, fun k => ⟨rfl, rfl⟩, by simp, ?_⟩
    rw [makeKeys hP hz hk]; rfl
  | post => cases hsec
  | data => cases hsec

theorem server_post_sealed {E : Env} (hP : E.P.Sized) : ∀ {es : List (Event × Coins)} {x x' : Ctx} {s : Connected} {s' : SState}
    {acts : List Action}, 0 < s.cp.hash.size → s.isClient = false →
    (SState.connected s).run E x es = .ok (s', acts, x') →
    sealedWith (some (trafficKeysOf E.P s.cp s.serverAp)) acts = underUpdates E.P s.cp (ascii "s ap traffic") s.serverAp (sent acts) ∧
    (∀ act ∈ acts, ∀ n, act ≠ .resetOut n) ∧ s'.stage = 3
  | [], x, x', s, s', acts, _, _, h => by
    simp only [SState.run, Res.ok.injEq, Prod.mk.injEq] at h
    obtain ⟨rfl, rfl, rfl⟩ := h
    exact ⟨rfl, by simp, rfl⟩
  | (e, c) :: es, x, x', s, s', acts, hs, hc, h => by
    simp only [SState.run, Res.bind_eq_ok, Res.ok.injEq, Prod.mk.injEq] at h
    obtain ⟨⟨s1, a1, x1⟩, h1, ⟨s2, a2, x2⟩, h2, rfl, rfl, rfl⟩ := h
    cases e with
    | msg m =>
      simp only [SState.step, Res.bind_eq_ok, Res.ok.injEq, Prod.mk.injEq] at h1
      obtain ⟨⟨s3, a3, x3⟩, h3, rfl, rfl, rfl⟩ := h1
      obtain ⟨hc3, hcp3, h4⟩ := process_sealed hP hs h3 (trafficKeysOf E.P s.cp s.serverAp)
      obtain ⟨ih, ih2, ih3⟩ := server_post_sealed hP (s := s3) (by rw [hcp3]; exact hs) (by rw [hc3]; exact hc) h2
      rw [hcp3] at ih
      simp only [hc3, hc, Bool.false_eq_true, if_false] at h4
      refine ⟨?_, ?_, ih3⟩
      · rw [sealedWith_append, sent_append]
        rcases h4 with ⟨e1, e2, e3, e4⟩ | ⟨mu, e1, e2, e3, e4⟩
        · rw [e2, e3, e1, List.nil_append, List.nil_append, ← e4]; exact ih
        · rw [e2, e4, e1, ih, e3]; rfl
      · intro act hact
        rcases List.mem_append.1 hact with hact | hact
        · exact process_noReset h3 act hact
        · exact ih2 act hact
    | appData d =>
      simp only [SState.step, Res.ok.injEq, Prod.mk.injEq] at h1
      obtain ⟨rfl, rfl, rfl⟩ := h1
      exact server_post_sealed hP hs hc h2
    | bad => simp [SState.step, alert] at h1

/-- A run of a server past its flight. -/
theorem server_run {E : Env} (hP : E.P.Sized) (k : Keys) : ∀ {es : List (Event × Coins)} {x x' : Ctx} {s s' : SState}
    {sec : SSecrets} {acts : List Action}, s.sec? = some sec → s.stage ≠ 0 → 0 < sec.cp.hash.size →
    s.run E x es = .ok (s', acts, x') →
    sealedWith (some (trafficKeysOf E.P sec.cp sec.ap.serverAp)) acts =
      underUpdates E.P sec.cp (ascii "s ap traffic") sec.ap.serverAp (sent acts) ∧
    (∀ act ∈ acts, ∀ n, act ≠ .resetOut n) ∧
    ((∃ sec', s'.sec? = some sec' ∧ sec'.cp = sec.cp ∧ sec'.clientHs = sec.clientHs ∧ s'.stage ≠ 0 ∧ s.stage ≤ s'.stage ∧ s'.stage ≤ 2 ∧
      s'.reading E.P k = (lastIn acts).or (s.reading E.P k) ∧ (∀ m ∈ received es, m.msgType ≠ 20) ∧
      (received es = [] → s' = s) ∧ (received es ≠ [] → s'.stage = 2)) ∨
     (∃ c' pre m post, s' = .connected c' ∧ received es = pre ++ [m] ++ post ∧ (∀ m ∈ pre, m.msgType ≠ 20) ∧ m.msgType = 20 ∧
      c'.cp = sec.cp ∧ c'.clientAp = updates E.P sec.cp.hash (ascii "c ap traffic") (keyUpdates post) sec.ap.clientAp))
  | [], x, x', s, s', sec, acts, hsec, hst, hz, h => by
    simp only [SState.run, Res.ok.injEq, Prod.mk.injEq] at h
    obtain ⟨rfl, rfl, rfl⟩ := h
    have : s.stage ≤ 2 := by cases s <;> simp [SState.stage] <;> cases hsec
    exact ⟨rfl, by simp, Or.inl ⟨sec, hsec, rfl, rfl, hst, Nat.le_refl _, this, rfl, by simp [received], fun _ => rfl,
      fun h => absurd rfl h⟩⟩
  | (e, c) :: es, x, x', s, s', sec, acts, hsec, hst, hz, h => by
    simp only [SState.run, Res.bind_eq_ok, Res.ok.injEq, Prod.mk.injEq] at h
    obtain ⟨⟨s1, a1, x1⟩, h1, ⟨s2, a2, x2⟩, h2, rfl, rfl, rfl⟩ := h
    rcases server_step hP hsec hst hz (SState.step_ok h1) k with
      ⟨sec', e1, e2, e3, e4, e5, e6, e7, e8, e9, e10, e11, e12⟩ | ⟨c', m, rfl, rfl, e1, e2, e3, e4, e5, e6, e7, e8, e9⟩
    · obtain ⟨i1, i2, i3⟩ := server_run hP k e1 e5 (by rw [e2]; exact hz) h2
      rw [e2, e4] at i1
      refine ⟨?_, ?_, ?_⟩
      · rw [sealedWith_append, (e9 _).1, (e9 _).2, List.nil_append, sent_append, e8, List.nil_append]; exact i1
      · intro act hact
        rcases List.mem_append.1 hact with hact | hact
        · exact e10 act hact
        · exact i2 act hact
      · have hrec : received ((e, c) :: es) = received [(e, c)] ++ received es := by rw [← received_append]; rfl
        have h20 : ∀ m ∈ received [(e, c)], m.msgType ≠ 20 := by
          intro m hm
          rcases e12 with ⟨m', rfl, hm', _⟩ | ⟨d, rfl, _⟩
          · simp only [received, List.filterMap_cons, List.filterMap_nil, List.mem_singleton] at hm
            rw [hm]; exact hm'
          · simp [received] at hm
        rcases i3 with ⟨sec2, j1, j2, j3, j4, j4', j5, j6, j7, j8, j9⟩ | ⟨c', pre, m, post, j1, j2, j3, j4, j5, j6⟩
        · refine Or.inl ⟨sec2, j1, j2.trans e2, j3.trans e3, j4, Nat.le_trans e6 j4', j5, ?_, ?_, ?_, ?_⟩
          · rw [j6, e11, lastIn_append]; cases lastIn a2 <;> simp
          · intro m hm
            rw [hrec] at hm
            rcases List.mem_append.1 hm with hm | hm
            · exact h20 m hm
            · exact j7 m hm
          · intro hn
            rw [hrec, List.append_eq_nil_iff] at hn
            rcases e12 with ⟨m', rfl, hm', _⟩ | ⟨d, rfl, h4⟩
            · simp [received] at hn
            · rw [j8 hn.2, h4]
          · intro hn
            rw [hrec] at hn
            rcases e12 with ⟨m', rfl, hm', h4⟩ | ⟨d, rfl, h4⟩
            · exact Nat.le_antisymm j5 (Nat.le_trans (Nat.le_of_eq h4.symm) j4')
            · exact j9 (by simpa [received] using hn)
        · refine Or.inr ⟨c', received [(e, c)] ++ pre, m, post, j1, by rw [hrec, j2]; simp, ?_, j4, j5.trans e2, ?_⟩
          · intro m hm
            rcases List.mem_append.1 hm with hm | hm
            · exact h20 m hm
            · exact j3 m hm
          · rw [j6, e2, e4]
    · have hz' : 0 < c'.cp.hash.size := by rw [e3]; exact hz
      obtain ⟨i1, i2, i3⟩ := server_post_sealed hP hz' e2 h2
      rw [e3, e5] at i1
      refine ⟨?_, ?_, Or.inr ?_⟩
      · rw [sealedWith_append, (e7 _).1, (e7 _).2, List.nil_append, sent_append, e6, List.nil_append]; exact i1
      · intro act hact
        rcases List.mem_append.1 hact with hact | hact
        · exact e8 act hact
        · exact i2 act hact
      · cases s2 with
        | connected c2 =>
          have := server_post hP hz' e2 h2
          exact ⟨c2, [], m, received es, rfl, rfl, by simp, e1, by rw [this]; exact e3, by rw [this, e3, e4]⟩
        | _ => simp [SState.stage] at i3

/-- The state after the flight, if it is one from which the handshake goes on. -/
theorem AtAnswer.sec {E : Env} (hP : E.P.Sized) {x : Ctx} {cfg : Config} {es : List (Event × Coins)} {acts : List Action}
    {a : AfterHello E x cfg es acts} {rest : List (Event × Coins)} {acts' : List Action} {s : SState} {x' : Ctx}
    (b : AtAnswer E x cfg a rest acts' s x') (hs : s ≠ .readPast) :
    b.s1.sec? = some a.f.wait.sec ∧ b.s1.stage ≠ 0 ∧ 0 < a.f.wait.sec.cp.hash.size ∧ b.s1.reading E.P b.k1 = some b.k1 ∧
    (b.s1.stage = 1 → a.n.params.usingEarlyData = true ∧ b.k1 = trafficKeysOf E.P a.f.p a.n.earlyTraffic) ∧
    (b.s1.stage ≠ 1 → a.n.params.usingEarlyData = false) := by
  have hsz : 0 < a.f.wait.sec.cp.hash.size := suiteParams_size a.f.suiteOk
  rcases b.state with ⟨h1, _⟩ | ⟨h1, h2, h3⟩ | ⟨h1, h2, h3⟩
  · have := b.run
    rw [h1] at this
    exact absurd (server_readPast this).1 hs
  · rw [h1]
    exact ⟨rfl, by simp [SState.stage], hsz, rfl, fun _ => ⟨h2, makeKeys hP hsz h3⟩, fun h => absurd rfl h⟩
  · rw [h1]
    obtain ⟨e1, e2, e3⟩ := settle_flight2 (P := E.P) (k := b.k1) a.f.wait
    refine ⟨e2, by rw [e1]; decide, hsz, ?_, fun h => (by rw [e1] at h; cases h), fun _ => h2⟩
    rw [e3, h3, makeKeys hP hsz a.f.clientKeysOk]
    rfl

theorem AfterHello.serverHs {E : Env} (hP : E.P.Sized) {x : Ctx} {cfg : Config} {es : List (Event × Coins)} {acts : List Action}
    (a : AfterHello E x cfg es acts) : a.f.hs.serverHs = a.F.serverHs E.P x.datagram := by
  have hT : helloTranscript a.x1 a.n a.f.sh = a.F.toServerHello x.datagram := by
    simp only [helloTranscript, AfterHello.F, Flight.toServerHello, wire_singleton]
    simp [Ctx.bytes, Ctx.bytesOpt, a.datagram.2]
  have hhs := a.f.hsOk
  rw [hsSecrets_eq E.P hP _ (suiteParams_size a.f.suiteOk), Res.ok.injEq, hT] at hhs
  rw [← hhs]; rfl

/-- A server that has left the first state does not come back to it. -/
theorem server_started {E : Env} : ∀ {es : List (Event × Coins)} {x x' : Ctx} {s : SState} {s0 : SStart} {acts : List Action},
    s.run E x es = .ok (.start s0, acts, x') → ∃ s1, s = .start s1
  | [], x, x', s, s0, acts, h => by
    simp only [SState.run, Res.ok.injEq, Prod.mk.injEq] at h
    exact ⟨_, h.1⟩
  | (e, c) :: es, x, x', s, s0, acts, h => by
    simp only [SState.run, Res.bind_eq_ok, Res.ok.injEq, Prod.mk.injEq] at h
    obtain ⟨⟨s1, a1, x1⟩, h1, ⟨s2, a2, x2⟩, h2, rfl, rfl, rfl⟩ := h
    obtain ⟨s3, h3⟩ := server_started h2
    subst h3
    have hst := SState.step_ok h1
    generalize hs1 : SState.start s3 = s1 at hst
    cases hst with
    | skip => cases hs1
    | early => cases hs1
    | retry => exact ⟨_, rfl⟩
    | hello => exact ⟨_, rfl⟩
    | eoed s m s'' acts' x2' next =>
      obtain ⟨_, _, _, _, _, rfl, _⟩ := SWait.nextEOED_ok next
      have := (settle_flight2 (P := E.P) (k := ⟨[], []⟩) { s with sec := s.sec.add (x.bytes m) }).1
      rw [← hs1] at this
      cases this
    | cert s m s'' acts' x2' next =>
      obtain ⟨_, _, _, _, _, ⟨_, h⟩ | ⟨_, h⟩⟩ := SWait.nextCert_ok next <;> rw [h] at hs1 <;> cases hs1
    | cv s m s'' acts' x2' next =>
      obtain ⟨_, _, _, _, _, _, _, _, _, h⟩ := SWaitCV.next_ok next
      rw [h] at hs1; cases hs1
    | finished s m s'' acts' x2' next =>
      obtain ⟨_, _, _, _, _, _, _, _, _, _, _, h, _⟩ := SWaitFinished.next_ok next
      rw [h] at hs1; cases hs1
    | post => cases hs1
    | data => cases hs1

/-- How what a server sends is protected. -/
theorem server_sealed {E : Env} (hP : E.P.Sized) {x : Ctx} {cfg : Config} {es : List (Event × Coins)} {s : Connected}
    {acts : List Action} {x' : Ctx} (h : serverRun E x cfg es = .ok (.connected s, acts, x'))
    (a : AfterHello E x cfg es acts) (V : ServerView E x.datagram cfg es acts s) (hV : FlightOf a V.toServerFlight) :
    sealedWith none acts = V.sealedByRfc := by
  have hes := a.es_eq
  rw [hes, List.append_assoc] at h
  obtain ⟨b⟩ := atAnswer a h
  obtain ⟨h1, h2, h3, _⟩ := b.sec hP (by simp)
  obtain ⟨h4, _⟩ := server_run hP b.k1 h1 h2 h3 b.run
  obtain ⟨k1, k2, _⟩ := server_begin a.run0
  obtain ⟨k3, k4, _⟩ := a.f.sealed hP
  obtain ⟨hsec, _, _⟩ := a.secrets hP
  have hout : V.out = sent b.a2 := by
    have := hV.out
    have h5 := congrArg sent b.acts_eq
    rw [this, sent_append, sent_append, sent_append, List.append_assoc] at h5
    have := List.append_cancel_left h5
    simpa [sent] using this
  have hap : a.f.wait.sec.ap.serverAp = V.F.serverAp E.P x.datagram := by rw [hsec, hV.F]
  have hcp : a.f.wait.sec.cp = V.p := by rw [hsec, hV.p]
  have hhs : a.f.hs.serverHs = V.F.serverHs E.P x.datagram := by rw [a.serverHs hP, hV.F]
  refine (congrArg (sealedWith none) b.acts_eq).trans ?_
  rw [sealedWith_append, k1, k2, sealedWith_append, sealedWith_append, k3]
  have k5 : sendKeys none (a.f.sent ++ [.rekeyIn b.n1 b.k1]) = some (trafficKeysOf E.P a.f.wait.sec.cp a.f.wait.sec.ap.serverAp) := by
    rw [sendKeys_append, k4]; rfl
  rw [k5, h4, hcp, hap, ← hout, hhs, ← hV.p, ← hV.retries]
  have e1 : V.F.sh = a.f.sh := by rw [hV.F]; rfl
  have e2 : V.F.ee = a.f.ee := by rw [hV.F]; rfl
  have e3 : V.F.auth = sent a.f.acts := by rw [hV.F]; rfl
  have e4 : V.F.fin = a.f.fin := by rw [hV.F]; rfl
  rw [ServerView.sealedByRfc, e1, e2, e3, e4]
  simp [under, sealedWith]

/-- Nothing but hellos goes out in the clear. -/
theorem server_clear {E : Env} (hP : E.P.Sized) {x : Ctx} {cfg : Config} {es : List (Event × Coins)} {s : SState}
    {acts : List Action} {x' : Ctx} (h : serverRun E x cfg es = .ok (s, acts, x')) (m : Msg)
    (hm : (none, m) ∈ sealedWith none acts) : m.msgType = 2 := by
  have start : ∀ {es0 : List (Event × Coins)} {s0 : SStart} {a0 : List Action} {x0 : Ctx},
      serverRun E x cfg es0 = .ok (.start s0, a0, x0) → (none, m) ∈ sealedWith none a0 → m.msgType = 2 := by
    intro es0 s0 a0 x0 h hm
    rw [(server_begin h).1] at hm
    simp only [under, List.mem_map, Prod.mk.injEq, true_and] at hm
    obtain ⟨m', h4, rfl⟩ := hm
    exact (serverKnows h).2.2.2 _ h4
  have after : ∀ a : AfterHello E x cfg es acts, m.msgType = 2 := by
    intro a
    have hes := a.es_eq
    rw [hes, List.append_assoc] at h
    obtain ⟨b⟩ := atAnswer a h
    obtain ⟨k3, k4, _⟩ := a.f.sealed hP
    have hm' : (none, m) ∈ sealedWith none (a.a0 ++ ((a.f.sent ++ [.rekeyIn b.n1 b.k1]) ++ b.a2)) := b.acts_eq ▸ hm
    rw [sealedWith_append] at hm'
    rcases List.mem_append.1 hm' with hm' | hm'
    · exact start a.run0 hm'
    · rw [(server_begin a.run0).2.1, List.append_assoc, sealedWith_append, k3] at hm'
      rcases List.mem_append.1 hm' with hm' | hm'
      · simp only [under, List.mem_cons, Prod.mk.injEq, true_and, List.mem_map, reduceCtorEq, false_and, and_false, exists_false,
          or_false] at hm'
        rw [hm']
        exact (serverHello_made a.f.shOk).1
      · rw [k4] at hm'
        refine absurd hm' (sealed_some ?_ _ m)
        intro act hact
        rcases List.mem_append.1 hact with hact | hact
        · rw [List.mem_singleton] at hact; rw [hact]; simp
        · by_cases hs : s = .readPast
          · have hr := b.run
            rcases b.state with ⟨h1, _⟩ | ⟨h1, _⟩ | ⟨h1, _⟩
            · rw [h1] at hr
              rw [(server_readPast hr).2] at hact
              cases hact
            · have := (server_run hP b.k1 (sec := a.f.wait.sec) (by rw [h1]; rfl) (by rw [h1]; simp [SState.stage])
                (suiteParams_size a.f.suiteOk) hr).2.1
              exact this act hact
            · have e := settle_flight2 (P := E.P) (k := b.k1) a.f.wait
              have := (server_run hP b.k1 (sec := a.f.wait.sec) (by rw [h1]; exact e.2.1) (by rw [h1, e.1]; decide)
                (suiteParams_size a.f.suiteOk) hr).2.1
              exact this act hact
          · obtain ⟨h1, h2, h3, _⟩ := b.sec hP hs
            exact (server_run hP b.k1 h1 h2 h3 b.run).2.1 act hact
  have hk := serverKnows h
  cases s with
  | start s0 => exact start h hm
  | negotiated _ => exact absurd hk (by simp [ServerKnows])
  | waitFlight2 _ => exact absurd hk (by simp [ServerKnows])
  | waitEOED s => obtain ⟨a, _⟩ := hk; exact after a
  | readPast => obtain ⟨a, _⟩ := hk; exact after a
  | waitCert s => obtain ⟨_, _, ⟨a⟩⟩ := hk; exact after a.after
  | waitCV s => obtain ⟨_, _, _, ⟨a⟩, _⟩ := hk; exact after a.after
  | waitFinished s => obtain ⟨_, a, _⟩ := hk; exact after a.after
  | connected s => obtain ⟨a, _⟩ := serverViewAt hP h; exact after a

theorem reading_two {P : Prims} {k : Keys} {s : SState} {sec : SSecrets} (h : s.sec? = some sec) (hst : s.stage = 2) :
    s.reading P k = some (trafficKeysOf P sec.cp sec.clientHs) := by
  cases s <;> cases h <;> first | rfl | cases hst

theorem first_finished : ∀ {a b c d : List Msg} {m n : Msg}, a ++ m :: b = c ++ n :: d → (∀ m ∈ a, m.msgType ≠ 20) →
    (∀ m ∈ c, m.msgType ≠ 20) → m.msgType = 20 → n.msgType = 20 → a = c
  | [], b, [], d, m, n, _, _, _, _, _ => rfl
  | x :: a, b, [], d, m, n, h, ha, _, _, hn => by
    simp only [List.cons_append, List.nil_append, List.cons.injEq] at h
    exact absurd hn (h.1 ▸ ha x (by simp))
  | [], b, y :: c, d, m, n, h, _, hc, hm, _ => by
    simp only [List.cons_append, List.nil_append, List.cons.injEq] at h
    exact absurd hm (h.1 ▸ hc y (by simp))
  | x :: a, b, y :: c, d, m, n, h, ha, hc, hm, hn => by
    simp only [List.cons_append, List.cons.injEq] at h
    rw [h.1, first_finished h.2 (fun m hm => ha m (by simp [hm])) (fun m hm => hc m (by simp [hm])) hm hn]

/-- With which keys a server reads at each moment. -/
theorem server_reads {E : Env} (hP : E.P.Sized) {x : Ctx} {cfg : Config} {es es1 es2 : List (Event × Coins)}
    {s : Connected} {acts : List Action} {x' : Ctx} (h : serverRun E x cfg es = .ok (.connected s, acts, x'))
    (a : AfterHello E x cfg es acts) (V : ServerView E x.datagram cfg es acts s) (hV : FlightOf a V.toServerFlight)
    (hes : es = es1 ++ es2) :
    ∃ s1 acts1 x1 acts2, serverRun E x cfg es1 = .ok (s1, acts1, x1) ∧ acts = acts1 ++ acts2 ∧
      lastIn acts1 = V.readsByRfc (received es1) := by
  obtain ⟨s1, a1, x1, a2, hr1, hr2, hacts⟩ := serverRun_prefix (hes ▸ h)
  refine ⟨s1, a1, x1, a2, hr1, hacts, ?_⟩
  have hes0 := hes.symm.trans (a.es_eq.trans (List.append_assoc _ _ _))
  have all0 : ∀ e ∈ a.es0, ∃ m, e.1 = .msg m := fun e he => by
    obtain ⟨m, h1, _⟩ := a.hellos e he; exact ⟨m, h1⟩
  have len0 : V.pre.length = a.es0.length := by rw [V.same, hV.retries, a.retries.1]
  obtain ⟨hsec, _, _⟩ := a.secrets hP
  by_cases h0 : es1.length ≤ a.es0.length
  · obtain ⟨t, ht⟩ := append_split hes0 h0
    have hall : (received es1).length = es1.length := received_all fun e he => all0 e (by rw [ht]; simp [he])
    rw [ServerView.readsByRfc, if_pos (by rw [hall, len0]; exact h0)]
    have h1 := a.run0
    rw [ht] at h1
    obtain ⟨s1', a1', x1', a2', hr, hrun, _⟩ := serverRun_prefix h1
    have hr1' : (SState.start ⟨cfg⟩).run E x es1 = .ok (s1, a1, x1) := hr1
    rw [hr1'] at hr
    cases hr
    obtain ⟨s0, rfl⟩ := server_started hrun
    exact (server_begin hr1).2.2
  · obtain ⟨rest1, ht⟩ := append_split (a := a.es0 ++ [(.msg a.m, a.ce)]) (b := a.rest) (l := es1) (r := es2)
      (by rw [hes0]; simp) (by simp; omega)
    have hrest : a.rest = rest1 ++ es2 := by
      rw [ht] at hes0
      simp only [List.append_assoc] at hes0
      exact (List.append_cancel_left (List.append_cancel_left hes0)).symm
    have hrec : received es1 = received (a.es0 ++ [(.msg a.m, a.ce)]) ++ received rest1 := by rw [ht, received_append]
    have hrl : (received (a.es0 ++ [(.msg a.m, a.ce)])).length = V.pre.length + 1 := by
      rw [received_append, List.length_append, received_all all0, len0]; rfl
    have hr1' := hr1
    rw [ht, List.append_assoc] at hr1'
    obtain ⟨b⟩ := atAnswer a hr1'
    have hne : s1 ≠ .readPast := by
      rintro rfl
      cases (server_readPast hr2).1
    obtain ⟨h1, h2, h3, h4, h5, h6⟩ := b.sec hP hne
    obtain ⟨_, _, h7⟩ := server_run hP b.k1 h1 h2 h3 b.run
    have hsplit : received rest1 ++ received es2 = V.eoed ++ V.cauth ++ [V.cfin] ++ V.post := by
      rw [← received_append, ← hrest, ← hV.rest, V.rest_eq]
    have hnot : ∀ m ∈ V.eoed ++ V.cauth, m.msgType ≠ 20 := by
      intro m hm
      rcases List.mem_append.1 hm with hm | hm
      · rcases V.eoedOk with ⟨_, e⟩ | ⟨_, m', e, e2, _⟩
        · rw [e] at hm; cases hm
        · rw [e, List.mem_singleton] at hm; rw [hm, e2]; decide
      · cases V.cauthOk with
        | none _ e => rw [e] at hm; cases hm
        | empty _ mc e e2 => rw [e, List.mem_singleton] at hm; rw [hm, e2]; decide
        | cert _ mc mv e e2 _ _ _ e3 =>
          rw [e] at hm
          rcases List.mem_cons.1 hm with hm | hm
          · rw [hm, e2]; decide
          · rw [List.mem_singleton] at hm; rw [hm, e3]; decide
    have hcp : a.f.wait.sec.cp = V.p := by rw [hsec, hV.p]
    have hpp : a.f.p = V.p := hV.p.symm
    have hF : a.F = V.F := hV.F.symm
    have hlast : lastIn a1 = (lastIn b.a2).or (some b.k1) := by
      refine (congrArg lastIn b.acts_eq).trans ?_
      rw [lastIn_append, lastIn_append, lastIn_append, (a.f.sealed hP).2.2, (server_begin a.run0).2.2]
      simp [lastIn]
    rw [h4] at h7
    rcases h7 with ⟨sec', j1, j2, j3, j4, j4', j5, j6, j7, j8, j9⟩ | ⟨c', pre, m, post, rfl, j2, j3, j4, j5, j6⟩
    · rw [← hlast] at j6
      have hle : (received rest1).length ≤ (V.eoed ++ V.cauth).length := by
        by_contra hlt
        have hlt : (V.eoed ++ V.cauth ++ [V.cfin]).length ≤ (received rest1).length := by
          rw [List.length_append]; simp only [List.length_singleton]; omega
        obtain ⟨t, ht⟩ := append_split (a := V.eoed ++ V.cauth ++ [V.cfin]) (b := V.post) hsplit.symm hlt
        exact j7 V.cfin (by rw [ht]; simp) V.cfinType
      rw [← j6]
      by_cases hnil : received rest1 = []
      · have hs1 := j8 hnil
        by_cases hst : b.s1.stage = 1
        · obtain ⟨hu, hk⟩ := h5 hst
          rw [ServerView.readsByRfc, if_neg (by rw [hrec, List.length_append, hrl]; omega),
            if_pos ⟨by rw [← hV.usingEarlyData]; exact hu, by rw [hrec, List.length_append, hrl, hnil]; simp⟩]
          refine ((congrArg (SState.reading E.P b.k1) hs1).trans h4).trans ?_
          rw [hk, a.early_traffic hP hu, hpp, hF, hV.hello, V.hash]
        · have hu := h6 hst
          rw [hV.usingEarlyData] at hu
          rw [ServerView.readsByRfc, if_neg (by rw [hrec, List.length_append, hrl]; omega),
            if_neg (by rw [hu]; simp), if_pos (by rw [hrec, List.length_append, hrl, hnil]; simp; omega)]
          have hst2 : s1.stage = 2 := by
            have : s1.stage = b.s1.stage := congrArg SState.stage hs1
            omega
          rw [reading_two j1 hst2, j2, j3, hcp]
          rw [hsec, hF]
      · have hst := j9 hnil
        have hlen : 0 < (received rest1).length := List.length_pos_iff.2 hnil
        rw [ServerView.readsByRfc, if_neg (by rw [hrec, List.length_append, hrl]; omega),
            if_neg (by rw [hrec, List.length_append, hrl]; omega),
            if_pos (by rw [hrec, List.length_append, hrl]; rw [List.length_append] at hle; omega)]
        rw [reading_two j1 hst, j2, j3, hcp]
        rw [hsec, hF]
    · have hpre : pre = V.eoed ++ V.cauth := by
        refine first_finished (b := post ++ received es2) (d := V.post) ?_ j3 hnot j4 V.cfinType
        rw [j2] at hsplit
        simpa using hsplit
      have hlen : (received es1).length = V.pre.length + 1 + (V.eoed.length + V.cauth.length + 1 + post.length) := by
        rw [hrec, List.length_append, hrl, j2, hpre]; simp; omega
      rw [ServerView.readsByRfc, if_neg (by rw [hlen]; omega), if_neg (by rw [hlen]; omega), if_neg (by rw [hlen]; omega)]
      have hdrop : (received es1).drop (V.pre.length + 2 + V.eoed.length + V.cauth.length) = post := by
        rw [hrec, j2, hpre, ← List.append_assoc]
        refine List.drop_left' ?_
        rw [List.length_append, hrl]; simp; omega
      obtain ⟨ck, sk, hck, _, hin⟩ := server_installed hr1
      have hnc : c'.isClient = false := by
        obtain ⟨_, V1, _⟩ := serverViewAt hP hr1
        exact V1.isClient
      rw [hnc, if_neg (by simp)] at hin
      have hz : 0 < c'.cp.hash.size := by rw [j5]; exact h3
      rw [hin.2, makeKeys hP hz hck, hdrop, j5, j6, hcp, V.hash, hsec, hF]

end Verif.Machine
