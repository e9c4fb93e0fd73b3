import Verif.Machine.Answers

/-
Two compatible ends between which every message is delivered: the stages of such an execution.
-/

namespace Verif.Machine

open Verif Verif.Crypto Verif.Messages Verif.Negotiation Verif.Handshake Verif.Spec

variable {E : Env} {d : Bool} {now : Int → Prop}

/-! ### Messages delivered in order -/

theorem over_concat {ms ms' : List Msg} {es es' : List (Event × Coins)} (h : Over d now ms es) (h' : Over d now ms' es') :
    Over d now (ms ++ ms') (es ++ es') :=
  ⟨by simp [h.1, h'.1], fun e he => (List.mem_append.1 he).elim (h.2 e) (h'.2 e)⟩

theorem over_single {m : Msg} {c : Coins} (h : GoodCoins now c) : Over d now [m] [(.msg (arrived d m), c)] :=
  ⟨rfl, fun e he => by rw [List.mem_singleton.1 he]; exact h⟩

theorem over_exists {c : Coins} (h : GoodCoins now c) (ms : List Msg) : ∃ es, Over d now ms es :=
  ⟨ms.map fun m => (.msg (arrived d m), c), by simp, fun e he => by obtain ⟨m, _, rfl⟩ := List.mem_map.1 he; exact h⟩

theorem over_length {ms : List Msg} {es : List (Event × Coins)} (h : Over d now ms es) : es.length = ms.length := by
  have := congrArg List.length h.1
  simpa using this

/-- The next message to deliver. -/
theorem next_msg {ms ms' : List Msg} {m : Msg} (h : (ms ++ ms')[ms.length]? = some m) : ∃ rest, ms' = m :: rest := by
  rw [List.getElem?_append_right (Nat.le_refl _), Nat.sub_self] at h
  cases ms' with
  | nil => simp at h
  | cons a l =>
    simp only [List.getElem?_cons_zero, Option.some.injEq] at h
    exact ⟨l, by rw [h]⟩

/-! ### The two ends -/

theorem CState.run_front {x x' : Ctx} {s s' : CState} {es es' : List (Event × Coins)} {acts : List Action}
    (h : s.run E x (es ++ es') = .ok (s', acts, x')) :
    ∃ s1 a1 x1 a2, s.run E x es = .ok (s1, a1, x1) ∧ acts = a1 ++ a2 := by
  rw [CState.run_append] at h
  simp only [Res.bind_eq_ok, Res.ok.injEq, Prod.mk.injEq] at h
  obtain ⟨⟨s1, a1, x1⟩, h1, ⟨s2, a2, x2⟩, _, _, rfl, _⟩ := h
  exact ⟨s1, a1, x1, a2, h1, rfl⟩

theorem SState.run_front {x x' : Ctx} {s s' : SState} {es es' : List (Event × Coins)} {acts : List Action}
    (h : s.run E x (es ++ es') = .ok (s', acts, x')) :
    ∃ s1 a1 x1 a2, s.run E x es = .ok (s1, a1, x1) ∧ acts = a1 ++ a2 := by
  rw [SState.run_append] at h
  simp only [Res.bind_eq_ok, Res.ok.injEq, Prod.mk.injEq] at h
  obtain ⟨⟨s1, a1, x1⟩, h1, ⟨s2, a2, x2⟩, _, _, rfl, _⟩ := h
  exact ⟨s1, a1, x1, a2, h1, rfl⟩

/-- The messages of the server's flight. -/
def NegFacts.flight {y : Ctx} {c : Coins} {n : SNegotiated} (f : NegFacts E y c n) : List Msg :=
  [f.sh, f.ee] ++ Spec.sent f.acts ++ [f.fin]

theorem NegFacts.flight_length {y : Ctx} {c : Coins} {n : SNegotiated} (f : NegFacts E y c n) :
    0 < f.flight.length ∧ f.flight.length ≤ 6 := by
  have h : (Spec.sent f.acts).length ≤ 3 := by
    rcases serverAuth_ok f.authOk with ⟨_, h, _⟩ | ⟨_, acts1, t1, x1, cert, m, x2, cv, mv, hr, _, _, _, _, h, _⟩
    · rw [h]; simp [Spec.sent]
    · rw [h]
      rcases serverRequest_ok hr with ⟨_, rfl, _⟩ | ⟨_, exts, m, _, _, rfl, _⟩ <;> simp [Spec.sent]
  simp only [flight, List.length_append, List.length_cons, List.length_nil]
  omega

/-- What a server does when it has read a hello: the flight, then the keys for what comes next. -/
def NegFacts.Acts {y : Ctx} {c : Coins} {n : SNegotiated} (f : NegFacts E y c n) (acts : List Action) : Prop :=
  (n.params.usingEarlyData = true ∧ ∃ keys, makeTrafficKeys E.P f.p n.earlyTraffic = .ok keys ∧
    acts = f.sent ++ [.rekeyIn epochEarlyData keys]) ∨
  (n.params.usingEarlyData = false ∧ acts = f.sent ++ [.rekeyIn epochHandshake f.clientKeys])

/-- A compatible client sends its hello. -/
theorem client_hello (hP : E.P.Sized) {ccfg scfg : Config} (C : Compatible E now ccfg scfg) (x : Ctx) {c0 : Coins}
    (h0 : GoodCoins now c0) :
    ∃ w acts x', ({ cfg := ccfg } : CStart).next E x c0 = .ok (w, acts, x') ∧ x'.datagram = x.datagram ∧
      sent acts = [w.clientHello] := by
  obtain ⟨⟨r, hr, _⟩, _⟩ := h0
  obtain ⟨w, acts, x', h⟩ := client_start (s := { cfg := ccfg }) hP C.fits C.dh (fun _ h => by cases h) (by
    intro k hk
    rcases C.method with ⟨k1, k2, S⟩ | U
    · have hk1 : k1 = k := by
        have := S.client
        rw [show ccfg.psks ccfg.serverName = some k from hk, Option.some.injEq] at this
        exact this.symm
      subst hk1
      refine ⟨S.known, S.modes, ?_⟩
      obtain ⟨s, hs, he⟩ := S.offered
      have : s ∈ offeredSuites (some k1) ccfg.suites := by
        unfold offeredSuites
        refine List.mem_filter.2 ⟨hs, ?_⟩
        simp [suiteHash, he]
      exact List.length_pos_of_mem this
    · have hn := U.noPsk
      unfold NoCommonPsk at hn
      rw [show ccfg.psks ccfg.serverName = some k from hk] at hn
      obtain ⟨s, hs, _⟩ := U.suite
      rw [show ccfg.psks ccfg.serverName = some k from hk] at hs
      exact ⟨hn.1, hn.2.1, List.length_pos_of_mem hs⟩) x ⟨r, hr⟩
  refine ⟨w, acts, x', h, CStart.next_datagram h, ?_⟩
  obtain ⟨shares, random, exts, _, _, _, ⟨psk, o, _, ho, rfl, rfl, rfl⟩ | ⟨_, hello, hm, rfl, rfl⟩⟩ := CStart.next_ok h
  · cases ccfg.allowEarlyData <;> rfl
  · rfl

/-- The server's answer to a hello it has negotiated. -/
theorem server_flight (hP : E.P.Sized) {scfg : Config} {w : CWaitSH} {y y1 : Ctx} {c : Coins} {n : SNegotiated} {m : Msg}
    (hn : SStart.next E y c ⟨scfg⟩ m = .ok (.negotiated n, y1)) (M : Matched E d now w n) (hc : GoodCoins now c) :
    ∃ (f : NegFacts E y1 c n) (acts : List Action), f.random.1 ≠ hrrRandom ∧
      serverRun E y scfg [(.msg m, c)] = .ok (f.wait.begin, acts, f.x4) ∧ sent acts = f.flight ∧
      lastOut acts = some f.serverApKeys ∧ f.Acts acts := by
  obtain ⟨⟨r, hr, hne⟩, _⟩ := hc
  obtain ⟨s', acts, x', h⟩ := flight_fits hP M y1 ⟨r, hr⟩
  obtain ⟨f, rfl, hcase⟩ := SNegotiated.next_ok h
  have hrun : serverRun E y scfg [(.msg m, c)] = .ok (s'.settle, acts, f.x4) := by
    simp only [serverRun, SState.run, SState.step, hn, h, Res.bind_ok, List.append_nil]
  have hrand : f.random.1 ≠ hrrRandom := by
    have := f.randomOk
    rw [hr, Option.some.injEq] at this
    rwa [← this]
  have hs : ∀ n k, sent (f.sent ++ [.rekeyIn n k]) = f.flight := by
    intro n k
    simp only [NegFacts.sent, sent_append, NegFacts.flight]
    rw [show sent [.rekeyIn n k] = [] from rfl, List.append_nil]
    rfl
  have hl : ∀ n k, lastOut (f.sent ++ [.rekeyIn n k]) = some f.serverApKeys := by
    intro n k
    rw [lastOut_append_none _ (by simp [lastOut]), NegFacts.sent, lastOut_append_some (k := f.serverApKeys) _ (by simp [lastOut])]
  refine ⟨f, acts, hrand, ?_, ?_, ?_, ?_⟩
  · rw [hrun]
    rcases hcase with ⟨he, keys, _, rfl, _⟩ | ⟨_, he, _⟩ | ⟨he, _, rfl, _⟩
    · simp [SState.settle, SWait.begin, NegFacts.wait, he]
    · rw [M.notRejected] at he; cases he
    · simp [SState.settle, SWait.begin, NegFacts.wait, he]
  · rcases hcase with ⟨_, _, _, _, rfl⟩ | ⟨_, _, _, rfl⟩ | ⟨_, _, _, rfl⟩ <;> exact hs _ _
  · rcases hcase with ⟨_, _, _, _, rfl⟩ | ⟨_, _, _, rfl⟩ | ⟨_, _, _, rfl⟩ <;> exact hl _ _
  · rcases hcase with ⟨hu, k, hk, _, rfl⟩ | ⟨_, hu, _⟩ | ⟨hu, _, _, rfl⟩
    · exact .inl ⟨hu, k, hk, rfl⟩
    · rw [M.notRejected] at hu; cases hu
    · exact .inr ⟨hu, rfl⟩

/-- A client that has read part of the flight has not answered yet. -/
theorem client_part {w : CWaitSH} {y x0 : Ctx} {c c0 : Coins} {n : SNegotiated} (M : Matched E d now w n) (f : NegFacts E y c n)
    (hr : f.random.1 ≠ hrrRandom) (hy : y.datagram = d) (hx : x0.datagram = d) (h0 : GoodCoins now c0) {ms ms' : List Msg}
    (hf : f.flight = ms ++ ms') (hne : ms' ≠ []) {es : List (Event × Coins)} (ho : Over d now ms es) :
    ∃ s acts x', CState.run E x0 (.waitSH w) es = .ok (s, acts, x') ∧ sent acts = [] := by
  have hms : ms' = ms'.dropLast ++ [ms'.getLast hne] := (List.dropLast_concat_getLast hne).symm
  have hfront : [f.sh, f.ee] ++ sent f.acts = ms ++ ms'.dropLast := by
    rw [NegFacts.flight, hms, ← List.append_assoc] at hf
    exact (List.append_inj' hf rfl).1
  obtain ⟨es', ho'⟩ := over_exists (d := d) h0 ms'.dropLast
  obtain ⟨wf, acts, hrun, hsent, _⟩ := client_flight M f hr hy hx (by rw [hfront]; exact over_concat ho ho')
  obtain ⟨s1, a1, x1, a2, h1, rfl⟩ := CState.run_front hrun
  refine ⟨s1, a1, x1, h1, ?_⟩
  rw [sent_append] at hsent
  exact (List.append_eq_nil_iff.1 hsent).1

/-- A client that has read the flight is connected, and so is the server that reads its answer. -/
theorem client_whole (hP : E.P.Sized) {w : CWaitSH} {y x0 : Ctx} {c : Coins} {n : SNegotiated} (M : Matched E d now w n)
    (f : NegFacts E y c n) (hr : f.random.1 ≠ hrrRandom) (hy : y.datagram = d) (hx : x0.datagram = d)
    {es : List (Event × Coins)} (ho : Over d now f.flight es) :
    ∃ cc acts x', CState.run E x0 (.waitSH w) es = .ok (.connected cc, acts, x') ∧ lastIn acts = some f.serverApKeys ∧
      (∃ k, lastOut acts = some k) ∧ 0 < (sent acts).length ∧ (sent acts).length ≤ 4 ∧
      ∀ gs, Over d now (sent acts) gs → ∃ sc sacts z',
        SState.run E f.x4 f.wait.begin gs = .ok (.connected sc, sacts, z') ∧ sent sacts = [] ∧ lastOut sacts = none ∧
        lastIn sacts = lastOut acts ∧ SameConnection cc sc := by
  obtain ⟨es1, es2, rfl, ho1, ho2⟩ := over_append ho
  obtain ⟨c2, es2, rfl, _, ho2⟩ := over_cons ho2
  have := over_nil ho2
  subst this
  obtain ⟨wf, acts1, hrun, hsent, R⟩ := client_flight M f hr hy hx ho1
  obtain ⟨cc, acts, x', hnext, _, hin, ⟨k, hk⟩, hpos, hlen, hserver⟩ := client_done hP M f R hy hx
  have hstep : CState.run E x0 (.waitFinished wf) [(.msg (arrived d f.fin), c2)] = .ok (.connected cc, acts, x') := by
    simp only [CState.run, CState.step, hnext, Res.bind_ok, List.append_nil]
  have hs : sent (acts1 ++ acts) = sent acts := by rw [sent_append, hsent, List.nil_append]
  refine ⟨cc, _, x', CState.run_then hrun hstep, lastIn_append_some _ hin, ⟨k, lastOut_append_some _ hk⟩, by rw [hs]; exact hpos,
    by rw [hs]; exact hlen, ?_⟩
  intro gs hg
  rw [hs] at hg
  obtain ⟨sc, sacts, z', h1, h2, h3, h4, h5⟩ := hserver f.x4 (f.datagram.2.2.2.trans hy) gs hg
  exact ⟨sc, sacts, z', h1, h2, h3, by rw [h4, lastOut_append_some _ hk, hk], h5⟩

/-- A server that has read part of the answer has sent its flight and nothing else. -/
theorem server_part {scfg : Config} {w : CWaitSH} {y y1 : Ctx} {c c0 : Coins} {n : SNegotiated} (f : NegFacts E y1 c n)
    {acts cacts : List Action} (h0 : GoodCoins now c0)
    (hrun : serverRun E y scfg [(.msg (arrived d w.clientHello), c)] = .ok (f.wait.begin, acts, f.x4)) (hs : sent acts = f.flight)
    (hsrv : ∀ gs, Over d now (sent cacts) gs → ∃ sc sacts z',
        SState.run E f.x4 f.wait.begin gs = .ok (.connected sc, sacts, z') ∧ sent sacts = []) {ms ms' : List Msg}
    (hsc : sent cacts = ms ++ ms') {gs : List (Event × Coins)} (hg : Over d now ms gs) :
    ∃ s sacts y', serverRun E y scfg ((.msg (arrived d w.clientHello), c) :: gs) = .ok (s, sacts, y') ∧ sent sacts = f.flight := by
  obtain ⟨gs', hg'⟩ := over_exists (d := d) h0 ms'
  obtain ⟨sc, sacts, z', h1, h2⟩ := hsrv (gs ++ gs') (by rw [hsc]; exact over_concat hg hg')
  obtain ⟨s1, a1, z1, a2, h6, rfl⟩ := SState.run_front h1
  rw [sent_append] at h2
  obtain ⟨h7, _⟩ := List.append_eq_nil_iff.1 h2
  exact ⟨_, _, _, SState.run_then (es' := gs) hrun h6, by rw [sent_append, h7, List.append_nil, hs]⟩

/-! ### Stages -/

/-- How far the two ends have got. -/
inductive Stage (E : Env) (d : Bool) (now : Int → Prop) (y : Ctx) (scfg : Config) (w : CWaitSH) (x0 : Ctx) :
    List (Event × Coins) → List (Event × Coins) → Prop where
  | hello : Stage E d now y scfg w x0 [] []
  | flight {es : List (Event × Coins)} {y1 : Ctx} {c : Coins} {n : SNegotiated} (f : NegFacts E y1 c n) (acts : List Action)
      (ms ms' : List Msg) : y1.datagram = d → Matched E d now w n → f.random.1 ≠ hrrRandom →
      serverRun E y scfg [(.msg (arrived d w.clientHello), c)] = .ok (f.wait.begin, acts, f.x4) → sent acts = f.flight →
      lastOut acts = some f.serverApKeys → f.Acts acts → f.flight = ms ++ ms' → ms' ≠ [] → Over d now ms es →
      Stage E d now y scfg w x0 es [(.msg (arrived d w.clientHello), c)]
  | answer {es gs : List (Event × Coins)} {y1 : Ctx} {c : Coins} {n : SNegotiated} (f : NegFacts E y1 c n) (acts cacts : List Action)
      (cc : CState) (x' : Ctx) (ms ms' : List Msg) : y1.datagram = d → Matched E d now w n → f.random.1 ≠ hrrRandom →
      serverRun E y scfg [(.msg (arrived d w.clientHello), c)] = .ok (f.wait.begin, acts, f.x4) → sent acts = f.flight →
      lastOut acts = some f.serverApKeys → f.Acts acts → Over d now f.flight es → CState.run E x0 (.waitSH w) es = .ok (cc, cacts, x') →
      sent cacts = ms ++ ms' → Over d now ms gs →
      Stage E d now y scfg w x0 es ((.msg (arrived d w.clientHello), c) :: gs)

/-- What both ends are up to at a stage. -/
theorem Stage.ends (hP : E.P.Sized) {y x0 : Ctx} {scfg : Config} {w : CWaitSH} {es fs : List (Event × Coins)} (hx : x0.datagram = d) {c0 : Coins} (h0 : GoodCoins now c0) (S : Stage E d now y scfg w x0 es fs) :
    ∃ c cacts x' s sacts y', CState.run E x0 (.waitSH w) es = .ok (c, cacts, x') ∧ serverRun E y scfg fs = .ok (s, sacts, y') ∧
      es.length ≤ (sent sacts).length ∧ fs.length ≤ 1 + (sent cacts).length ∧ (sent sacts).length ≤ 6 ∧ (sent cacts).length ≤ 4 ∧
      (es.length = (sent sacts).length → fs.length = 1 + (sent cacts).length → ∃ cc sc, c = .connected cc ∧ s = .connected sc ∧
        SameConnection cc sc ∧ (∃ k, lastIn cacts = some k ∧ lastOut sacts = some k) ∧
        ∃ k, lastOut cacts = some k ∧ lastIn sacts = some k) := by
  match S with
  | .hello => exact ⟨_, _, _, _, _, _, rfl, rfl, by simp, by simp, by simp [sent], by simp [sent], fun _ h => by simp [sent] at h⟩
  | .flight f acts ms ms' hy M hr hrun hs hl ha hf hne ho =>
    obtain ⟨s, cacts, x', h, he⟩ := client_part M f hr hy hx h0 hf hne ho
    have hlen := over_length ho
    have := List.length_pos_iff.2 hne
    have hfl := f.flight_length
    have hfl' : f.flight.length = ms.length + ms'.length := by rw [hf, List.length_append]
    refine ⟨_, _, _, _, _, _, h, hrun, ?_, ?_, ?_, ?_, ?_⟩
    · rw [hs]; omega
    · simp
    · rw [hs]; omega
    · rw [he]; simp
    · rw [hs]; intro h1; omega
  | .answer (gs := gs) f acts cacts cc x' ms ms' hy M hr hrun hs hl ha ho hc hsc hg =>
    obtain ⟨k, cacts', x'', hcw, hin, ⟨ko, hout⟩, hpos, hmax, hsrv⟩ := client_whole hP M f hr hy hx ho
    rw [hc, Res.ok.injEq, Prod.mk.injEq, Prod.mk.injEq] at hcw
    obtain ⟨rfl, rfl, rfl⟩ := hcw
    obtain ⟨gs', hg'⟩ := over_exists (d := d) h0 ms'
    obtain ⟨sc, sacts, z', h1, h2, h3, h4, h5⟩ := hsrv (gs ++ gs') (by rw [hsc]; exact over_concat hg hg')
    obtain ⟨s1, a1, z1, a2, h6, rfl⟩ := SState.run_front h1
    rw [sent_append] at h2
    obtain ⟨h7, _⟩ := List.append_eq_nil_iff.1 h2
    have hrun' := SState.run_then (es' := gs) hrun h6
    have hfl := f.flight_length
    have hlen := over_length ho
    have hlen' := over_length hg
    have hsl : (sent cacts).length = ms.length + ms'.length := by rw [hsc, List.length_append]
    have hss : sent (acts ++ a1) = f.flight := by rw [sent_append, h7, List.append_nil, hs]
    refine ⟨_, _, _, _, _, _, hc, hrun', ?_, ?_, ?_, hmax, ?_⟩
    · rw [hss]; omega
    · simp only [List.length_cons]; omega
    · rw [hss]; omega
    · intro _ hfs
      simp only [List.length_cons] at hfs
      have hms : ms' = [] := List.length_eq_zero_iff.1 (by omega)
      subst hms
      have := over_nil hg'
      subst this
      rw [List.append_nil] at h1
      rw [h1, Res.ok.injEq, Prod.mk.injEq, Prod.mk.injEq] at h6
      obtain ⟨rfl, h8, _⟩ := h6
      rw [h8] at h3 h4
      refine ⟨k, sc, rfl, rfl, h5, ⟨f.serverApKeys, hin, ?_⟩, ⟨ko, hout, ?_⟩⟩
      · rw [lastOut_append_none _ h3, hl]
      · exact lastIn_append_some _ (h4.trans hout)

/-- A message of the server is delivered. -/
theorem Stage.toClient (hP : E.P.Sized) {x0 y y' : Ctx} {scfg : Config} {w : CWaitSH} (hx0 : x0.datagram = d) {c0 c : Coins}
    (h0 : GoodCoins now c0) (hc : GoodCoins now c) {es fs : List (Event × Coins)} (S : Stage E d now y scfg w x0 es fs) {s : SState}
    {acts : List Action} {m : Msg} (hrun : serverRun E y scfg fs = .ok (s, acts, y')) (hm : (sent acts)[es.length]? = some m) :
    Stage E d now y scfg w x0 (es ++ [(.msg (arrived d m), c)]) fs := by
  cases S with
  | hello =>
    rw [serverRun, SState.run, Res.ok.injEq, Prod.mk.injEq, Prod.mk.injEq] at hrun
    obtain ⟨_, rfl, _⟩ := hrun
    simp [sent] at hm
  | flight f acts ms ms' hy M hr hrun' hs hl ha hf hne ho =>
    rw [hrun', Res.ok.injEq, Prod.mk.injEq, Prod.mk.injEq] at hrun
    obtain ⟨_, rfl, _⟩ := hrun
    rw [hs, hf, over_length ho] at hm
    obtain ⟨rest, rfl⟩ := next_msg hm
    have ho' := over_concat ho (over_single (d := d) (m := m) hc)
    by_cases hrest : rest = []
    · subst hrest
      obtain ⟨cc, cacts, x', hcw, _⟩ := client_whole hP M f hr hy hx0 (by rw [hf]; exact ho')
      exact .answer f acts cacts _ x' [] _ hy M hr hrun' hs hl ha (by rw [hf]; exact ho') hcw rfl ⟨rfl, by simp⟩
    · exact .flight f acts (ms ++ [m]) rest hy M hr hrun' hs hl ha (by rw [hf]; simp) hrest ho'
  | answer f acts cacts cc x' ms ms' hy M hr hrun' hs hl ha ho hcr hsc hg =>
    exfalso
    obtain ⟨k, cacts', x'', hcw, _, _, _, _, hsrv⟩ := client_whole hP M f hr hy hx0 ho
    rw [hcr, Res.ok.injEq, Prod.mk.injEq, Prod.mk.injEq] at hcw
    obtain ⟨rfl, rfl, rfl⟩ := hcw
    obtain ⟨s', sacts, y'', h1, h2⟩ := server_part f h0 hrun' hs (fun gs hgs => by
      obtain ⟨sc, sacts, z', h1, h2, _⟩ := hsrv gs hgs
      exact ⟨sc, sacts, z', h1, h2⟩) hsc hg
    rw [h1, Res.ok.injEq, Prod.mk.injEq, Prod.mk.injEq] at hrun
    obtain ⟨_, rfl, _⟩ := hrun
    rw [h2, over_length ho, List.getElem?_eq_none (Nat.le_refl _)] at hm
    cases hm

/-- A message of the client is delivered; `hans` says that the server negotiates something from its hello. -/
theorem Stage.toServer (hP : E.P.Sized) {x0 x' y : Ctx} {scfg : Config} {w : CWaitSH} (hx0 : x0.datagram = d) {c0 c : Coins}
    (h0 : GoodCoins now c0) (hc : GoodCoins now c) (hans : ∃ n y1, y1.datagram = d ∧
      SStart.next E y c ⟨scfg⟩ (arrived d w.clientHello) = .ok (.negotiated n, y1) ∧ Matched E d now w n)
    {es fs : List (Event × Coins)} (S : Stage E d now y scfg w x0 es fs) {s : CState}
    {acts : List Action} {m : Msg} (hrun : CState.run E x0 (.waitSH w) es = .ok (s, acts, x'))
    (hm : (w.clientHello :: sent acts)[fs.length]? = some m) :
    Stage E d now y scfg w x0 es (fs ++ [(.msg (arrived d m), c)]) := by
  cases S with
  | hello =>
    simp only [List.length_nil, List.getElem?_cons_zero, Option.some.injEq] at hm
    subst hm
    obtain ⟨n, y1, hy1, hn, M⟩ := hans
    obtain ⟨f, acts, hr, hrun', hs, hl, ha⟩ := server_flight hP hn M hc
    exact .flight f acts [] _ hy1 M hr hrun' hs hl ha rfl (by rw [← List.length_pos_iff]; exact f.flight_length.1) ⟨rfl, by simp⟩
  | flight f acts ms ms' hy M hr hrun' hs hl ha hf hne ho =>
    obtain ⟨s', cacts, x', h, he⟩ := client_part M f hr hy hx0 h0 hf hne ho
    rw [h, Res.ok.injEq, Prod.mk.injEq, Prod.mk.injEq] at hrun
    obtain ⟨_, rfl, _⟩ := hrun
    rw [he] at hm
    simp at hm
  | answer f acts cacts cc x' ms ms' hy M hr hrun' hs hl ha ho hcr hsc hg =>
    rw [hcr, Res.ok.injEq, Prod.mk.injEq, Prod.mk.injEq] at hrun
    obtain ⟨rfl, rfl, rfl⟩ := hrun
    rw [List.length_cons, List.getElem?_cons_succ, hsc, over_length hg] at hm
    obtain ⟨rest, rfl⟩ := next_msg hm
    exact .answer f acts cacts _ _ (ms ++ [m]) rest hy M hr hrun' hs hl ha ho hcr (by rw [hsc]; simp)
      (over_concat hg (over_single (d := d) (m := m) hc))

/-- Executions in which everything is delivered go through these stages. -/
theorem Delivery.stage (hP : E.P.Sized) {ccfg scfg : Config} (C : Compatible E now ccfg scfg) {x x0 y : Ctx} {c0 : Coins} {w : CWaitSH}
    {acts0 : List Action} (hw : ({ cfg := ccfg } : CStart).next E x c0 = .ok (w, acts0, x0)) (hs0 : sent acts0 = [w.clientHello])
    (hx : x.datagram = d) (hy : y.datagram = d) (h0 : GoodCoins now c0) {es fs : List (Event × Coins)}
    (h : Delivery E x y ccfg scfg c0 now es fs) : Stage E d now y scfg w x0 es fs := by
  have hx0 : x0.datagram = d := (CStart.next_datagram hw).trans hx
  induction h with
  | start => exact .hello
  | toClient c s acts y' m _ hrun hm hc ih =>
    rw [hx]
    exact ih.toClient hP hx0 h0 hc hrun hm
  | toServer c s acts x' m _ hrun hm hc ih =>
    rw [hx]
    simp only [clientRun, hw, Res.bind_ok, Res.bind_eq_ok, Res.ok.injEq, Prod.mk.injEq] at hrun
    obtain ⟨⟨c1, cacts1, x1⟩, hrun, _, rfl, _⟩ := hrun
    rw [sent_append, hs0] at hm
    obtain ⟨n, hn, M⟩ := server_start hP C (y := y) (c := c) hw hx hy h0.2 hc.2
    exact ih.toServer hP hx0 h0 hc ⟨n, y, hy, hn, M⟩ hrun hm

end Verif.Machine
