import Verif.Machine.Deliver

/-
Compatible ends: what one writes, messages and changes of keys in order, is what the other reads.
-/

namespace Verif.Machine

open Verif Verif.Crypto Verif.Messages Verif.Negotiation Verif.Handshake Verif.Spec

variable {E : Env} {d : Bool} {now : Int → Prop}

/-- The reader has read everything, and perhaps changed keys before the writer; or the next thing to read is a message. -/
def Ahead (I T : List Sym) : Prop := I <+: T ∨ ∃ m more, I = T ++ .msg m :: more

/-- What a client writes first. -/
theorem client_hello_outs (hP : E.P.Sized) {ccfg : Config} {x x' : Ctx} {c0 : Coins} {w : CWaitSH} {acts : List Action}
    (h : ({ cfg := ccfg } : CStart).next E x c0 = .ok (w, acts, x')) (hx : x.datagram = d) :
    ∃ keys, outs d acts = .msg (arrived d w.clientHello) ::
        (if w.params.clientSendingEarlyData then [.key epochEarlyData keys] else []) ∧ ins acts = [] ∧
      (∀ a ∈ outs d acts, a.good d) ∧
      (w.params.clientSendingEarlyData = true → ∃ k p, w.cfg.psks w.cfg.serverName = some k ∧ suiteParams k.suite = some p ∧
        ∀ y : Ctx, y.datagram = d → keys = trafficKeys E.P p.hash p.keyLen p.ivLen
          (clientEarlyTraffic E.P p.hash w.earlySecret (y.bytes w.clientHello))) := by
  obtain ⟨shares, random, exts, _, _, _, ⟨psk, o, hpsk, ho, rfl, rfl, rfl⟩ | ⟨_, hello, hm, rfl, rfl⟩⟩ := CStart.next_ok h
  · dsimp only at hpsk ho ⊢
    simp only [Option.isNone_none, Bool.and_true] at ho ⊢
    obtain ⟨p, _, _, _, _, _, _, et, hp, _, _, _, _, _, _, _, hmk, _, _, het, hk⟩ := offerPsk_ok ho
    refine ⟨o.keys, ?_, ?_, ?_, ?_⟩
    · cases ccfg.allowEarlyData <;> rfl
    · cases ccfg.allowEarlyData <;> rfl
    · intro a ha
      have : a = .msg (arrived d o.hello) ∨ a = .key epochEarlyData o.keys := by
        cases hc : ccfg.allowEarlyData <;> simp [hc, outs] at ha <;> simp [ha]
      rcases this with rfl | rfl
      · exact good_made d hmk
      · exact good_keys hP d hp hk (by decide)
    · intro _
      refine ⟨psk, p, hpsk, hp, fun y hy => ?_⟩
      rw [earlyTraffic_eq E.P hP _ (suiteParams_size hp), Res.ok.injEq] at het
      rw [makeTrafficKeys_eq E.P hP _ (suiteParams_size hp), Res.ok.injEq] at hk
      rw [← hk, ← het, bytes_congr (hx.trans hy.symm)]
  · refine ⟨([], []), rfl, rfl, ?_, ?_⟩
    · intro a ha
      simp only [outs, List.mem_cons, List.not_mem_nil, or_false] at ha
      rw [ha]; exact good_made d hm
    · intro h; cases h

/-- What a server writes. -/
theorem NegFacts.outs_eq {y : Ctx} {c : Coins} {n : SNegotiated} (f : NegFacts E y c n) {acts : List Action} (h : f.Acts acts) :
    outs d acts = [.msg (arrived d f.sh), .key epochHandshake f.serverKeys, .msg (arrived d f.ee)] ++ letters d (Spec.sent f.acts) ++
      [.msg (arrived d f.fin), .key epochApplication f.serverApKeys] ∧
    ((n.params.usingEarlyData = true ∧ ∃ keys, makeTrafficKeys E.P f.p n.earlyTraffic = .ok keys ∧
        ins acts = [.key epochEarlyData keys]) ∨
      (n.params.usingEarlyData = false ∧ ins acts = [.key epochHandshake f.clientKeys])) := by
  have hauth : outs d f.acts = letters d (Spec.sent f.acts) ∧ ins f.acts = [] := by
    rcases serverAuth_ok f.authOk with ⟨_, h, _⟩ | ⟨_, acts1, t1, x1, cert, m, x2, cv, mv, hr, _, _, _, _, h, _⟩
    · rw [h]; exact ⟨rfl, rfl⟩
    · rw [h]
      rcases serverRequest_ok hr with ⟨_, rfl, _⟩ | ⟨_, exts, m, _, _, rfl, _⟩ <;> exact ⟨rfl, rfl⟩
  have hin : ins f.sent = [] := by simp [NegFacts.sent, hauth.2, ins]
  have hout : ∀ a : Nat × Keys, outs d (f.sent ++ [.rekeyIn a.1 a.2]) = [.msg (arrived d f.sh), .key epochHandshake f.serverKeys, .msg (arrived d f.ee)] ++
      letters d (Spec.sent f.acts) ++ [.msg (arrived d f.fin), .key epochApplication f.serverApKeys] := by
    intro a; simp [NegFacts.sent, hauth.1, outs]
  rcases h with ⟨h, keys, hk, rfl⟩ | ⟨h, rfl⟩
  · exact ⟨hout (_, _), .inl ⟨h, keys, hk, by rw [ins_append, hin]; rfl⟩⟩
  · exact ⟨hout (_, _), .inr ⟨h, by rw [ins_append, hin]; rfl⟩⟩

theorem NegFacts.outs_good (hP : E.P.Sized) {y : Ctx} {c : Coins} {n : SNegotiated} (f : NegFacts E y c n) {acts : List Action}
    (h : f.Acts acts) : (∀ a ∈ outs d acts, a.good d) ∧ (∀ a ∈ ins acts, a.good d) ∧ (outs d acts).length ≤ 8 := by
  obtain ⟨h1, h2⟩ := f.outs_eq (d := d) h
  refine ⟨?_, ?_, ?_⟩
  · rw [h1]
    have hl : ∀ a ∈ letters d (Spec.sent f.acts), a.good d := by
      rcases serverAuth_ok f.authOk with ⟨_, h, _⟩ | ⟨_, acts1, t1, x1, cert, m, x2, cv, mv, hr, _, hm, _, hmv, h, _⟩
      · rw [h]; simp [letters, Spec.sent]
      · rw [h]
        intro a ha
        rw [sent_append, letters, List.map_append, List.mem_append] at ha
        rcases ha with ha | ha
        · rcases serverRequest_ok hr with ⟨_, rfl, _⟩ | ⟨_, exts, m', _, hm', rfl, _⟩
          · simp [Spec.sent] at ha
          · have : a = .msg (arrived d m') := by simpa [Spec.sent] using ha
            rw [this]; exact good_made d hm'
        · have : a = .msg (arrived d m) ∨ a = .msg (arrived d mv) := by simpa [Spec.sent] using ha
          rcases this with rfl | rfl
          · exact good_made d hm
          · exact good_made d hmv
    intro a ha
    simp only [List.mem_append, List.mem_cons, List.not_mem_nil, or_false] at ha
    rcases ha with ((rfl | rfl | rfl) | ha) | rfl | rfl
    · exact good_made d f.shOk
    · exact good_keys hP d f.suiteOk f.serverKeysOk (by decide)
    · exact good_made d f.eeOk
    · exact hl a ha
    · exact good_made d f.finOk
    · exact good_keys hP d f.suiteOk f.apKeysOk (by decide)
  · rcases h2 with ⟨_, keys, hk, h2⟩ | ⟨_, h2⟩ <;> rw [h2] <;> intro a ha <;> rw [List.mem_singleton.1 ha]
    · exact good_keys hP d f.suiteOk hk (by decide)
    · exact good_keys hP d f.suiteOk f.clientKeysOk (by decide)
  · have := f.flight_length
    simp only [NegFacts.flight, List.length_append, List.length_cons, List.length_nil] at this
    rw [h1]
    simp only [List.length_append, List.length_cons, List.length_nil, letters, List.length_map]
    omega

/-- A client that has read the flight, and the server that reads its answer: what is read is what was written. -/
theorem client_whole_heard (hP : E.P.Sized) {w : CWaitSH} {y x0 : Ctx} {c : Coins} {n : SNegotiated} (M : Matched E d now w n)
    (f : NegFacts E y c n) (hr : f.random.1 ≠ hrrRandom) (hy : y.datagram = d) (hx : x0.datagram = d) {sacts : List Action}
    (hsa : f.Acts sacts) {es : List (Event × Coins)} (ho : Over d now f.flight es) :
    ∃ cc acts x' tail, CState.run E x0 (.waitSH w) es = .ok (.connected cc, acts, x') ∧
      CState.heard E x0 (.waitSH w) es = outs d sacts ∧
      outs d acts = (if !n.params.clientSendingEarlyData then [.key epochHandshake f.clientKeys] else []) ++ tail ∧
      (∀ a ∈ tail, a.good d) ∧ tail.length ≤ 6 ∧
      ∀ gs, Over d now (sent acts) gs → ∃ sc sacts' z',
        SState.run E f.x4 f.wait.begin gs = .ok (.connected sc, sacts', z') ∧ outs d sacts' = [] ∧
        SState.heard E f.x4 f.wait.begin gs = tail ∧ SameConnection cc sc ∧
        ∀ gs1 gs2 s1 a1 z1, gs = gs1 ++ gs2 → gs2 ≠ [] → SState.run E f.x4 f.wait.begin gs1 ≠ .ok (.connected s1, a1, z1) := by
  obtain ⟨es1, es2, rfl, ho1, ho2⟩ := over_append ho
  obtain ⟨c2, es2, rfl, _, ho2⟩ := over_cons ho2
  have := over_nil ho2
  subst this
  obtain ⟨wf, acts1, hrun, hsent, R, hout1, hheard1⟩ := client_flight_heard M f hr hy hx ho1
  obtain ⟨cc, acts, x', hnext, _, _, _, _, _, hins, hgood, hlen, hserver⟩ := client_done_heard hP M f R hy hx
  have hstep : CState.run E x0 (.waitFinished wf) [(.msg (arrived d f.fin), c2)] = .ok (.connected cc, acts, x') := by
    simp only [CState.run, CState.step, hnext, Res.bind_ok, List.append_nil]
  have hs : sent (acts1 ++ acts) = sent acts := by rw [sent_append, hsent, List.nil_append]
  refine ⟨cc, _, x', outs d acts, CState.run_then hrun hstep, ?_, by rw [outs_append, hout1], hgood, hlen, ?_⟩
  · rw [CState.heard_append hrun, hheard1, CState.heard_cons (CState.step_waitFinished hnext) rfl, hins, (f.outs_eq hsa).1]
    simp [got, CState.heard]
  · intro gs hg
    rw [hs] at hg
    obtain ⟨sc, sacts', z', h1, _, _, _, h5, h6, h7, h8⟩ := hserver f.x4 (f.datagram.2.2.2.trans hy) gs hg
    exact ⟨sc, sacts', z', h1, h6, h7, h5, h8⟩

/-- What is still to be read begins with a message. -/
theorem CState.heard_msg {x x' : Ctx} {s s' : CState} {ms : List Msg} {es : List (Event × Coins)} {acts : List Action}
    (ho : Over d now ms es) (h : s.run E x es = .ok (s', acts, x')) (hne : ms ≠ []) :
    ∃ m more, s.heard E x es = .msg m :: more := by
  cases ms with
  | nil => exact absurd rfl hne
  | cons m ms =>
    obtain ⟨c, es, rfl, _, _⟩ := over_cons ho
    simp only [CState.run, Res.bind_eq_ok] at h
    obtain ⟨⟨s1, a1, x1⟩, h1, _⟩ := h
    exact ⟨_, _, CState.heard_cons h1 rfl⟩

theorem SState.heard_msg {x x' : Ctx} {s s' : SState} {ms : List Msg} {es : List (Event × Coins)} {acts : List Action}
    (ho : Over d now ms es) (h : s.run E x es = .ok (s', acts, x')) (hne : ms ≠ []) :
    ∃ m more, s.heard E x es = .msg m :: more := by
  cases ms with
  | nil => exact absurd rfl hne
  | cons m ms =>
    obtain ⟨c, es, rfl, _, _⟩ := over_cons ho
    simp only [SState.run, Res.bind_eq_ok] at h
    obtain ⟨⟨s1, a1, x1⟩, h1, _⟩ := h
    exact ⟨_, _, SState.heard_cons h1 rfl⟩

/-- Where two compatible ends are, and what lies between them. -/
structure Aligned (E : Env) (d : Bool) (x0 y : Ctx) (scfg : Config) (w : CWaitSH) (acts0 : List Action)
    (es fs : List (Event × Coins)) (c : CState) (cacts : List Action) (x' : Ctx) (s : SState) (sacts : List Action) (y' : Ctx) : Prop where
  client : CState.run E x0 (.waitSH w) es = .ok (c, cacts, x')
  server : serverRun E y scfg fs = .ok (s, sacts, y')
  toClient : Ahead (outs d sacts) (CState.heard E x0 (.waitSH w) es)
  toServer : Ahead (outs d (acts0 ++ cacts)) (SState.heard E y (.start ⟨scfg⟩) fs)
  goodClient : ∀ a ∈ outs d (acts0 ++ cacts), a.good d
  goodServer : ∀ a ∈ outs d sacts, a.good d
  goodKeys : ∀ a ∈ SState.heard E y (.start ⟨scfg⟩) fs, a.good d
  goodKeys' : ∀ a ∈ CState.heard E x0 (.waitSH w) es, a.good d
  lengths : (outs d (acts0 ++ cacts)).length ≤ 12 ∧ (outs d sacts).length ≤ 12
  clientDone : ∀ cc, c = .connected cc → outs d sacts <+: CState.heard E x0 (.waitSH w) es
  serverDone : ∀ sc, s = .connected sc → outs d (acts0 ++ cacts) <+: SState.heard E y (.start ⟨scfg⟩) fs
  progress : (∃ m more, outs d sacts = CState.heard E x0 (.waitSH w) es ++ .msg m :: more) ∨
    (∃ m more, outs d (acts0 ++ cacts) = SState.heard E y (.start ⟨scfg⟩) fs ++ .msg m :: more) ∨
    (outs d sacts = CState.heard E x0 (.waitSH w) es ∧ outs d (acts0 ++ cacts) = SState.heard E y (.start ⟨scfg⟩) fs ∧
      ∃ cc sc, c = .connected cc ∧ s = .connected sc ∧ SameConnection cc sc)

/-- The hello and the keys after it. -/
theorem hello_match (hP : E.P.Sized) {ccfg : Config} {x x0 : Ctx} {c0 : Coins} {w : CWaitSH} {acts0 : List Action}
    (hw : ({ cfg := ccfg } : CStart).next E x c0 = .ok (w, acts0, x0)) (hx : x.datagram = d) {y : Ctx} {c : Coins} {n : SNegotiated}
    (M : Matched E d now w n) (f : NegFacts E y c n) {sacts : List Action} (hsa : f.Acts sacts) :
    outs d acts0 ++ (if !n.params.clientSendingEarlyData then [.key epochHandshake f.clientKeys] else []) =
      .msg (arrived d w.clientHello) :: ins sacts := by
  obtain ⟨keys, h1, _, _, h2⟩ := client_hello_outs hP hw hx
  have hp : w.params.clientSendingEarlyData = n.params.usingEarlyData := by rw [M.clientParams, M.early]
  rw [h1, ← M.early, hp]
  rcases (f.outs_eq (d := d) hsa).2 with ⟨hu, keys', hk, hi⟩ | ⟨hu, hi⟩
  · rw [hi]
    obtain ⟨k, p, hk1, hk2, hk3⟩ := h2 (by rw [hp, hu])
    obtain ⟨h3, h4⟩ := M.earlyKeys hu
    have h5 := h3 k hk1
    have hpp : p = f.p := by
      have := f.suiteOk
      rw [← h5, hk2, Option.some.injEq] at this
      exact this
    subst hpp
    rw [makeTrafficKeys_eq E.P hP _ (suiteParams_size hk2), Res.ok.injEq] at hk
    have : keys = keys' := by rw [← hk, h4 _ f.suiteOk ⟨d, 0, []⟩ rfl]; exact hk3 ⟨d, 0, []⟩ rfl
    rw [hu, this]
    rfl
  · rw [hi, hu]
    rfl

theorem over_front {ms ms' : List Msg} {l : List Msg} {z : Msg} (h : ms ++ ms' = l ++ [z]) (hne : ms' ≠ []) :
    l = ms ++ ms'.dropLast ∧ ms' = ms'.dropLast ++ [z] := by
  have hms : ms' = ms'.dropLast ++ [ms'.getLast hne] := (List.dropLast_concat_getLast hne).symm
  rw [hms, ← List.append_assoc] at h
  have := List.append_inj' h rfl
  refine ⟨this.1.symm, ?_⟩
  have h2 := this.2
  simp only [List.cons.injEq, and_true] at h2
  rw [← h2]
  exact hms

theorem Stage.aligned (hP : E.P.Sized) {ccfg scfg : Config} {x x0 y : Ctx} {c0 : Coins} {w : CWaitSH} {acts0 : List Action}
    (hw : ({ cfg := ccfg } : CStart).next E x c0 = .ok (w, acts0, x0)) (hx : x.datagram = d)
    (h0 : GoodCoins now c0) {es fs : List (Event × Coins)} (S : Stage E d now y scfg w x0 es fs) :
    ∃ c cacts x' s sacts y', Aligned E d x0 y scfg w acts0 es fs c cacts x' s sacts y' := by
  have hx0 : x0.datagram = d := (CStart.next_datagram hw).trans hx
  obtain ⟨keys, hout0, _, hgood0, _⟩ := client_hello_outs hP hw hx
  have hlen0 : (outs d acts0).length ≤ 2 := by rw [hout0]; split <;> simp
  match S with
  | .hello =>
    refine ⟨_, _, _, _, _, _, rfl, rfl, .inl (List.prefix_refl _), .inr ?_, ?_, ?_, ?_, ?_, ?_, ?_, ?_, .inr (.inl ?_)⟩
    · rw [List.append_nil, hout0]; exact ⟨_, _, rfl⟩
    · rw [List.append_nil]; exact hgood0
    · simp [outs]
    · simp [SState.heard]
    · simp [CState.heard]
    · rw [List.append_nil]; exact ⟨by omega, by simp [outs]⟩
    · intro cc h; cases h
    · intro sc h; cases h
    · rw [List.append_nil, hout0]; exact ⟨_, _, rfl⟩
  | .flight (c := c) (n := n) f acts ms ms' hy M hr hrun hs hl ha hf hne ho =>
    have hmatch := hello_match hP hw hx M f ha
    obtain ⟨h1, h2⟩ := over_front hf.symm hne
    obtain ⟨es', ho'⟩ := over_exists (d := d) h0 ms'.dropLast
    obtain ⟨wf, a, hrunc, _, _, hout, hheard⟩ := client_flight_heard M f hr hy hx0 (by rw [h1]; exact over_concat ho ho')
    obtain ⟨hfo, _⟩ := f.outs_eq (d := d) ha
    obtain ⟨hfg, hfg', hflen⟩ := f.outs_good (d := d) hP ha
    rw [CState.run_append] at hrunc
    simp only [Res.bind_eq_ok, Res.ok.injEq, Prod.mk.injEq] at hrunc
    obtain ⟨⟨s1, a1, x1⟩, hrun1, ⟨s2, a2, x2⟩, hrun2, rfl, rfl, hx2⟩ := hrunc
    rw [CState.heard_append hrun1] at hheard
    have hnext : ∃ m more, outs d acts = CState.heard E x0 (.waitSH w) es ++ .msg m :: more := by
      rw [hfo, ← hheard, List.append_assoc]
      by_cases hd : ms'.dropLast = []
      · rw [hd] at ho'
        have := over_nil ho'
        subst this
        exact ⟨_, _, rfl⟩
      · obtain ⟨m, more, hm⟩ := CState.heard_msg ho' hrun2 hd
        dsimp only at hm ⊢
        rw [hm]
        exact ⟨_, _, rfl⟩
    have hTs : SState.heard E y (.start ⟨scfg⟩) [(.msg (arrived d w.clientHello), c)] = .msg (arrived d w.clientHello) :: ins acts := by
      rw [serverRun] at hrun
      simp only [SState.run, Res.bind_eq_ok, Res.ok.injEq, Prod.mk.injEq] at hrun
      obtain ⟨⟨s3, a3, y3⟩, h3, _, rfl, _, h4, _⟩ := hrun
      rw [SState.heard_cons h3 rfl, ← h4]
      simp [got, SState.heard]
    have hpre : outs d (acts0 ++ a1) <+: SState.heard E y (.start ⟨scfg⟩) [(.msg (arrived d w.clientHello), c)] := by
      rw [hTs, ← hmatch, ← hout, outs_append, outs_append, ← List.append_assoc]
      exact List.prefix_append _ _
    have hgoodT : ∀ a ∈ SState.heard E y (.start ⟨scfg⟩) [(.msg (arrived d w.clientHello), c)], a.good d := by
      rw [hTs]
      intro a ha
      rcases List.mem_cons.1 ha with rfl | ha
      · exact hgood0 _ (by rw [hout0]; simp)
      · exact hfg' a ha
    refine ⟨_, _, _, _, _, _, hrun1, hrun, .inr hnext, .inl hpre, ?_, hfg, hgoodT, ?_, ⟨?_, by omega⟩, ?_, fun _ _ => hpre, .inl hnext⟩
    · intro a ha
      exact hgoodT a (hpre.subset ha)
    · obtain ⟨m, more, hm⟩ := hnext
      intro a ha
      exact hfg a (by rw [hm]; exact List.mem_append_left _ ha)
    · have := hpre.length_le
      rw [hTs, ← hmatch, List.length_append] at this
      have h6 : (if !n.params.clientSendingEarlyData then [Sym.key epochHandshake f.clientKeys] else []).length ≤ 1 := by
        split <;> simp
      omega
    · intro cc hcc
      rw [hcc] at hrun2
      obtain ⟨_, h3⟩ := CState.connected_stays hrun2
      cases h3
  | .answer (gs := gs) (c := c) f acts cacts cc x' ms ms' hy M hr hrun hs hl ha ho hc hsc hg =>
    have hmatch := hello_match hP hw hx M f ha
    obtain ⟨hfg, hfg', hflen⟩ := f.outs_good (d := d) hP ha
    obtain ⟨k, cacts', x'', tail, hcw, hTc, hout, htg, htl, hsrv⟩ := client_whole_heard hP M f hr hy hx0 ha ho
    rw [hc, Res.ok.injEq, Prod.mk.injEq, Prod.mk.injEq] at hcw
    obtain ⟨rfl, rfl, rfl⟩ := hcw
    obtain ⟨gs', hg'⟩ := over_exists (d := d) h0 ms'
    obtain ⟨sc, sacts, z', h1, h2, h3, h4, h5⟩ := hsrv (gs ++ gs') (by rw [hsc]; exact over_concat hg hg')
    have h1' := h1
    rw [SState.run_append] at h1'
    simp only [Res.bind_eq_ok, Res.ok.injEq, Prod.mk.injEq] at h1'
    obtain ⟨⟨s1, a1, z1⟩, hrun1, ⟨s2, a2, z2⟩, hrun2, rfl, rfl, rfl⟩ := h1'
    rw [SState.heard_append hrun1] at h3
    dsimp only at h3 hrun2 h2
    have hrun' := SState.run_then (es' := gs) hrun hrun1
    have ha1 : outs d a1 = [] := by
      rw [outs_append] at h2
      exact (List.append_eq_nil_iff.1 h2).1
    have hTs : SState.heard E y (.start ⟨scfg⟩) ((.msg (arrived d w.clientHello), c) :: gs) =
        .msg (arrived d w.clientHello) :: ins acts ++ SState.heard E f.x4 f.wait.begin gs := by
      have hrun0 := hrun
      rw [serverRun] at hrun0
      simp only [SState.run, Res.bind_eq_ok, Res.ok.injEq, Prod.mk.injEq] at hrun0
      obtain ⟨⟨s3, a3, y3⟩, h6, ⟨s4, a4, y4⟩, ⟨rfl, rfl, rfl⟩, h8, h9, h10⟩ := hrun0
      dsimp only at h8 h9 h10
      rw [SState.heard_cons h6 rfl, ← h9, ← h8, ← h10]
      simp [got]
    have hIc : outs d (acts0 ++ cacts) = SState.heard E y (.start ⟨scfg⟩) ((.msg (arrived d w.clientHello), c) :: gs) ++
        SState.heard E z1 s1 gs' := by
      rw [hTs, outs_append, hout, ← List.append_assoc, hmatch, List.append_assoc (_ :: _), h3]
    have hIs : outs d (acts ++ a1) = CState.heard E x0 (.waitSH w) es := by rw [outs_append, ha1, List.append_nil, hTc]
    have hgc : ∀ a ∈ outs d (acts0 ++ cacts), a.good d := by
      rw [outs_append, hout, ← List.append_assoc, hmatch]
      intro a hm
      rcases List.mem_append.1 hm with hm | hm
      · rcases List.mem_cons.1 hm with rfl | hm
        · exact hgood0 _ (by rw [hout0]; simp)
        · exact hfg' a hm
      · exact htg a hm
    have hgs : ∀ a ∈ outs d (acts ++ a1), a.good d := by rw [outs_append, ha1, List.append_nil]; exact hfg
    have hlc : (outs d (acts0 ++ cacts)).length ≤ 12 := by
      rw [outs_append, hout, List.length_append, List.length_append]
      split <;> simp <;> omega
    have hls : (outs d (acts ++ a1)).length ≤ 12 := by rw [outs_append, ha1, List.append_nil]; omega
    by_cases hd : ms' = []
    · subst hd
      have := over_nil hg'
      subst this
      rw [SState.heard, List.append_nil] at hIc
      rw [SState.run, Res.ok.injEq, Prod.mk.injEq, Prod.mk.injEq] at hrun2
      obtain ⟨rfl, _, _⟩ := hrun2
      exact ⟨_, _, _, _, _, _, hc, hrun', .inl (by rw [hIs]; exact List.prefix_refl _), .inl (by rw [← hIc]; exact List.prefix_refl _), hgc, hgs, by rw [← hIc]; exact hgc,
        by rw [← hIs]; exact hgs, ⟨hlc, hls⟩, fun _ _ => by rw [hIs]; exact List.prefix_refl _, fun _ _ => by rw [← hIc]; exact List.prefix_refl _,
        .inr (.inr ⟨hIs, hIc, _, _, rfl, rfl, h4⟩)⟩
    · obtain ⟨m, more, hm⟩ := SState.heard_msg hg' hrun2 hd
      rw [hm] at hIc
      refine ⟨_, _, _, _, _, _, hc, hrun', .inl (by rw [hIs]; exact List.prefix_refl _), .inr ⟨_, _, hIc⟩, hgc, hgs, ?_,
        by rw [← hIs]; exact hgs, ⟨hlc, hls⟩, fun _ _ => by rw [hIs]; exact List.prefix_refl _, ?_, .inr (.inl ⟨_, _, hIc⟩)⟩
      · intro a ha'
        exact hgc a (by rw [hIc]; exact List.mem_append_left _ ha')
      · intro sc' hsc'
        exfalso
        subst hsc'
        refine h5 gs gs' _ _ _ rfl ?_ hrun1
        rintro rfl
        have := over_length hg'
        exact hd (List.length_eq_zero_iff.1 this.symm)

end Verif.Machine
