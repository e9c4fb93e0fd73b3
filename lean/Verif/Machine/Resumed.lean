import Verif.Machine.Deliver

/-
What a server that was reached by a compatible client has settled with it.
-/

namespace Verif.Machine

open Verif Verif.Crypto Verif.Messages Verif.Negotiation Verif.Handshake Verif.Spec

variable {E : Env}

theorem settle_start {s : SState} {t : SStart} (h : s.settle = .start t) : s = .start t := by
  cases s <;> first | exact h | skip
  rename_i s
  rcases settle_wait s with ⟨_, h1⟩ | ⟨_, h1⟩ <;> rw [h1] at h <;> cases h

/-- A server does not get back to its first state. -/
theorem step_start {x x' : Ctx} {c : Coins} {s : SState} {t : SStart} {e : Event} {acts : List Action}
    (h : s.step E x c e = .ok (.start t, acts, x')) : ∃ u, s = .start u := by
  generalize hs : SState.start t = s' at h
  cases SState.step_ok h with
  | skip => cases hs
  | early => cases hs
  | retry => exact ⟨_, rfl⟩
  | hello => exact ⟨_, rfl⟩
  | eoed _ _ s1 _ _ next =>
    have h1 := settle_start hs.symm
    subst h1
    obtain ⟨_, _, _, _, _, h2, _⟩ := SWait.nextEOED_ok next
    cases h2
  | cert _ _ _ _ _ next =>
    obtain ⟨_, _, _, _, _, h2⟩ := SWait.nextCert_ok next
    rw [← hs] at h2
    simp at h2
  | cv _ _ _ _ _ next =>
    obtain ⟨_, _, _, _, _, _, _, _, _, h2⟩ := SWaitCV.next_ok next
    rw [← hs] at h2
    cases h2
  | finished _ _ _ _ _ next =>
    obtain ⟨_, _, _, _, _, _, _, _, _, _, _, h2, _⟩ := SWaitFinished.next_ok next
    rw [← hs] at h2
    cases h2
  | post => cases hs
  | data => cases hs

theorem run_start : ∀ {es : List (Event × Coins)} {x x' : Ctx} {s : SState} {t : SStart} {acts : List Action},
    s.run E x es = .ok (.start t, acts, x') → ∃ u, s = .start u
  | [], _, _, s, t, _, h => by
    simp only [SState.run, Res.ok.injEq, Prod.mk.injEq] at h
    exact ⟨t, h.1⟩
  | (e, c) :: es, x, x', s, t, acts, h => by
    simp only [SState.run, Res.bind_eq_ok, Res.ok.injEq, Prod.mk.injEq] at h
    obtain ⟨⟨s1, a1, x1⟩, h1, ⟨s2, a2, x2⟩, h2, rfl, rfl, rfl⟩ := h
    obtain ⟨u, rfl⟩ := run_start h2
    exact step_start h1

/-- The first message a server reads is the hello. -/
theorem first_read {now : Int → Prop} {ccfg scfg : Config} {x x0 y : Ctx} {c0 : Coins} {w : CWaitSH} {acts0 : List Action}
    (hw : ({ cfg := ccfg } : CStart).next E x c0 = .ok (w, acts0, x0)) (hs0 : sent acts0 = [w.clientHello])
    {es fs : List (Event × Coins)} (h : Delivery E x y ccfg scfg c0 now es fs) :
    fs = [] ∨ ∃ c gs, fs = (.msg (arrived x.datagram w.clientHello), c) :: gs ∧ GoodCoins now c := by
  induction h with
  | start => exact .inl rfl
  | toClient _ _ _ _ _ _ _ _ _ ih => exact ih
  | toServer c s acts x' m _ hrun hm hc ih =>
    rcases ih with rfl | ⟨c', gs, rfl, hc'⟩
    · simp only [clientRun, hw, Res.bind_ok, Res.bind_eq_ok, Res.ok.injEq, Prod.mk.injEq] at hrun
      obtain ⟨⟨c1, cacts1, x1⟩, _, _, rfl, _⟩ := hrun
      rw [sent_append, hs0] at hm
      simp only [List.length_nil, List.singleton_append, List.getElem?_cons_zero, Option.some.injEq] at hm
      subst hm
      exact .inr ⟨c, [], rfl, hc⟩
    · exact .inr ⟨c', gs ++ [(.msg (arrived x.datagram m), c)], rfl, hc'⟩

/-- What a connected server has settled: a protocol both sides have, or none; and if the two share a PSK, the session uses it,
with its suite and, if it is resumed, its protocol. -/
theorem server_settled (hP : E.P.Sized) {now : Int → Prop} {ccfg scfg : Config} (C : Compatible E now ccfg scfg)
    {x y y' : Ctx} (hd : y.datagram = x.datagram) {c0 : Coins} (h0 : GoodCoins now c0) {es fs : List (Event × Coins)}
    (h : Delivery E x y ccfg scfg c0 now es fs) {sc : Connected} {sacts : List Action}
    (hs : serverRun E y scfg fs = .ok (.connected sc, sacts, y')) :
    (sc.params.nextProto = [] ∨ (sc.params.nextProto ∈ ccfg.nextProtos ∧ sc.params.nextProto ∈ scfg.nextProtos)) ∧
    ∀ k k', SharePsk now ccfg scfg k k' → sc.params.usingPSK = true ∧ sc.params.suite.toNat = k.suite ∧
      (k.isResumption = true → sc.params.nextProto = if ccfg.nextProtos = [] then [] else k'.nextProto) := by
  obtain ⟨w, acts0, x0, hw, hx0, hs0⟩ := client_hello hP C x h0
  obtain ⟨es1, a1, x1, wf, auth, a, m, ce, s0, a2, post, a3, _, _, next, hes, _, run⟩ := serverKnows hs
  have hfirst := first_read hw hs0 h
  have he := a.after.es_eq
  -- no retry
  obtain ⟨c, gs, hfs, hc⟩ : ∃ c gs, fs = (.msg (arrived x.datagram w.clientHello), c) :: gs ∧ GoodCoins now c := by
    rcases hfirst with rfl | h
    · simp at hes
    · exact h
  obtain ⟨n, hn, M⟩ := server_start hP C (y := y) (c := c) hw rfl hd h0.2 hc.2
  have hncfg : n.cfg = scfg := start_cfg hn
  have hwcfg : w.cfg = ccfg := by
    obtain ⟨_, _, _, _, _, _, hcase⟩ := CStart.next_ok hw
    rcases hcase with ⟨k, o', _, _, rfl, _⟩ | ⟨_, hello, _, rfl, _⟩ <;> rfl
  have hes0 : a.after.es0 = [] := by
    cases h0 : a.after.es0 with
    | nil => rfl
    | cons e es' =>
      exfalso
      have hrun := a.after.run0
      rw [h0] at hrun
      have : e = (.msg (arrived x.datagram w.clientHello), c) := by
        rw [hes, he, h0] at hfs
        simp only [List.cons_append, List.append_assoc, List.cons.injEq] at hfs
        exact hfs.1
      subst this
      obtain ⟨f, acts, _, hrun', _⟩ := server_flight hP hn M hc
      rw [serverRun, ← List.singleton_append, SState.run_append] at hrun
      rw [serverRun] at hrun'
      rw [hrun'] at hrun
      simp only [Res.bind_ok, Res.bind_eq_ok, Res.ok.injEq, Prod.mk.injEq] at hrun
      obtain ⟨⟨s2, a2, x2⟩, h2, rfl, _⟩ := hrun
      obtain ⟨u, hu⟩ := run_start h2
      unfold SWait.begin SWait.nextFlight2 at hu
      split at hu
      · cases hu
      · split at hu <;> cases hu
  have hm : a.after.m = arrived x.datagram w.clientHello ∧ a.after.ce = c := by
    rw [hes, he, hes0] at hfs
    simp only [List.nil_append, List.cons_append, List.append_assoc, List.cons.injEq, Prod.mk.injEq, Event.msg.injEq] at hfs
    exact hfs.1
  have hx : a.after.x0 = y := by
    have hrun := a.after.run0
    rw [hes0, serverRun, SState.run, Res.ok.injEq, Prod.mk.injEq, Prod.mk.injEq] at hrun
    exact hrun.2.2.symm
  have hnext := a.after.next
  rw [hm.1, hm.2, hx, hn, Res.ok.injEq, Prod.mk.injEq] at hnext
  have hneq : n = a.after.n := by injection hnext.1
  obtain ⟨_, _, fin, expected, res, keys, _, _, _, _, _, hs0', _⟩ := SWaitFinished.next_ok next
  have hs0e := SState.connected.inj hs0'
  have hsz : 0 < s0.cp.hash.size := by
    rw [hs0e, a.sec_eq]
    exact suiteParams_size a.after.f.suiteOk
  have hsc := server_post hP hsz (by rw [hs0e]) run
  have hp : sc.params = a.after.f.wait.params := by rw [hsc, hs0e]; exact a.params_eq
  have hproto : sc.params.nextProto = n.params.nextProto := by rw [hp, hneq]; rfl
  have hpsk : sc.params.usingPSK = n.params.usingPSK := by rw [hp, hneq]; rfl
  have hsuite : sc.params.suite = n.params.suite := by rw [hp, hneq]; rfl
  rw [hproto, hpsk, hsuite]
  have h1 := M.agreed
  have h2 := M.resumed
  rw [hncfg, hwcfg] at h1 h2
  exact ⟨h1, h2⟩

end Verif.Machine
