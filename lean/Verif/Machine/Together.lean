import Verif.Machine.Aligned

/-
Compatible ends, one message at a time.
-/

namespace Verif.Machine

open Verif Verif.Crypto Verif.Messages Verif.Negotiation Verif.Handshake Verif.Spec

variable {E : Env} {d : Bool} {now : Int → Prop}

/-- The messages among what is written or read. -/
def msgs : List Sym → List Msg
  | [] => []
  | .msg m :: l => m :: msgs l
  | .key _ _ :: l => msgs l
  | .reset _ :: l => msgs l

theorem msgs_append (a b : List Sym) : msgs (a ++ b) = msgs a ++ msgs b := by
  induction a with
  | nil => rfl
  | cons x l ih => cases x <;> simp [msgs, ih]

theorem msgs_outs (acts : List Action) : msgs (outs d acts) = (sent acts).map (arrived d) := by
  induction acts with
  | nil => rfl
  | cons a l ih =>
    have hs : sent (a :: l) = sent [a] ++ sent l := sent_append [a] l
    rw [hs, List.map_append, ← ih]
    cases a <;> simp [outs, msgs, sent]

theorem msgs_ins (acts : List Action) : msgs (ins acts) = [] := by
  induction acts with
  | nil => rfl
  | cons a l ih => cases a <;> simpa [ins, msgs] using ih

/-- Nothing but messages. -/
def OnlyMessages (es : List (Event × Coins)) : Prop := ∀ e ∈ es, ∃ m, e.1 = .msg m

theorem CState.msgs_heard {x x' : Ctx} {s s' : CState} {es : List (Event × Coins)} {acts : List Action} (hm : OnlyMessages es)
    (h : s.run E x es = .ok (s', acts, x')) : (msgs (s.heard E x es)).length = es.length := by
  induction es generalizing x s acts with
  | nil => rfl
  | cons e es ih =>
    obtain ⟨e, c⟩ := e
    obtain ⟨m, rfl⟩ : ∃ m, e = .msg m := hm (e, c) (by simp)
    simp only [CState.run, Res.bind_eq_ok, Res.ok.injEq, Prod.mk.injEq] at h
    obtain ⟨⟨s1, a1, x1⟩, h1, ⟨s2, a2, x2⟩, h2, rfl, _, rfl⟩ := h
    rw [CState.heard_cons h1 rfl, msgs_append, msgs_append, msgs_ins, List.append_nil, List.length_append,
      ih (fun e he => hm e (List.mem_cons_of_mem _ he)) h2]
    simp [got, msgs, Nat.add_comm]

theorem SState.msgs_heard {x x' : Ctx} {s s' : SState} {es : List (Event × Coins)} {acts : List Action} (hm : OnlyMessages es)
    (h : s.run E x es = .ok (s', acts, x')) : (msgs (s.heard E x es)).length = es.length := by
  induction es generalizing x s acts with
  | nil => rfl
  | cons e es ih =>
    obtain ⟨e, c⟩ := e
    obtain ⟨m, rfl⟩ : ∃ m, e = .msg m := hm (e, c) (by simp)
    simp only [SState.run, Res.bind_eq_ok, Res.ok.injEq, Prod.mk.injEq] at h
    obtain ⟨⟨s1, a1, x1⟩, h1, ⟨s2, a2, x2⟩, h2, rfl, _, rfl⟩ := h
    rw [SState.heard_cons h1 rfl, msgs_append, msgs_append, msgs_ins, List.append_nil, List.length_append,
      ih (fun e he => hm e (List.mem_cons_of_mem _ he)) h2]
    simp [got, msgs, Nat.add_comm]

theorem _root_.Verif.Spec.Delivery.messages {x y : Ctx} {ccfg scfg : Config} {c0 : Coins} {es fs : List (Event × Coins)}
    (h : Delivery E x y ccfg scfg c0 now es fs) : OnlyMessages es ∧ OnlyMessages fs := by
  have key : ∀ (l : List (Event × Coins)) (m : Msg) (c : Coins), OnlyMessages l → OnlyMessages (l ++ [(.msg m, c)]) := by
    intro l m c hl e he
    rcases List.mem_append.1 he with he | he
    · exact hl e he
    · rw [List.mem_singleton.1 he]; exact ⟨m, rfl⟩
  induction h with
  | start => exact ⟨fun _ h => (by cases h), fun _ h => (by cases h)⟩
  | toClient c s acts y' m _ _ _ _ ih => exact ⟨key _ _ _ ih.1, ih.2⟩
  | toServer c s acts x' m _ _ _ _ ih => exact ⟨ih.1, key _ _ _ ih.2⟩

/-- The message that comes next was sent. -/
theorem sent_next {acts : List Action} {T more : List Sym} {m : Msg} (h : outs d acts = T ++ .msg m :: more) :
    ∃ m0, (sent acts)[(msgs T).length]? = some m0 ∧ m = arrived d m0 := by
  have h1 : ((sent acts).map (arrived d))[(msgs T).length]? = some m := by
    rw [← msgs_outs, h, msgs_append]
    simp [msgs]
  rw [List.getElem?_map, Option.map_eq_some_iff] at h1
  obtain ⟨m0, h1, h2⟩ := h1
  exact ⟨m0, h1, h2.symm⟩

theorem sent_mem {acts : List Action} {m : Msg} (h : .msg m ∈ outs d acts) : ∃ m0 ∈ sent acts, m = arrived d m0 := by
  obtain ⟨a, b, hab⟩ := List.append_of_mem h
  obtain ⟨m0, h1, h2⟩ := sent_next hab
  exact ⟨m0, List.mem_of_getElem? h1, h2⟩

/-- Two compatible ends somewhere in a handshake. -/
structure Joint (E : Env) (d : Bool) (now : Int → Prop) (ccfg scfg : Config) (x y : Ctx) (es fs : List (Event × Coins))
    (c : CState) (I T : List Sym) (x' : Ctx) (s : SState) (J U : List Sym) (y' : Ctx) (asked asked' : List Msg) : Prop where
  same : y.datagram = x.datagram
  mode : x.datagram = d
  place : ∃ c0 w acts0 x0 cacts sacts, GoodCoins now c0 ∧ CStart.next E x c0 { cfg := ccfg } = .ok (w, acts0, x0) ∧
    Delivery E x y ccfg scfg c0 now es fs ∧ Aligned E d x0 y scfg w acts0 es fs c cacts x' s sacts y' ∧
    I = outs d (acts0 ++ cacts) ∧ T = SState.heard E y (.start ⟨scfg⟩) fs ∧ J = outs d sacts ∧ U = CState.heard E x0 (.waitSH w) es ∧
    asked = sent (acts0 ++ cacts) ∧ asked' = sent sacts

variable {ccfg scfg : Config} {x y x' y' : Ctx} {es fs : List (Event × Coins)} {c : CState} {s : SState} {I T J U : List Sym}
  {asked asked' : List Msg}

/-- The client has sent its hello. -/
theorem Joint.start (hP : E.P.Sized) (C : Compatible E now ccfg scfg) (hd : y.datagram = x.datagram) (hx : x.datagram = d) {c0 : Coins}
    (h0 : GoodCoins now c0) : ∃ w acts0 x0, CStart.next E x c0 { cfg := ccfg } = .ok (w, acts0, x0) ∧ ins acts0 = [] ∧
      Joint E d now ccfg scfg x y [] [] (.waitSH w) (outs d acts0) [] x0 (.start ⟨scfg⟩) [] [] y (sent acts0) [] := by
  obtain ⟨w, acts0, x0, hw, hx0, hs0⟩ := client_hello hP C x h0
  obtain ⟨c, cacts, x', s, sacts, y', ha⟩ := Stage.aligned hP hw hx h0 (Delivery.stage hP C hw hs0 hx (hd.trans hx) h0 .start)
  have h1 := ha.client
  have h2 := ha.server
  rw [CState.run, Res.ok.injEq, Prod.mk.injEq, Prod.mk.injEq] at h1
  rw [serverRun, SState.run, Res.ok.injEq, Prod.mk.injEq, Prod.mk.injEq] at h2
  obtain ⟨rfl, rfl, rfl⟩ := h1
  obtain ⟨rfl, rfl, rfl⟩ := h2
  obtain ⟨_, _, hi, _⟩ := client_hello_outs hP hw hx
  exact ⟨w, acts0, x0, hw, hi, hd, hx, c0, w, acts0, x0, [], [], h0, hw, .start, ha, by rw [List.append_nil], rfl, rfl, rfl,
    by rw [List.append_nil], rfl⟩

/-- The client reads the next message. -/
theorem Joint.clientReads (hP : E.P.Sized) (C : Compatible E now ccfg scfg)
    (h : Joint E d now ccfg scfg x y es fs c I T x' s J U y' asked asked') {m : Msg} {more : List Sym} (hm : J = U ++ .msg m :: more)
    {k : Coins} (hk : GoodCoins now k) : ∃ c2 a2 x2, c.step E x' k (.msg m) = .ok (c2, a2, x2) ∧
      Joint E d now ccfg scfg x y (es ++ [(.msg m, k)]) fs c2 (I ++ outs d a2) T x2 s J (U ++ [.msg m] ++ ins a2) y'
        (asked ++ sent a2) asked' := by
  obtain ⟨hd, hx, c0, w, acts0, x0, cacts, sacts, h0, hw, hdel, ha, rfl, rfl, rfl, rfl, rfl, rfl⟩ := h
  obtain ⟨_, _, _, hw', _, hs0⟩ := client_hello hP C x h0
  rw [hw, Res.ok.injEq, Prod.mk.injEq, Prod.mk.injEq] at hw'
  obtain ⟨rfl, rfl, rfl⟩ := hw'
  obtain ⟨m0, h1, rfl⟩ := sent_next hm
  rw [CState.msgs_heard hdel.messages.1 ha.client] at h1
  have hdel' := Delivery.toClient k s sacts y' m0 hdel ha.server h1 hk
  rw [hx] at hdel'
  obtain ⟨c3, cacts3, x3, s3, sacts3, y3, ha'⟩ :=
    Stage.aligned hP hw hx h0 (Delivery.stage hP C hw hs0 hx (hd.trans hx) h0 hdel')
  have h2 := ha'.server
  rw [ha.server, Res.ok.injEq, Prod.mk.injEq, Prod.mk.injEq] at h2
  obtain ⟨rfl, rfl, rfl⟩ := h2
  have h3 := ha'.client
  rw [CState.run_append, ha.client] at h3
  simp only [Res.bind_ok, Res.bind_eq_ok, CState.run, Res.ok.injEq, Prod.mk.injEq] at h3
  obtain ⟨⟨c4, a4, x4⟩, ⟨⟨c5, a5, x5⟩, h4, ⟨c6, a6, x6⟩, ⟨rfl, rfl, rfl⟩, rfl, rfl, rfl⟩, rfl, rfl, rfl⟩ := h3
  dsimp only at ha' ⊢
  rw [List.append_nil] at ha'
  have hheard : CState.heard E x0 (.waitSH w) (es ++ [(.msg (arrived d m0), k)]) =
      CState.heard E x0 (.waitSH w) es ++ [.msg (arrived d m0)] ++ ins a5 := by
    rw [CState.heard_append ha.client, CState.heard_cons h4 rfl]
    simp [got, CState.heard]
  exact ⟨c5, a5, x5, h4, hd, hx, c0, w, acts0, x0, cacts ++ a5, sacts, h0, hw, hdel', ha', by simp, rfl, rfl, hheard.symm,
    by simp [sent_append], rfl⟩

/-- The server reads the next message. -/
theorem Joint.serverReads (hP : E.P.Sized) (C : Compatible E now ccfg scfg)
    (h : Joint E d now ccfg scfg x y es fs c I T x' s J U y' asked asked') {m : Msg} {more : List Sym} (hm : I = T ++ .msg m :: more)
    {k : Coins} (hk : GoodCoins now k) : ∃ s2 a2 y2, s.step E y' k (.msg m) = .ok (s2, a2, y2) ∧
      Joint E d now ccfg scfg x y es (fs ++ [(.msg m, k)]) c I (T ++ [.msg m] ++ ins a2) x' s2 (J ++ outs d a2) U y2
        asked (asked' ++ sent a2) := by
  obtain ⟨hd, hx, c0, w, acts0, x0, cacts, sacts, h0, hw, hdel, ha, rfl, rfl, rfl, rfl, rfl, rfl⟩ := h
  obtain ⟨_, _, _, hw', _, hs0⟩ := client_hello hP C x h0
  rw [hw, Res.ok.injEq, Prod.mk.injEq, Prod.mk.injEq] at hw'
  obtain ⟨rfl, rfl, rfl⟩ := hw'
  obtain ⟨m0, h1, rfl⟩ := sent_next hm
  rw [SState.msgs_heard hdel.messages.2 ha.server] at h1
  have hrun : clientRun E x ccfg c0 es = .ok (c, acts0 ++ cacts, x') := by
    simp only [clientRun, hw, ha.client, Res.bind_ok]
  have hdel' := Delivery.toServer k c (acts0 ++ cacts) x' m0 hdel hrun h1 hk
  rw [hx] at hdel'
  obtain ⟨c3, cacts3, x3, s3, sacts3, y3, ha'⟩ :=
    Stage.aligned hP hw hx h0 (Delivery.stage hP C hw hs0 hx (hd.trans hx) h0 hdel')
  have h2 := ha'.client
  rw [ha.client, Res.ok.injEq, Prod.mk.injEq, Prod.mk.injEq] at h2
  obtain ⟨rfl, rfl, rfl⟩ := h2
  have h3 := ha'.server
  rw [serverRun, SState.run_append, show SState.run E y (.start ⟨scfg⟩) fs = _ from ha.server] at h3
  simp only [Res.bind_ok, Res.bind_eq_ok, SState.run, Res.ok.injEq, Prod.mk.injEq] at h3
  obtain ⟨⟨c4, a4, x4⟩, ⟨⟨c5, a5, x5⟩, h4, ⟨c6, a6, x6⟩, ⟨rfl, rfl, rfl⟩, rfl, rfl, rfl⟩, rfl, rfl, rfl⟩ := h3
  dsimp only at ha' ⊢
  rw [List.append_nil] at ha'
  have hheard : SState.heard E y (.start ⟨scfg⟩) (fs ++ [(.msg (arrived d m0), k)]) =
      SState.heard E y (.start ⟨scfg⟩) fs ++ [.msg (arrived d m0)] ++ ins a5 := by
    rw [SState.heard_append ha.server, SState.heard_cons h4 rfl]
    simp [got, SState.heard]
  exact ⟨c5, a5, x5, h4, hd, hx, c0, w, acts0, x0, cacts, sacts ++ a5, h0, hw, hdel', ha', rfl, hheard.symm, by simp, rfl, rfl,
    by simp [sent_append]⟩

/-- What is known of two ends. -/
theorem Joint.facts (hP : E.P.Sized) (C : Compatible E now ccfg scfg)
    (h : Joint E d now ccfg scfg x y es fs c I T x' s J U y' asked asked') :
    Ahead J U ∧ Ahead I T ∧ (∀ a ∈ I, a.good d) ∧ (∀ a ∈ J, a.good d) ∧ (∀ a ∈ T, a.good d) ∧ (∀ a ∈ U, a.good d) ∧
    I.length ≤ 12 ∧ J.length ≤ 12 ∧ (∀ cc, c = .connected cc → J <+: U) ∧ (∀ sc, s = .connected sc → I <+: T) ∧
    (∀ c1, c ≠ .start c1) ∧ es.length ≤ 6 ∧ fs.length ≤ 5 ∧
    (∀ m, .msg m ∈ I → ∃ m0 ∈ asked, m = arrived d m0) ∧ (∀ m, .msg m ∈ J → ∃ m0 ∈ asked', m = arrived d m0) ∧
    ((∃ m more, J = U ++ .msg m :: more) ∨ (∃ m more, I = T ++ .msg m :: more) ∨
      (J = U ∧ I = T ∧ ∃ cc sc, c = .connected cc ∧ s = .connected sc ∧ SameConnection cc sc)) := by
  obtain ⟨hd, hx, c0, w, acts0, x0, cacts, sacts, h0, hw, hdel, ha, rfl, rfl, rfl, rfl, rfl, rfl⟩ := h
  obtain ⟨_, _, _, hw', hx0, hs0⟩ := client_hello hP C x h0
  rw [hw, Res.ok.injEq, Prod.mk.injEq, Prod.mk.injEq] at hw'
  obtain ⟨rfl, rfl, rfl⟩ := hw'
  obtain ⟨c1, cacts1, x1, s1, sacts1, y1, g1, g2, g3, g4, g5, g6, _⟩ :=
    Stage.ends hP (hx0.trans hx) h0 (Delivery.stage hP C hw hs0 hx (hd.trans hx) h0 hdel)
  refine ⟨ha.toClient, ha.toServer, ha.goodClient, ha.goodServer, ha.goodKeys, ha.goodKeys', ha.lengths.1, ha.lengths.2, ha.clientDone,
    ha.serverDone, ?_, by omega, by omega, fun m => sent_mem, fun m => sent_mem, ha.progress⟩
  intro c2 hc
  have h1 := ha.client
  subst hc
  clear ha g1
  have key : ∀ (l : List (Event × Coins)) (x : Ctx) (s : CState) (a : List Action) (z : Ctx), (∀ s0, s ≠ .start s0) →
      CState.run E x s l ≠ .ok (.start c2, a, z) := by
    intro l
    induction l with
    | nil =>
      intro x s a z hs h
      rw [CState.run, Res.ok.injEq, Prod.mk.injEq] at h
      exact hs _ h.1
    | cons e l ih =>
      obtain ⟨e, k⟩ := e
      intro x s a z hs h
      simp only [CState.run, Res.bind_eq_ok, Res.ok.injEq, Prod.mk.injEq] at h
      obtain ⟨⟨s1, a1, x1⟩, h1, ⟨s2, a2, x2⟩, h2, rfl, _, rfl⟩ := h
      refine ih _ _ _ _ ?_ h2
      intro s0 h0
      dsimp only at h0
      subst h0
      cases CState.step_ok h1 with
      | ee _ _ _ _ _ h => have := CWaitEE.next_ok h; simp at this
      | certCR _ _ _ _ _ h => have := CWaitEE.nextCertCR_ok h; simp at this
      | cert _ _ _ _ _ h => have := CWaitCert.next_ok h; simp at this
      | cv _ _ _ _ _ h => have := CWaitCV.next_ok h; simp at this
      | finished _ _ _ _ _ h => have := CWaitFinished.next_ok h; simp at this
  exact key es x0 (.waitSH w) cacts x' (by intro s0 h; cases h) h1

/-! ### A server that waits for a hello -/

/-- A step that leads to the start begins there. -/
theorem SStep.toStart {y0 y1 : Ctx} {k : Coins} {s1 s2 : SState} {e : Event} {a : List Action} (h : SStep E y0 k s1 e s2 a y1)
    {s0 : SStart} (h0 : s2 = .start s0) : s1 = .start s0 := by
  have hset : ∀ s3 : SState, s3.settle = .start s0 → s3 = .start s0 := by
    intro s3 h3
    cases s3 with
    | waitFlight2 v => simp only [SState.settle, SWait.nextFlight2] at h3; split at h3 <;> cases h3
    | _ => exact h3
  cases h with
  | skip => cases h0
  | early => cases h0
  | retry => exact h0
  | hello _ _ _ _ _ _ _ _ h =>
    obtain ⟨f, _, ⟨_, _, _, h1, _⟩ | ⟨_, _, h1, _⟩ | ⟨_, _, h1, _⟩⟩ := SNegotiated.next_ok h <;>
      (rw [hset _ h0] at h1; cases h1)
  | eoed _ _ _ _ _ h =>
    obtain ⟨_, _, _, _, _, h1, _⟩ := SWait.nextEOED_ok h
    rw [hset _ h0] at h1
    cases h1
  | cert _ _ _ _ _ h =>
    obtain ⟨_, _, _, _, _, ⟨_, h1⟩ | ⟨_, h1⟩⟩ := SWait.nextCert_ok h <;> (rw [h0] at h1; cases h1)
  | cv _ _ _ _ _ h =>
    obtain ⟨_, _, _, _, _, _, _, _, _, h1⟩ := SWaitCV.next_ok h
    rw [h0] at h1
    cases h1
  | finished _ _ _ _ _ h =>
    obtain ⟨_, _, _, _, _, _, _, _, _, _, _, h1, _⟩ := SWaitFinished.next_ok h
    rw [h0] at h1
    cases h1
  | post => cases h0
  | data => cases h0

theorem SState.run_toStart (l : List (Event × Coins)) {y0 y1 : Ctx} {s1 : SState} {a : List Action} {s0 : SStart}
    (h : SState.run E y0 s1 l = .ok (.start s0, a, y1)) : s1 = .start s0 := by
  induction l generalizing y0 s1 a with
  | nil =>
    rw [SState.run, Res.ok.injEq, Prod.mk.injEq] at h
    exact h.1
  | cons e l ih =>
    obtain ⟨e, k⟩ := e
    simp only [SState.run, Res.bind_eq_ok, Res.ok.injEq, Prod.mk.injEq] at h
    obtain ⟨⟨s2, a2, x2⟩, h1, ⟨s3, a3, x3⟩, h2, rfl, _, rfl⟩ := h
    exact (SState.step_ok h1).toStart (ih h2)

theorem begin_ne_start (v : SWait) (s0 : SStart) : v.begin ≠ .start s0 := by
  intro h
  simp only [SWait.begin] at h
  split at h
  · cases h
  · simp only [SWait.nextFlight2] at h
    split at h <;> cases h

/-- A server that still waits for a hello has sent nothing. -/
theorem Joint.unheard (hP : E.P.Sized) (C : Compatible E now ccfg scfg)
    (h : Joint E d now ccfg scfg x y es fs c I T x' s J U y' asked asked') {s0 : SStart} (hs : s = .start s0) : J = [] := by
  obtain ⟨hd, hx, c0, w, acts0, x0, cacts, sacts, h0, hw, hdel, ha, rfl, rfl, rfl, rfl, rfl, rfl⟩ := h
  obtain ⟨_, _, _, hw', hx0, hs0⟩ := client_hello hP C x h0
  rw [hw, Res.ok.injEq, Prod.mk.injEq, Prod.mk.injEq] at hw'
  obtain ⟨rfl, rfl, rfl⟩ := hw'
  have hr := ha.server
  rw [hs] at hr
  match fs, Delivery.stage hP C hw hs0 hx (hd.trans hx) h0 hdel with
  | _, .hello =>
    rw [serverRun, SState.run, Res.ok.injEq, Prod.mk.injEq, Prod.mk.injEq] at hr
    rw [← hr.2.1]
    rfl
  | _, .flight f acts ms ms' hy M hr' hrun _ _ _ _ _ _ =>
    rw [hr, Res.ok.injEq, Prod.mk.injEq] at hrun
    exact absurd hrun.1.symm (begin_ne_start _ _)
  | _, .answer f acts cacts' cc x'' ms ms' hy M hr' hrun _ _ _ _ _ _ _ =>
    rw [serverRun] at hrun hr
    rw [← List.singleton_append, SState.run_append, hrun, Res.bind_ok] at hr
    simp only [Res.bind_eq_ok, Res.ok.injEq, Prod.mk.injEq] at hr
    obtain ⟨⟨s2, a2, x2⟩, h1, h2, _⟩ := hr
    dsimp only at h2
    rw [h2] at h1
    exact absurd (SState.run_toStart _ h1) (begin_ne_start _ _)

end Verif.Machine
