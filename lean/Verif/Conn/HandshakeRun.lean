import Verif.Conn.HandshakeLemmas
import Verif.Machine.ServerTrace
import Verif.Machine.ClientTrace

/-
Handshake follows the executions `clientRun` and `serverRun` of the state machines, as long as no call fails.
-/

namespace Verif.Conn

open Verif Verif.Crypto Verif.Messages Verif.Negotiation Verif.Handshake Verif.Machine

/-- There is an execution of the client that ends in this state; start states, which the executions pass through, have one
that ends just before. -/
def CReaches (E : Env) (x0 : Ctx) (cfg : Config) (x : Ctx) : CState → Prop
  | .start s => ∃ c es w acts x1 m acts', clientRun E x0 cfg c es = .ok (.waitSH w, acts, x1) ∧ w.next E x1 m = .ok (.start s, acts', x)
  | st => ∃ c es acts, clientRun E x0 cfg c es = .ok (st, acts, x)

/-- The same for the server. -/
def SReaches (E : Env) (x0 : Ctx) (cfg : Config) (x : Ctx) : SState → Prop
  | .negotiated n => ∃ es s acts x1 m c, serverRun E x0 cfg es = .ok (.start s, acts, x1) ∧ s.next E x1 c m = .ok (.negotiated n, x)
  | .waitFlight2 w => ∃ es acts, serverRun E x0 cfg es = .ok (w.nextFlight2, acts, x)
  | st => ∃ es acts, serverRun E x0 cfg es = .ok (st, acts, x)

theorem clientRun_snoc {E : Env} {x x1 x' : Ctx} {cfg : Config} {c ce : Coins} {es : List (Event × Coins)} {e : Event} {s s' : CState}
    {a a' : List Action} (h : clientRun E x cfg c es = .ok (s, a, x1)) (hst : s.step E x1 ce e = .ok (s', a', x')) :
    clientRun E x cfg c (es ++ [(e, ce)]) = .ok (s', a ++ a', x') := by
  simp only [clientRun, Res.bind_eq_ok, Res.ok.injEq, Prod.mk.injEq] at h ⊢
  obtain ⟨⟨w, a0, x0⟩, h0, ⟨s1, a1, x2⟩, h1, rfl, rfl, rfl⟩ := h
  exact ⟨(w, a0, x0), h0, (s', a1 ++ a', x'), CState.run_ok_snoc h1 hst, rfl, by simp, rfl⟩

theorem CReaches.of_run {E : Env} {x0 : Ctx} {cfg : Config} {x : Ctx} {c : Coins} {es : List (Event × Coins)} {s : CState} {acts : List Action}
    (h : clientRun E x0 cfg c es = .ok (s, acts, x)) (hs : ∀ s0, s ≠ .start s0) : CReaches E x0 cfg x s := by
  cases s with
  | start s0 => exact absurd rfl (hs s0)
  | _ => exact ⟨c, es, acts, h⟩

/-- A state that is not a start state. -/
theorem not_start_of_step {E : Env} {x x' : Ctx} {c : Coins} {s s' : CState} {e : Event} {acts : List Action}
    (h : s.step E x c e = .ok (s', acts, x')) : ∀ s0, s' ≠ .start s0 := by
  intro s0 h0
  subst h0
  cases CState.step_ok h with
  | ee _ _ _ _ _ h => have := CWaitEE.next_ok h; simp at this
  | certCR _ _ _ _ _ h => have := CWaitEE.nextCertCR_ok h; simp at this
  | cert _ _ _ _ _ h => have := CWaitCert.next_ok h; simp at this
  | cv _ _ _ _ _ h => have := CWaitCV.next_ok h; simp at this
  | finished _ _ _ _ _ h => have := CWaitFinished.next_ok h; simp at this

theorem clientNext_reaches {E : Env} {x0 x x' : Ctx} {cfg : Config} {t : Turn} {s s' : CState} {acts : List Action}
    (h : CReaches E x0 cfg x s) (hc : (HState.client s).connected? = none) (hn : clientNext E x t s = .ok (s', acts, x')) :
    CReaches E x0 cfg x' s' := by
  have key : ∀ m, t.event = some (.msg m) → (∀ s0, s ≠ .start s0) → s.step E x t.coins (.msg m) = .ok (s', acts, x') →
      CReaches E x0 cfg x' s' := by
    intro m he hs hst
    obtain ⟨c, es, a, hr⟩ : ∃ c es acts, clientRun E x0 cfg c es = .ok (s, acts, x) := by
      cases s with
      | start s0 => exact absurd rfl (hs s0)
      | _ => exact h
    exact CReaches.of_run (clientRun_snoc hr hst) (not_start_of_step hst)
  cases s with
  | start s =>
    obtain ⟨c, es, w, a, x1, m, a', hr, hw⟩ := h
    simp only [clientNext, Res.bind_eq_ok, Res.ok.injEq, Prod.mk.injEq] at hn
    obtain ⟨⟨w', a2, x2⟩, h2, rfl, rfl, rfl⟩ := hn
    exact ⟨c, _, a ++ (a' ++ a2), clientRun_snoc (ce := t.coins) (e := .msg m) hr (by simp [CState.step, hw, h2])⟩
  | connected s => cases hc
  | waitSH w =>
    simp only [clientNext] at hn
    split at hn
    · cases hn
    · rename_i m he
      obtain ⟨sh, hck, ⟨hr, st, h2, rfl, rfl, rfl⟩ | ⟨hr, e, h2, rfl⟩⟩ := CWaitSH.next_ok hn
      · obtain ⟨c, es, a, hrun⟩ := h
        exact ⟨c, es, w, a, _, m, _, hrun, hn⟩
      · exact key m he (by simp) (by simp [CState.step, hn])
    · simp [Machine.alert] at hn
  | waitEE s =>
    simp only [clientNext] at hn
    split at hn
    · cases hn
    · rename_i m he; exact key m he (by simp) hn
    · simp [Machine.alert] at hn
  | waitCertCR s =>
    simp only [clientNext] at hn
    split at hn
    · cases hn
    · rename_i m he; exact key m he (by simp) hn
    · simp [Machine.alert] at hn
  | waitCert s =>
    simp only [clientNext] at hn
    split at hn
    · cases hn
    · rename_i m he; exact key m he (by simp) hn
    · simp [Machine.alert] at hn
  | waitCV s =>
    simp only [clientNext] at hn
    split at hn
    · cases hn
    · rename_i m he; exact key m he (by simp) hn
    · simp [Machine.alert] at hn
  | waitFinished s =>
    simp only [clientNext] at hn
    split at hn
    · cases hn
    · rename_i m he; exact key m he (by simp) hn
    · simp [Machine.alert] at hn

theorem serverRun_snoc {E : Env} {x x1 x' : Ctx} {cfg : Config} {ce : Coins} {es : List (Event × Coins)} {e : Event} {s s' : SState}
    {a a' : List Action} (h : serverRun E x cfg es = .ok (s, a, x1)) (hst : s.step E x1 ce e = .ok (s', a', x')) :
    serverRun E x cfg (es ++ [(e, ce)]) = .ok (s', a ++ a', x') := SState.run_ok_snoc h hst

/-- An execution ends in the state, or in the one after it if it reads nothing. -/
theorem SReaches.of_settled {E : Env} {x0 : Ctx} {cfg : Config} {x : Ctx} {es : List (Event × Coins)} {s : SState} {acts : List Action}
    (h : serverRun E x0 cfg es = .ok (s.settle, acts, x)) (hs : ∀ n, s ≠ .negotiated n) : SReaches E x0 cfg x s := by
  cases s with
  | negotiated n => exact absurd rfl (hs n)
  | _ => exact ⟨es, acts, h⟩

theorem SReaches.run {E : Env} {x0 : Ctx} {cfg : Config} {x : Ctx} {s : SState} (h : SReaches E x0 cfg x s) (hs : ∀ n, s ≠ .negotiated n)
    (hw : ∀ w, s ≠ .waitFlight2 w) : ∃ es acts, serverRun E x0 cfg es = .ok (s, acts, x) := by
  cases s with
  | negotiated n => exact absurd rfl (hs n)
  | waitFlight2 w => exact absurd rfl (hw w)
  | _ => exact h

theorem serverNext_reaches {E : Env} {x0 x x' : Ctx} {cfg : Config} {t : Turn} {s s' : SState} {acts : List Action} {r : Bool}
    (h : SReaches E x0 cfg x s) (hc : (HState.server s).connected? = none) (hn : serverNext E x t s = .ok (s', acts, x', r)) :
    SReaches E x0 cfg x' s' := by
  cases s with
  | connected s => cases hc
  | negotiated n =>
    obtain ⟨es, s, a, x1, m, c, hr, hm⟩ := h
    simp only [serverNext, Res.bind_eq_ok, Res.ok.injEq, Prod.mk.injEq] at hn
    obtain ⟨⟨s1, a1, x2⟩, h1, rfl, rfl, rfl, rfl⟩ := hn
    have h1' : n.next E x { c with random := t.coins.random } = .ok (s1, a1, x2) := h1
    have hm' : s.next E x1 { c with random := t.coins.random } m = .ok (.negotiated n, x) := hm
    refine SReaches.of_settled (serverRun_snoc (ce := { c with random := t.coins.random }) (e := .msg m) hr
      (by simp [SState.step, hm', h1']; rfl)) ?_
    intro n' hn'
    subst hn'
    have := SNegotiated.next_ok h1
    simp at this
  | waitFlight2 w =>
    simp only [serverNext, Res.ok.injEq, Prod.mk.injEq] at hn
    obtain ⟨rfl, rfl, rfl, rfl⟩ := hn
    obtain ⟨es, a, hr⟩ := h
    refine SReaches.of_settled (s := w.nextFlight2) (es := es) (acts := a) ?_ ?_
    · rw [hr]
      unfold SWait.nextFlight2
      split <;> rfl
    · intro n hn
      unfold SWait.nextFlight2 at hn
      split at hn <;> cases hn
  | start s =>
    obtain ⟨es, a, hr⟩ := h
    simp only [serverNext] at hn
    split at hn
    · cases hn
    · rename_i e he
      cases e with
      | msg m =>
        simp only [Res.bind_eq_ok] at hn
        obtain ⟨⟨q, x1⟩, h1, hn⟩ := hn
        cases q with
        | retry hrr =>
          simp only [Res.ok.injEq, Prod.mk.injEq] at hn
          obtain ⟨rfl, rfl, rfl, rfl⟩ := hn
          exact ⟨_, _, serverRun_snoc (ce := t.coins) (e := .msg m) hr (by simp [SState.step, h1]; rfl)⟩
        | negotiated n =>
          simp only [Res.ok.injEq, Prod.mk.injEq] at hn
          obtain ⟨rfl, rfl, rfl, rfl⟩ := hn
          exact ⟨es, s, a, x, m, t.coins, hr, h1⟩
      | appData d => simp [Machine.alert] at hn
      | bad => simp [Machine.alert] at hn
  | readPast =>
    obtain ⟨es, a, hr⟩ := h
    simp only [serverNext] at hn
    split at hn
    · cases hn
    · rename_i e he
      cases e with
      | msg m => simp at hn
      | appData d => simp at hn
      | bad =>
        simp only [Res.ok.injEq, Prod.mk.injEq] at hn
        obtain ⟨rfl, rfl, rfl, rfl⟩ := hn
        exact ⟨_, _, serverRun_snoc (ce := t.coins) (e := .bad) hr rfl⟩
  | waitEOED s =>
    obtain ⟨es, a, hr⟩ := h
    simp only [serverNext] at hn
    split at hn
    · cases hn
    · rename_i e he
      cases e with
      | msg m =>
        simp only [Res.bind_eq_ok, Res.ok.injEq, Prod.mk.injEq] at hn
        obtain ⟨⟨s1, a1, x1⟩, h1, rfl, rfl, rfl, rfl⟩ := hn
        refine SReaches.of_settled (serverRun_snoc (ce := t.coins) (e := .msg m) hr (by simp [SState.step, h1]; rfl)) ?_
        intro n hn'
        subst hn'
        obtain ⟨-, -, -, -, -, h, -⟩ := SWait.nextEOED_ok h1
        cases h
      | appData d =>
        simp only [Res.ok.injEq, Prod.mk.injEq] at hn
        obtain ⟨rfl, rfl, rfl, rfl⟩ := hn
        exact ⟨_, _, serverRun_snoc (ce := t.coins) (e := .appData d) hr rfl⟩
      | bad => simp [Machine.alert] at hn
  | waitCert s =>
    obtain ⟨es, a, hr⟩ := h
    simp only [serverNext] at hn
    split at hn
    · cases hn
    · rename_i e he
      cases e with
      | msg m =>
        simp only [Res.bind_eq_ok, Res.ok.injEq, Prod.mk.injEq] at hn
        obtain ⟨⟨s1, a1, x1⟩, h1, rfl, rfl, rfl, rfl⟩ := hn
        have hrun := serverRun_snoc (ce := t.coins) (e := .msg m) hr (show SState.step _ _ _ _ _ = _ from h1)
        obtain ⟨-, -, -, c, -, ⟨-, rfl⟩ | ⟨-, rfl⟩⟩ := SWait.nextCert_ok h1 <;> exact ⟨_, _, hrun⟩
      | appData d => simp [Machine.alert] at hn
      | bad => simp [Machine.alert] at hn
  | waitCV s =>
    obtain ⟨es, a, hr⟩ := h
    simp only [serverNext] at hn
    split at hn
    · cases hn
    · rename_i e he
      cases e with
      | msg m =>
        simp only [Res.bind_eq_ok, Res.ok.injEq, Prod.mk.injEq] at hn
        obtain ⟨⟨s1, a1, x1⟩, h1, rfl, rfl, rfl, rfl⟩ := hn
        have hrun := serverRun_snoc (ce := t.coins) (e := .msg m) hr (show SState.step _ _ _ _ _ = _ from h1)
        have := SWaitCV.next_ok h1
        obtain ⟨sf, rfl⟩ : ∃ sf, s1 = .waitFinished sf := by
          obtain ⟨-, -, -, -, -, -, -, -, -, h⟩ := this
          exact ⟨_, h⟩
        exact ⟨_, _, hrun⟩
      | appData d => simp [Machine.alert] at hn
      | bad => simp [Machine.alert] at hn
  | waitFinished s =>
    obtain ⟨es, a, hr⟩ := h
    simp only [serverNext] at hn
    split at hn
    · cases hn
    · rename_i e he
      cases e with
      | msg m =>
        simp only [Res.bind_eq_ok, Res.ok.injEq, Prod.mk.injEq] at hn
        obtain ⟨⟨s1, a1, x1⟩, h1, rfl, rfl, rfl, rfl⟩ := hn
        have hrun := serverRun_snoc (ce := t.coins) (e := .msg m) hr (show SState.step _ _ _ _ _ = _ from h1)
        have := SWaitFinished.next_ok h1
        obtain ⟨sf, rfl⟩ : ∃ sf, s1 = .connected sf := by
          obtain ⟨_, _, _, _, _, _, _, _, _, _, _, h, _⟩ := this
          exact ⟨_, h⟩
        exact ⟨_, _, hrun⟩
      | appData d => simp [Machine.alert] at hn
      | bad => simp [Machine.alert] at hn

/-- The state a Conn is in is one of an execution; once connected, early data may have been moved. -/
def Follows (E : Env) (x0 : Ctx) (cfg : Config) (x : Ctx) (st : HState) : Prop :=
  match st with
  | .client s => if st.connected? = none then CReaches E x0 cfg x s else ∃ x', CReaches E x0 cfg x' s
  | .server s => if st.connected? = none then SReaches E x0 cfg x s else ∃ x', SReaches E x0 cfg x' s

theorem follows_next {E : Env} {x0 x x' : Ctx} {cfg : Config} {t : Turn} {st st' : HState} {acts : List Action} {r : Bool}
    (h : Follows E x0 cfg x st) (hc : st.connected? = none) (hn : st.next E x t = .ok (st', acts, x', r)) :
    Follows E x0 cfg x' st' := by
  cases st with
  | client s =>
    simp only [HState.next, Res.bind_eq_ok, Res.ok.injEq, Prod.mk.injEq] at hn
    obtain ⟨⟨s1, a1, x1⟩, h1, rfl, rfl, rfl, rfl⟩ := hn
    simp only [Follows, hc, if_true] at h ⊢
    have := clientNext_reaches h hc h1
    split
    · exact this
    · exact ⟨_, this⟩
  | server s =>
    simp only [HState.next, Res.bind_eq_ok, Res.ok.injEq, Prod.mk.injEq] at hn
    obtain ⟨⟨s1, a1, x1, r1⟩, h1, rfl, rfl, rfl, rfl⟩ := hn
    simp only [Follows, hc, if_true] at h ⊢
    have := serverNext_reaches h hc h1
    split
    · exact this
    · exact ⟨_, this⟩

theorem follows_connected {E : Env} {x0 x : Ctx} {cfg : Config} {st : HState} (h : Follows E x0 cfg x st) (hc : st.connected? ≠ none)
    (x' : Ctx) : Follows E x0 cfg x' st := by
  cases st with
  | client s => simp only [Follows, hc, if_false] at h ⊢; exact h
  | server s => simp only [Follows, hc, if_false] at h ⊢; exact h

/-- The outcomes of a call that is not a failure: it succeeds or would block. -/
def fine (r : Res Unit) : Prop := r = .ok () ∨ r = .err .wouldBlock

theorem Turned.follows {E : Env} {c : HConn} {st : HState} {t : Turn} {r : Res Unit × HConn} {x0 : Ctx} {cfg : Config}
    (h : Turned E c st t r) (hs : c.hState = some st) (hf : Follows E x0 cfg c.x st) (hc : st.connected? = none) (hr : fine r.1) :
    ∃ st', r.2.hState = some st' ∧ Follows E x0 cfg r.2.x st' := by
  cases h with
  | stuck r _ => exact ⟨st, hs, hf⟩
  | failed a b h => rcases hr with hr | hr <;> simp [Machine.alert] at hr
  | refused a st' acts x' retry e b h hf => rcases hr with hr | hr <;> simp [Machine.alert] at hr
  | moved st' acts x' retry e h hf' hd => exact ⟨st', rfl, follows_next hf hc h⟩
  | done st' acts x' retry e s h hf' hd =>
    obtain ⟨-, -, h3, -⟩ := finish_complete E { c with x := x', outEpoch := e, hState := some st' } t s
    exact ⟨st', h3, follows_connected (follows_next hf hc h) (by rw [hd]; simp) _⟩

theorem loop_follows (E : Env) {x0 : Ctx} {cfg : Config} (ts : List Turn) : ∀ {c : HConn} {st : HState}, c.hState = some st →
    Follows E x0 cfg c.x st → fine (HConn.loop E ts c).1 →
    ∃ st', (HConn.loop E ts c).2.hState = some st' ∧ Follows E x0 cfg (HConn.loop E ts c).2.x st' := by
  induction ts with
  | nil =>
    intro c st hs hf hr
    rw [HConn.loop]
    split
    · rename_i h; rw [hs] at h; cases h
    · split <;> exact ⟨st, hs, hf⟩
  | cons t ts ih =>
    intro c st hs hf hr
    cases hc : st.connected? with
    | some s =>
      rw [HConn.loop]
      split
      · rename_i h; rw [hs] at h; cases h
      · rename_i st1 h
        obtain rfl : st = st1 := by rw [hs] at h; exact Option.some.inj h
        rw [if_pos (by rw [hc]; rfl)]
        exact ⟨st, hs, hf⟩
    | none =>
      obtain ⟨r, hT, ⟨h, -⟩ | ⟨-, -, h, ⟨st', acts, x', retry, hn, hs', -, hx⟩, -⟩⟩ := loop_cons E c st t ts hs hc
      · rw [h] at hr ⊢
        exact hT.follows hs hf hc hr
      · rw [h] at hr ⊢
        refine ih hs' ?_ hr
        have := follows_next hf hc hn
        cases hd : st'.connected? with
        | none => rw [hx hd]; exact this
        | some s => exact follows_connected this (by rw [hd]; simp) _

theorem setup_follows (E : Env) {c : HConn} (t : Turn) (h : (c.setup E t).1 = .ok ()) :
    ∃ st, (c.setup E t).2.hState = some st ∧ Follows E c.x c.cfg (c.setup E t).2.x st := by
  revert h
  unfold HConn.setup
  split
  · intro h; simp [Machine.alert] at h
  · split
    · split
      · rename_i w acts x' hn
        obtain ⟨e, he⟩ := takeAll_outEpoch t.fail 0 { c with x := x' } acts
        split
        · intro h; simp [Machine.alert] at h
        · rename_i c' heq
          rw [heq] at he
          simp only at he
          subst he
          intro _
          refine ⟨_, rfl, ?_⟩
          simp only [Follows, HState.connected?, if_true]
          exact ⟨t.coins, [], acts, by simp [clientRun, hn, CState.run]⟩
      · intro h; cases h
      · intro h; cases h
      · intro h; cases h
      · intro h; cases h
    · intro _
      refine ⟨_, rfl, ?_⟩
      simp only [Follows, HState.connected?, if_true]
      exact ⟨[], [], rfl⟩

theorem setup_blocked (E : Env) {c : HConn} (t : Turn) (h : (c.setup E t).1 = .err .wouldBlock) : (c.setup E t).2 = c := by
  revert h
  unfold HConn.setup
  split
  · intro h; simp [Machine.alert] at h
  · split
    · split
      · split
        · intro h; simp [Machine.alert] at h
        · intro h; cases h
      · intro h; simp [Machine.alert] at h
      · intro _; rfl
      · intro h; cases h
      · intro h; cases h
    · intro h; cases h

/-- What holds between calls, none of which has failed. -/
def HConn.Followed (E : Env) (x0 : Ctx) (cfg : Config) (c : HConn) : Prop :=
  match c.hState with
  | none => c.x = x0 ∧ c.cfg = cfg
  | some st => Follows E x0 cfg c.x st

theorem handshake_followed (E : Env) {x0 : Ctx} {cfg : Config} {c : HConn} (t : Turn) (ts : List Turn) (hf : c.Followed E x0 cfg)
    (hr : fine (c.handshake E t ts).1) : (c.handshake E t ts).2.Followed E x0 cfg := by
  have close : ∀ c' : HConn, (∃ st, c'.hState = some st ∧ Follows E x0 cfg c'.x st) → c'.Followed E x0 cfg := by
    rintro c' ⟨st, h1, h2⟩
    unfold HConn.Followed
    rw [h1]
    exact h2
  revert hr
  unfold HConn.handshake
  split
  · intro _; exact hf
  · split
    · intro _; exact hf
    · split
      · rename_i hs
        obtain ⟨rfl, rfl⟩ : c.x = x0 ∧ c.cfg = cfg := by
          unfold HConn.Followed at hf
          rw [hs] at hf
          exact hf
        have hset := setup_follows E (c := c) t
        split
        · rename_i c' heq
          rw [heq] at hset
          obtain ⟨st, h1, h2⟩ := hset rfl
          split
          · intro _; exact close _ ⟨st, h1, h2⟩
          · intro hr; exact close _ (loop_follows E ts h1 h2 hr)
        · rename_i hne
          intro hr
          rcases hr with hr | hr
          · exact (hne () (c.setup E t).2 (Prod.ext hr rfl)).elim
          · rw [setup_blocked E t hr]
            exact hf
      · rename_i st hs
        intro hr
        refine close _ (loop_follows E ts hs ?_ hr)
        unfold HConn.Followed at hf
        rw [hs] at hf
        exact hf

end Verif.Conn
