import Verif.Conn.Receiving
import Verif.Conn.HandshakeLemmas
import Verif.Crypto.Exporter
import Verif.Spec.Report

/-
What a Conn reports about itself: conn.go, GetHsState, ConnectionState and ComputeExporter (Writable is in
`Verif.Conn.Handshake`).
-/

namespace Verif.Conn

open Verif Verif.Crypto Verif.Messages Verif.Negotiation Verif.Handshake Verif.Machine Verif.Spec

/-- `State()` of a client state: the constants of common.go:169-192. -/
def clientCode : CState → Nat
  | .start _ => 1
  | .waitSH _ => 2
  | .waitEE _ => 3
  | .waitCert _ => 4
  | .waitCV _ => 5
  | .waitFinished _ => 6
  | .waitCertCR _ => 7
  | .connected s => if s.isClient then 8 else 18

/-- The same for a server state. Of StateServerRecvdCH (10) there is no state. -/
def serverCode : SState → Nat
  | .start _ => 9
  | .negotiated _ => 11
  | .readPast => 12
  | .waitEOED _ => 13
  | .waitFlight2 _ => 14
  | .waitCert _ => 15
  | .waitCV _ => 16
  | .waitFinished _ => 17
  | .connected s => if s.isClient then 8 else 18

/-- `GetHsState` (conn.go:868-873). -/
def HConn.hsState (c : HConn) : Nat :=
  match c.hState with
  | none => 0
  | some (.client s) => clientCode s
  | some (.server s) => serverCode s

/-- What is read off `c.state` (conn.go:897-904). -/
def Connected.report (code : Nat) (s : Connected) : Report where
  state := code
  suite := suiteParams s.params.suite.toNat
  nextProto := s.params.nextProto
  chains := s.chains
  certs := s.peerCerts
  psk := s.params.usingPSK
  early := s.params.usingEarlyData

/-- `ConnectionState` (conn.go:892-907). `c.state` is set to `c.hState` when the handshake completes (conn.go:796); later
changes of `c.state` (conn.go:358, 850) are recorded in `hState` here. -/
def HConn.report (c : HConn) : Report :=
  if c.complete then
    match c.hState.bind HState.connected? with
    | some s => Connected.report c.hsState s
    | none => Report.nothing c.hsState
  else Report.nothing c.hsState

/-- `ComputeExporter` (conn.go:875-890). -/
def HConn.exporter (P : Prims) (c : HConn) (label context : Bytes) (n : Nat) : Res Bytes :=
  match c.hState.bind HState.connected? with
  | some s => computeExporter P true (some s.exporter) s.cp.hash label context n
  | none => computeExporter P false none .sha256 label context n

/-- `ConnectionState` on a connection, where `hState` and `state` are the same. -/
def Live.report (c : Live) : Report := Connected.report (if c.st.isClient then 8 else 18) c.st

/-- `ComputeExporter` on a connection. -/
def Live.exporter (P : Prims) (c : Live) (label context : Bytes) (n : Nat) : Res Bytes :=
  computeExporter P true (some c.st.exporter) c.st.cp.hash label context n

/-! ### What never changes once connected -/

/-- At most the traffic secrets differ. -/
def Kept (s s' : Connected) : Prop := s' = { s with clientAp := s'.clientAp, serverAp := s'.serverAp }

theorem Kept.refl (s : Connected) : Kept s s := rfl

theorem Kept.trans {s s' s'' : Connected} (h : Kept s s') (h' : Kept s' s'') : Kept s s'' := by
  unfold Kept at *
  rw [h] at h'
  rw [h']

theorem keyUpdate_kept {E : Env} {x x' : Ctx} {s s' : Connected} {r : UInt8} {acts : List Action}
    (h : s.keyUpdate E x r = .ok (s', acts, x')) : Kept s s' := by
  unfold Connected.keyUpdate at h
  simp only [Res.bind_eq_ok, Res.ok.injEq, Prod.mk.injEq] at h
  obtain ⟨⟨t, s1⟩, h1, k, -, ⟨m, x1⟩, -, rfl, -, -⟩ := h
  split at h1 <;> simp only [Res.bind_eq_ok, Res.ok.injEq, Prod.mk.injEq] at h1 <;> obtain ⟨_, _, _, rfl⟩ := h1 <;> rfl

theorem process_kept {E : Env} {x x' : Ctx} {s s' : Connected} {now : Int} {m : Msg} {acts : List Action}
    (h : s.process E x now m = .ok (s', acts, x')) : Kept s s' := by
  unfold Connected.process at h
  simp only [Res.bind_eq_ok] at h
  obtain ⟨body, -, h⟩ := h
  split at h
  · rename_i request
    simp only [Res.bind_eq_ok] at h
    obtain ⟨⟨t, s1⟩, h1, k, -, h⟩ := h
    have hk : Kept s s1 := by
      split at h1 <;> simp only [Res.bind_eq_ok, Res.ok.injEq, Prod.mk.injEq] at h1 <;> obtain ⟨_, _, _, rfl⟩ := h1 <;> rfl
    dsimp only at h
    split at h
    · simp only [Res.bind_eq_ok, Res.ok.injEq, Prod.mk.injEq] at h
      obtain ⟨⟨s2, a2, x2⟩, h2, rfl, -, -⟩ := h
      exact hk.trans (keyUpdate_kept h2)
    · simp only [Res.ok.injEq, Prod.mk.injEq] at h
      obtain ⟨rfl, -, -⟩ := h
      exact hk
  · split at h
    · cases h
    · simp only [Res.bind_eq_ok, Res.ok.injEq, Prod.mk.injEq] at h
      obtain ⟨_, _, rfl, _, _⟩ := h
      exact .refl _
  · cases h

theorem sendAlert_st (c : Live) (a : Nat) : (c.sendAlert a).2.st = c.st := by
  have h := (writeRecord_same c 21 [UInt8.ofNat a, if a = 100 ∨ a = Alert.closeNotify then 1 else 2]).2
  unfold Live.sendAlert
  dsimp only
  split
  · rename_i he; rw [he] at h; exact h
  · rename_i he; rw [he] at h; exact h
  · rename_i he
    rw [he] at h
    split <;> exact h

theorem abort_st (c : Live) (a : Nat) (e : Err) : (c.abort a e).2.st = c.st := by
  have h := sendAlert_st c a
  unfold Live.abort
  split
  · rename_i he; rw [he] at h; exact h
  · exact h

theorem takeAction_st (W : World) (c : Live) (a : Action) : (c.takeAction W a).2.st = c.st := by
  by_cases h : noRekeyIn a = true
  · exact (takeAction_same W c a h).2
  · cases a <;> first | exact absurd rfl h | skip
    rw [Live.takeAction]
    split <;> rfl

theorem takeAll_st (W : World) (as : List Action) (c : Live) : (c.takeAll W as).2.st = c.st := by
  induction as generalizing c with
  | nil => rfl
  | cons a as ih =>
    have h := takeAction_st W c a
    rw [Live.takeAll]
    split
    · rename_i c' he
      rw [he] at h
      rw [ih, h]
    · exact h

theorem orAbort_st (e : Err) (r : Res Unit × Live) : (Live.orAbort e r).2.st = r.2.st := by
  unfold Live.orAbort
  split
  · exact abort_st _ _ _
  · rfl

theorem liveProcess_kept (W : World) (c : Live) (now : Int) (m : Msg) : Kept c.st (c.process W now m).2.st := by
  unfold Live.process
  split
  · rename_i s acts x h
    have ht := takeAll_st W acts { c with x := x }
    split
    · exact process_kept h
    · rw [orAbort_st, ht]; exact .refl _
  · rw [abort_st]; exact .refl _
  · exact .refl _
  · exact .refl _
  · exact .refl _

theorem postHandshake_kept (W : World) (now : Int) (n : Nat) (c : Live) (b : Bytes) :
    Kept c.st (Live.postHandshake W now n c b).2.st := by
  induction n generalizing c b with
  | zero => exact .refl _
  | succ n ih =>
    rw [Live.postHandshake]
    split
    · exact .refl _
    · split
      · exact .refl _
      · dsimp only
        split
        · exact .refl _
        · have h := liveProcess_kept W c now ⟨b.getD 0 0, 0, (b.drop 4).take (beNat ((b.drop 1).take 3)), 0, 0⟩
          split
          · rename_i he
            rw [he] at h
            exact h.trans (ih _ _)
          · exact h

theorem consume_kept (W : World) (c : Live) (now : Int) : Kept c.st (c.consume W now).2.st := by
  unfold Live.consume
  split
  · rename_i pt r _
    unfold Live.handle
    split
    · exact postHandshake_kept W now _ { c with reader := r } _
    · split
      · split
        · split
          · exact .refl _
          · split
            · exact .refl _
            · split
              · exact .refl _
              · rw [abort_st]; exact .refl _
        · rw [abort_st]; exact .refl _
      · split
        · exact .refl _
        · split <;> exact .refl _
  · exact .refl _
  · exact .refl _
  · exact .refl _

theorem readLoop_kept (W : World) (now : Int) (fuel : Nat) (c : Live) : Kept c.st (Live.readLoop W now fuel c).2.st := by
  induction fuel generalizing c with
  | zero => rw [Live.readLoop]; split <;> exact .refl _
  | succ n ih =>
    rw [Live.readLoop]
    split
    · have h := consume_kept W c now
      split
      · rename_i he; rw [he] at h; exact h.trans (ih _)
      · rename_i he
        rw [he] at h
        split
        · exact h
        · exact h.trans (ih _)
      · exact h
    · exact .refl _

theorem writeAll_st (fs : List Bytes) (c : Live) (n : Nat) : (c.writeAll fs n).2.st = c.st := by
  induction fs generalizing c n with
  | nil => rfl
  | cons f fs ih =>
    have h := (writeRecord_same c 23 f).2
    rw [Live.writeAll]
    split
    · rename_i he; rw [he] at h; rw [ih, h]
    · rename_i he; rw [he] at h; exact h
    · rename_i he; rw [he] at h; exact h
    · rename_i he; rw [he] at h; exact h

theorem reply_snd (r : Res Unit × Live) : (reply r).2 = r.2 := by
  unfold reply
  split <;> rfl

/-- A call changes at most the traffic secrets. -/
theorem call_kept (W : World) (c : Live) (k : Call) : Kept c.st (c.call W k).2.st := by
  cases k with
  | read now fuel n =>
    have h : Kept c.st (c.read W now fuel n).2.st := by
      unfold Live.read
      split
      · exact .refl _
      · have h := readLoop_kept W now fuel c
        split <;> (rename_i he; rw [he] at h; exact h)
    unfold Live.call
    dsimp only
    split <;> (rename_i he; rw [he] at h; exact h)
  | write b =>
    have h : (c.write b).2.st = c.st := writeAll_st _ c 0
    unfold Live.call
    dsimp only
    split <;> (rename_i he; rw [he] at h; rw [h]; exact .refl _)
  | update request =>
    show Kept c.st (reply (c.update W request)).2.st
    rw [reply_snd]
    unfold Live.update
    split
    · rename_i s acts x h
      rw [orAbort_st, takeAll_st]
      exact keyUpdate_kept h
    · rw [abort_st]; exact .refl _
    · exact .refl _
    · exact .refl _
    · exact .refl _
  | ticket now l e a nonce tkt =>
    show Kept c.st (reply (c.ticket W now l e a nonce tkt)).2.st
    rw [reply_snd]
    unfold Live.ticket
    split
    · rename_i acts x h
      have ht := takeAll_st W acts { c with x := x }
      split
      · rename_i he; rw [he] at ht; rw [abort_st, ht]; exact .refl _
      · rw [ht]; exact .refl _
    · exact .refl _
    · exact .refl _
    · exact .refl _
  | close => exact .refl _

theorem calls_kept (W : World) (ks : List Call) (c : Live) : Kept c.st (Live.calls W c ks).2.st := by
  induction ks generalizing c with
  | nil => exact .refl _
  | cons k ks ih =>
    have h := call_kept W c k
    rw [Live.calls]
    split
    · rename_i he; rw [he] at h; exact h.trans (ih _)
    · rename_i he; rw [he] at h; exact h

end Verif.Conn
