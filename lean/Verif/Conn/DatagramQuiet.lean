import Verif.Conn.DatagramSending

/-
A DTLS connection whose transport is closed sends nothing: lemmas for C82.
-/

namespace Verif.Props

open Verif Verif.Crypto Verif.Messages Verif.Negotiation Verif.Handshake Verif.Machine Verif.Spec Verif.Conn Verif.Record

/-- Nothing was sent, and the transport is closed. -/
def Quiet (c c' : DLive) : Prop := c'.closed = true ∧ c'.out.wire = c.out.wire

theorem Quiet.refl {c : DLive} (h : c.closed = true) : Quiet c c := ⟨h, rfl⟩

theorem Quiet.trans {a b c : DLive} (h : Quiet a b) (h' : Quiet b c) : Quiet a c := ⟨h'.1, h'.2.trans h.2⟩

theorem quiet_sends {c : DLive} (h : c.closed = true) (op : OutOp) : Quiet c (c.sends (c.out.op op)).2 := by
  cases ho : c.out.op op with
  | ok o =>
    simp only [DLive.sends]
    split
    · exact .refl h
    · rename_i hc
      have hle : ¬ o.wire.length > c.out.wire.length := fun hh => hc ⟨h, hh⟩
      exact ⟨h, ((op_wire ho).eq_of_length_le (by omega)).symm⟩
  | err e => exact .refl h
  | panic => exact .refl h
  | diverge => exact .refl h

theorem quiet_abort {c : DLive} (h : c.closed = true) (a : Nat) (e : Err) : Quiet c (c.abort a e).2 := by
  have hs := quiet_sends h (.other 21 [UInt8.ofNat a, if a = 100 ∨ a = Alert.closeNotify then 1 else 2])
  unfold DLive.abort DLive.sendAlert
  dsimp only
  change Quiet c (c.writeRecord 21 _).2 at hs
  rcases hw : c.writeRecord 21 [UInt8.ofNat a, if a = 100 ∨ a = Alert.closeNotify then 1 else 2] with ⟨r, c'⟩
  rw [hw] at hs
  dsimp only at hs
  cases r with
  | panic => exact hs
  | diverge => exact hs
  | ok u =>
    dsimp only
    by_cases hl : (if a = 100 ∨ a = Alert.closeNotify then (1 : UInt8) else 2) = 1
    · rw [if_pos hl]; exact hs
    · rw [if_neg hl]; exact ⟨rfl, hs.2⟩
  | err u =>
    dsimp only
    by_cases hl : (if a = 100 ∨ a = Alert.closeNotify then (1 : UInt8) else 2) = 1
    · rw [if_pos hl]; exact hs
    · rw [if_neg hl]; exact ⟨rfl, hs.2⟩

theorem quiet_orAbort {c : DLive} {r : Res Unit × DLive} (h : Quiet c r.2) (e : Err) : Quiet c (DLive.orAbort e r).2 := by
  unfold DLive.orAbort
  split
  · exact h.trans (quiet_abort h.1 _ _)
  · exact h

theorem quiet_action {W : World} {c : DLive} (h : c.closed = true) (a : Action) : Quiet c (c.takeAction W a).2 := by
  cases a with
  | queue m => rw [DLive.takeAction, dInternal_snd]; exact quiet_sends h _
  | sendQueued => rw [DLive.takeAction, dInternal_snd]; exact quiet_sends h _
  | rekeyIn e k => rw [DLive.takeAction]; split <;> exact ⟨h, rfl⟩
  | rekeyOut e k => exact quiet_sends h _
  | resetOut v => exact quiet_sends h _
  | storePsk p => exact ⟨h, rfl⟩

theorem quiet_actions {W : World} (as : List Action) {c : DLive} (h : c.closed = true) : Quiet c (c.takeAll W as).2 := by
  induction as generalizing c with
  | nil => exact .refl h
  | cons a as ih =>
    rw [DLive.takeAll]
    have hr := quiet_action (W := W) h a
    split
    · rename_i he; rw [he] at hr; exact hr.trans (ih hr.1)
    · exact hr

theorem quiet_process {W : World} {c : DLive} (h : c.closed = true) (now : Int) (m : Msg) : Quiet c (c.process W now m).2 := by
  unfold DLive.process
  split
  · rename_i s acts x _
    have hr : Quiet c (({ c with x := x } : DLive).takeAll W acts).2 := quiet_actions (c := { c with x := x }) acts h
    split
    · rename_i he; rw [he] at hr; exact hr
    · exact quiet_orAbort hr _
  · exact quiet_abort h _ _
  all_goals exact .refl h

theorem quiet_post {W : World} (now : Int) (n : Nat) {c : DLive} (h : c.closed = true) (d : Bytes) :
    Quiet c (DLive.postHandshake W now n c d).2 := by
  induction n generalizing c d with
  | zero => exact .refl h
  | succ n ih =>
    unfold DLive.postHandshake
    split
    · exact .refl h
    · split
      · exact .refl h
      · dsimp only
        split
        · exact .refl h
        · have hr := quiet_process (W := W) h now ⟨d.getD 0 0, 0, (d.drop 12).take (beNat ((d.drop 1).take 3)), 0, 0⟩
          split
          · rename_i he; rw [he] at hr; exact hr.trans (ih hr.1 _)
          · exact hr

theorem quiet_handle {W : World} {c : DLive} (h : c.closed = true) (now : Int) (ct : UInt8) (f : Bytes) : Quiet c (c.handle W now ct f).2 := by
  unfold DLive.handle
  split
  · exact quiet_post now _ h _
  · split
    · split
      · split
        · exact .refl h
        · split
          · exact .refl h
          · split
            · exact .refl h
            · exact quiet_abort h _ _
      · exact quiet_abort h _ _
    · split
      · exact quiet_sends h _
      · split
        · exact ⟨h, rfl⟩
        · exact .refl h

theorem quiet_consume {W : World} {c : DLive} (h : c.closed = true) (now : Int) : Quiet c (c.consume W now).2 := by
  unfold DLive.consume
  split
  · rename_i pt r _
    exact quiet_handle (c := { c with reader := r }) h now _ _
  all_goals exact ⟨h, rfl⟩

theorem quiet_readLoop {W : World} (now : Int) (fuel : Nat) {c : DLive} (h : c.closed = true) : Quiet c (DLive.readLoop W now fuel c).2 := by
  induction fuel generalizing c with
  | zero => unfold DLive.readLoop; split <;> exact .refl h
  | succ fuel ih =>
    unfold DLive.readLoop
    split
    · have hr := quiet_consume (W := W) h now
      split
      · rename_i he; rw [he] at hr; exact hr.trans (ih hr.1)
      · rename_i he
        rw [he] at hr
        split
        · exact hr
        · exact hr.trans (ih hr.1)
      · exact hr
    · exact .refl h

theorem quiet_writeAll (fs : List Bytes) (sent : Nat) {c : DLive} (h : c.closed = true) : Quiet c (c.writeAll fs sent).2 := by
  induction fs generalizing c sent with
  | nil => exact .refl h
  | cons f fs ih =>
    unfold DLive.writeAll
    have hr : Quiet c (c.writeRecord 23 f).2 := quiet_sends h (.other 23 f)
    split <;> rename_i he <;> rw [he] at hr
    · exact hr.trans (ih _ hr.1)
    all_goals exact hr

theorem dReply_snd (r : Res Unit × DLive) : (dReply r).2 = r.2 := by
  unfold dReply; split <;> rfl

/-- No record gets written. -/
theorem writeRecord_closed {c c' : DLive} (h : c.closed = true) (ct : UInt8) (f : Bytes) : c.writeRecord ct f ≠ (.ok (), c') := by
  intro hw
  unfold DLive.writeRecord DLive.sends at hw
  split at hw
  · rename_i o ho
    obtain ⟨rec, rfl, -⟩ := emit_ok (show c.out.emit _ _ _ _ = .ok o from ho)
    rw [if_pos ⟨h, by simp⟩] at hw
    cases hw
  all_goals cases hw

theorem quiet_call {W : World} {c : DLive} (h : c.closed = true) (k : DCall) :
    Quiet c (c.call W k).2 ∧ ∀ b r, k = .write b → b ≠ [] → (c.call W k).1 = .ok r → r.wrote = [] ∧ r.error ≠ none := by
  cases k with
  | read now expired fuel n =>
    refine ⟨?_, fun b r hb => by cases hb⟩
    have key : Quiet c (c.read W now expired fuel n).2 := by
      unfold DLive.read
      split
      · exact .refl h
      · have ht : Quiet c (c.checkTimers expired).2 := by
          unfold DLive.checkTimers
          split
          · rw [dInternal_snd]; exact quiet_sends h _
          · exact .refl h
        split <;> rename_i he <;> rw [he] at ht
        · rename_i c0
          have hl := ht.trans (quiet_readLoop (W := W) now fuel ht.1)
          split <;> rename_i he2 <;> rw [he2] at hl
          · exact hl
          all_goals exact hl
        all_goals exact ht
    simp only [DLive.call]
    split <;> rename_i he <;> rw [he] at key <;> exact key
  | write b =>
    constructor
    · have key := quiet_writeAll (Conn.fragments b.length b) 0 h
      simp only [DLive.call, DLive.write]
      split <;> rename_i he <;> rw [he] at key <;> exact key
    · intro b' r hb hne hr
      cases hb
      simp only [DLive.call, DLive.write] at hr
      cases hf : Conn.fragments b.length b with
      | nil =>
        have := fragments_flatten b.length b
        rw [hf] at this
        exact absurd this.symm hne
      | cons f fs =>
        rw [hf, DLive.writeAll] at hr
        rcases hw : c.writeRecord 23 f with ⟨r', c'⟩
        rw [hw] at hr
        cases r' with
        | ok u => exact absurd hw (writeRecord_closed h 23 f)
        | err e =>
          simp only [Res.ok.injEq] at hr
          subst hr
          exact ⟨by simp, by simp⟩
        | panic => cases hr
        | diverge => cases hr
  | update request =>
    refine ⟨?_, fun b r hb => by cases hb⟩
    simp only [DLive.call, dReply_snd]
    unfold DLive.update
    split
    · rename_i s acts x _
      exact quiet_orAbort (quiet_actions (c := { c with st := s, x := x }) acts h) _
    · exact quiet_abort h _ _
    all_goals exact .refl h
  | ticket now l e a nonce tkt =>
    refine ⟨?_, fun b r hb => by cases hb⟩
    simp only [DLive.call, dReply_snd]
    unfold DLive.ticket
    split
    · rename_i acts x _
      have hr : Quiet c (({ c with x := x } : DLive).takeAll W acts).2 := quiet_actions (c := { c with x := x }) acts h
      split
      · rename_i he; rw [he] at hr; exact hr.trans (quiet_abort hr.1 _ _)
      · exact hr
    all_goals exact .refl h
  | close => exact ⟨⟨rfl, rfl⟩, fun b r hb => by cases hb⟩

theorem quiet_calls {W : World} (ks : List DCall) {c : DLive} (h : c.closed = true) :
    Quiet c (c.calls W ks).2 ∧ ∀ b r, (DCall.write b, r) ∈ (c.calls W ks).1 → b ≠ [] → r.wrote = [] ∧ r.error ≠ none := by
  induction ks generalizing c with
  | nil => exact ⟨.refl h, by simp [DLive.calls]⟩
  | cons k ks ih =>
    obtain ⟨hq, hw⟩ := quiet_call (W := W) h k
    unfold DLive.calls
    split
    · rename_i r c' he
      rw [he] at hq hw
      obtain ⟨i1, i2⟩ := ih hq.1
      refine ⟨hq.trans i1, ?_⟩
      intro b r' hm hb
      rcases List.mem_cons.mp hm with hm | hm
      · cases hm; exact hw b _ rfl hb rfl
      · exact i2 b r' hm hb
    · rename_i he
      rw [he] at hq
      exact ⟨hq, by simp⟩

end Verif.Props
