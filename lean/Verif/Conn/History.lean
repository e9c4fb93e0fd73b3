import Verif.Conn.Writing

/-
The history of a connection is what is on the wire: every call keeps any property of the outgoing side that writing a
record, changing keys and closing the transport keep.
-/

namespace Verif.Conn

open Verif Verif.Crypto Verif.Messages Verif.Negotiation Verif.Handshake Verif.Machine Verif.Spec Verif.Record

/-- A property of the outgoing side that its elementary changes keep. -/
structure Stable (W : World) (P : Live → Prop) : Prop where
  record : ∀ c ct f, ct = 21 ∨ ct = 22 ∨ ct = 23 → P c → P (c.writeRecord ct f).2
  close : ∀ c, P c → P { c with closed := true }
  rekey : ∀ c e key iv, P c → P { c with out := c.out.rekey e (W.A c.st.cp key) iv, log := c.log ++ [.rekey e (W.A c.st.cp key) iv] }
  other : ∀ c c', c'.log = c.log → c'.wire = c.wire → c'.out = c.out → c'.closed = c.closed → P c → P c'

def noReset : Action → Bool
  | .resetOut _ => false
  | _ => true

section
variable {W : World} {P : Live → Prop} (hP : Stable W P)
include hP

theorem Stable.alert {c : Live} (h : P c) (a : Nat) : P (c.sendAlert a).2 := by
  unfold Live.sendAlert
  dsimp only
  have hr := hP.record c 21 [UInt8.ofNat a, if a = 100 ∨ a = Alert.closeNotify then 1 else 2] (by simp) h
  split
  · rename_i heq; rw [heq] at hr; exact hr
  · rename_i heq; rw [heq] at hr; exact hr
  · rename_i heq
    rw [heq] at hr
    dsimp only at hr ⊢
    split
    · exact hr
    · exact hP.close _ hr

theorem Stable.abort {c : Live} (h : P c) (a : Nat) (e : Err) : P (c.abort a e).2 := by
  unfold Live.abort
  have hr := hP.alert h a
  split
  · rename_i heq; rw [heq] at hr; exact hr
  · exact hr

theorem Stable.orAbort {r : Res Unit × Live} (h : P r.2) (e : Err) : P (Live.orAbort e r).2 := by
  unfold Live.orAbort
  split
  · exact hP.abort h _ e
  · exact h

theorem Stable.fragments (fs : List Bytes) {c : Live} (h : P c) : P (c.writeFragments fs).2 := by
  induction fs generalizing c with
  | nil => exact h
  | cons f fs ih =>
    unfold Live.writeFragments
    have hr := hP.record c 22 f (by simp) h
    split
    · rename_i heq; rw [heq] at hr; exact ih hr
    · exact hr

theorem Stable.action {c : Live} (h : P c) (a : Action) (ha : noReset a = true) : P (c.takeAction W a).2 := by
  cases a with
  | queue m =>
    simp only [Live.takeAction]
    split
    · have := hP.fragments ‹_› h
      rename_i fs _
      unfold internal
      split
      · rename_i heq; rw [heq] at this; exact this
      · exact this
    all_goals exact h
  | sendQueued => exact h
  | rekeyIn e k =>
    simp only [Live.takeAction]
    split
    · exact h
    · exact hP.other _ _ (by rfl) (by rfl) (by rfl) (by rfl) h
  | rekeyOut e k => exact hP.rekey _ _ _ _ h
  | resetOut s => cases ha
  | storePsk p => exact hP.other _ _ (by rfl) (by rfl) (by rfl) (by rfl) h

theorem Stable.actions (as : List Action) {c : Live} (h : P c) (ha : ∀ a ∈ as, noReset a = true) : P (c.takeAll W as).2 := by
  induction as generalizing c with
  | nil => exact h
  | cons a as ih =>
    unfold Live.takeAll
    have hr := hP.action h a (ha a (by simp))
    split
    · rename_i heq; rw [heq] at hr; exact ih hr (fun a h => ha a (by simp [h]))
    · exact hr

omit hP in
theorem keyUpdate_noReset {E : Env} {x x' : Ctx} {s s' : Connected} {r : UInt8} {acts : List Action}
    (h : s.keyUpdate E x r = .ok (s', acts, x')) : ∀ a ∈ acts, noReset a = true := by
  simp only [Connected.keyUpdate, Res.bind_eq_ok, Res.ok.injEq, Prod.mk.injEq] at h
  obtain ⟨-, -, -, -, -, -, -, rfl, -⟩ := h
  simp [noReset]

omit hP in
theorem process_noReset {E : Env} {x x' : Ctx} {s s' : Connected} {now : Int} {m : Msg} {acts : List Action}
    (h : s.process E x now m = .ok (s', acts, x')) : ∀ a ∈ acts, noReset a = true := by
  simp only [Connected.process, Res.bind_eq_ok] at h
  obtain ⟨body, -, h⟩ := h
  split at h
  · simp only [Res.bind_eq_ok] at h
    obtain ⟨⟨t, s1⟩, -, k, -, h⟩ := h
    split at h
    · simp only [Res.bind_eq_ok, Res.ok.injEq, Prod.mk.injEq] at h
      obtain ⟨⟨s2, acts', x2⟩, hk, -, rfl, -⟩ := h
      have := keyUpdate_noReset hk
      intro a ha
      rcases List.mem_cons.1 ha with rfl | ha
      · rfl
      · exact this a ha
    · simp only [Res.ok.injEq, Prod.mk.injEq] at h
      obtain ⟨-, rfl, -⟩ := h
      simp [noReset]
  · split at h
    · simp [Machine.alert] at h
    · simp only [Res.bind_eq_ok, Res.ok.injEq, Prod.mk.injEq] at h
      obtain ⟨psk, -, -, rfl, -⟩ := h
      simp [noReset]
  · simp [Machine.alert] at h

theorem Stable.process {c : Live} (h : P c) (now : Int) (m : Msg) : P (c.process W now m).2 := by
  unfold Live.process
  split
  · rename_i s acts x hp
    have hr := hP.actions acts (hP.other c { c with x := x } rfl rfl rfl rfl h) (process_noReset hp)
    split
    · rename_i heq; rw [heq] at hr; exact hP.other _ _ (by rfl) (by rfl) (by rfl) (by rfl) hr
    · exact hP.orAbort hr _
  · exact hP.abort h _ _
  all_goals exact h

theorem Stable.postHandshake (now : Int) (n : Nat) {c : Live} (h : P c) (b : Bytes) : P (Live.postHandshake W now n c b).2 := by
  induction n generalizing c b with
  | zero => exact h
  | succ n ih =>
    unfold Live.postHandshake
    dsimp only
    split
    · exact h
    · split
      · exact h
      · split
        · exact h
        · have hr := hP.process h now ⟨b.getD 0 0, 0, (b.drop 4).take (beNat ((b.drop 1).take 3)), 0, 0⟩
          split
          · rename_i heq; rw [heq] at hr; exact ih hr _
          · exact hr

theorem Stable.handle {c : Live} (h : P c) (now : Int) (ct : UInt8) (f : Bytes) : P (c.handle W now ct f).2 := by
  unfold Live.handle
  split
  · exact hP.postHandshake now _ h _
  · split
    · split
      · split
        · exact h
        · split
          · exact h
          · split
            · exact h
            · exact hP.abort h _ _
      · exact hP.abort h _ _
    · split
      · exact h
      · split
        · exact hP.other _ _ (by rfl) (by rfl) (by rfl) (by rfl) h
        · exact h

theorem Stable.consume {c : Live} (h : P c) (now : Int) : P (c.consume W now).2 := by
  unfold Live.consume
  split
  · rename_i pt r _
    exact hP.handle (c := { c with reader := r }) (hP.other c _ rfl rfl rfl rfl h) now _ _
  all_goals exact hP.other c _ rfl rfl rfl rfl h

theorem Stable.readLoop (now : Int) (fuel : Nat) {c : Live} (h : P c) : P (Live.readLoop W now fuel c).2 := by
  induction fuel generalizing c with
  | zero => unfold Live.readLoop; split <;> exact h
  | succ n ih =>
    unfold Live.readLoop
    split
    · have hr := hP.consume h now
      split
      · rename_i heq; rw [heq] at hr; exact ih hr
      · rename_i heq
        rw [heq] at hr
        split
        · exact hr
        · exact ih hr
      · exact hr
    · exact h

theorem Stable.writeAll (fs : List Bytes) (sent : Nat) {c : Live} (h : P c) : P (c.writeAll fs sent).2 := by
  induction fs generalizing c sent with
  | nil => exact h
  | cons f fs ih =>
    unfold Live.writeAll
    have hr := hP.record c 23 f (by simp) h
    split
    · rename_i heq; rw [heq] at hr; exact ih _ hr
    all_goals rename_i heq; rw [heq] at hr; exact hr

theorem Stable.call {c : Live} (h : P c) (k : Call) : P (c.call W k).2 := by
  have hreply : ∀ r : Res Unit × Live, P r.2 → P (reply r).2 := by
    intro r hr
    unfold reply
    split <;> exact hr
  cases k with
  | read now fuel n =>
    simp only [Live.call, Live.read]
    split
    all_goals
      rename_i heq
      split at heq
      · simp only [Prod.mk.injEq] at heq
        obtain ⟨-, rfl⟩ := heq
        exact h
      · have hr := hP.readLoop now fuel h
        split at heq
        all_goals
          rename_i hl
          rw [hl] at hr
          simp only [Prod.mk.injEq] at heq
          obtain ⟨-, rfl⟩ := heq
          exact hP.other _ _ (by rfl) (by rfl) (by rfl) (by rfl) hr
  | write b =>
    simp only [Live.call]
    have hr := hP.writeAll (Conn.fragments b.length b) 0 h
    split <;> (rename_i heq; unfold Live.write at heq; rw [heq] at hr; exact hr)
  | update request =>
    refine hreply _ ?_
    unfold Live.update
    split
    · rename_i s acts x hk
      exact hP.orAbort (hP.actions acts (c := { c with st := s, x := x }) (hP.other c _ rfl rfl rfl rfl h) (keyUpdate_noReset hk)) _
    · exact hP.abort h _ _
    all_goals exact h
  | ticket now l e a nonce tkt =>
    refine hreply _ ?_
    unfold Live.ticket
    split
    · rename_i acts x hk
      have ha : ∀ a ∈ acts, noReset a = true := by
        simp only [Connected.newSessionTicket, Res.bind_eq_ok, Res.ok.injEq, Prod.mk.injEq] at hk
        obtain ⟨_, -, _, -, _, -, rfl, -⟩ := hk
        simp [noReset]
      have hr := hP.actions acts (hP.other c { c with x := x } rfl rfl rfl rfl h) ha
      split
      · rename_i heq; rw [heq] at hr; exact hP.abort hr _ _
      · exact hr
    all_goals exact h
  | close => exact hP.close _ h

theorem Stable.calls (ks : List Call) {c : Live} (h : P c) : P (Live.calls W c ks).2 := by
  induction ks generalizing c with
  | nil => exact h
  | cons k ks ih =>
    unfold Live.calls
    have hr := hP.call h k
    split
    · rename_i heq; rw [heq] at hr; exact ih hr
    · rename_i heq; rw [heq] at hr; exact hr

end

/-! ### What is on the wire -/

theorem sendAll_append (k : Record.Keys) (L M : List Item) : sendAll k (L ++ M) =
    (sendAll k L).bind fun (b, k') => (sendAll k' M).bind fun (b', k'') => .ok (b ++ b', k'') := by
  induction L generalizing k with
  | nil => cases h : sendAll k M <;> simp [sendAll, h]
  | cons i L ih =>
    cases i with
    | record ct f pad =>
      simp only [List.cons_append, sendAll]
      cases h : Record.writeRecord k k.cur ct f pad with
      | ok z =>
        obtain ⟨rec, k'⟩ := z
        simp only [Res.bind_ok, ih, Res.bind_assoc]
        cases h' : sendAll k' L with
        | ok z' =>
          obtain ⟨b, k''⟩ := z'
          simp only [Res.bind_ok]
          cases h'' : sendAll k'' M <;> simp [List.append_assoc]
        | err e => rfl
        | panic => rfl
        | diverge => rfl
      | err e => rfl
      | panic => rfl
      | diverge => rfl
    | rekey e a iv => simp only [List.cons_append, sendAll, ih]

/-- What is on the wire is what results from sending the history. -/
def OnWire (k0 : Record.Keys) (c : Live) : Prop := ∃ k, sendAll k0 c.log = .ok (c.wire, k) ∧ (c.closed = false → k = c.out)

theorem onWire_stable (W : World) (k0 : Record.Keys) : Stable W (OnWire k0) where
  record c ct f _ h := by
    obtain ⟨k, h1, h2⟩ := h
    unfold Live.writeRecord
    split
    · rename_i rec k' hw
      cases hc : c.closed with
      | true =>
        rw [if_pos rfl]
        exact ⟨k, h1, fun h => absurd h (by simp)⟩
      | false =>
        rw [if_neg (by decide)]
        refine ⟨k', ?_, fun _ => rfl⟩
        rw [h2 hc] at h1
        simp [sendAll_append, h1, sendAll, hw]
    all_goals exact ⟨k, h1, h2⟩
  close c h := by
    obtain ⟨k, h1, h2⟩ := h
    exact ⟨k, h1, fun h => absurd h (by simp)⟩
  rekey c e key iv h := by
    obtain ⟨k, h1, h2⟩ := h
    exact ⟨k.rekey e (W.A c.st.cp key) iv, by simp [sendAll_append, h1, sendAll], fun hc => by rw [h2 hc]⟩
  other c c' h1 h2 h3 h4 h := by
    obtain ⟨k, g1, g2⟩ := h
    exact ⟨k, by rw [h1, h2]; exact g1, fun hc => by rw [h3]; exact g2 (h4 ▸ hc)⟩

/-- Whatever calls are made, the bytes given to the transport are the records of the history, in order, sealed under the keys
in force at the time: as the record layer does it for the items of the history. -/
theorem calls_onWire (W : World) (c : Live) (ks : List Call) (h1 : c.log = []) (h2 : c.wire = []) :
    ∃ k, sendAll c.out (Live.calls W c ks).2.log = .ok ((Live.calls W c ks).2.wire, k) := by
  obtain ⟨k, h, -⟩ := (onWire_stable W c.out).calls ks (c := c) ⟨c.out, by rw [h1, h2]; rfl, fun _ => rfl⟩
  exact ⟨k, h⟩

end Verif.Conn
