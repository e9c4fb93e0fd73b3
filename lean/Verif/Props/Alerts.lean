import Verif.Props.Stream
import Verif.Handshake.Layer

/-
C52: alerts. `Conn.sendAlert` (conn.go:512-536) puts the description before the level, while every reader in mint, as
RFC 8446 section 6, expects the level before the description.
-/

namespace Verif.Props

open Verif Verif.Crypto Verif.Messages Verif.Negotiation Verif.Handshake Verif.Machine Verif.Conn Verif.Spec Verif.Record

theorem sendAlert_sent {c : Live} {A : Aead} (h : CanWrite c A) (hov : A.overhead ≤ 255) (a : Nat) :
    ∃ level : UInt8, (level = 1 ↔ a = 100 ∨ a = 0) ∧ (level = 1 ∨ level = 2) ∧
      (c.sendAlert a).2.log = c.log ++ [.record 21 [UInt8.ofNat a, level] 0] ∧ (c.sendAlert a).1 = .ok () := by
  refine ⟨if a = 100 ∨ a = Alert.closeNotify then 1 else 2, ?_, ?_, ?_⟩
  · show _ ↔ a = 100 ∨ a = Alert.closeNotify
    split <;> simp_all
  · split <;> simp
  · have hw := (writeRecord_iff h 21 [UInt8.ofNat a, if a = 100 ∨ a = Alert.closeNotify then 1 else 2]).1
      (by simp only [List.length_cons, List.length_nil]; omega)
    unfold Live.sendAlert
    dsimp only
    generalize (if a = 100 ∨ a = Alert.closeNotify then 1 else 2 : UInt8) = level at hw ⊢
    revert hw
    unfold Live.writeRecord
    cases Record.writeRecord c.out c.out.cur 21 [UInt8.ofNat a, level] 0 with
    | ok z =>
      obtain ⟨rec, k⟩ := z
      simp only [h.opened, Bool.false_eq_true, if_false]
      intro _
      split <;> simp
    | err e => intro hw; cases hw
    | panic => intro hw; cases hw
    | diverge => intro hw; cases hw

/-- C52 fails for every alert, close_notify included (1 and 2 are not alerts): what the sender puts into the record is taken
by the connection that reads it for an alert of unknown level. Whatever was sent, the reader answers unexpected_message,
closes, and Read reports end of file. -/
theorem C52_decode_fails (W : World) (c d : Live) (A : Aead) (h : CanWrite c A) (hov : A.overhead ≤ 255) (a : Nat) (ha : a < 256)
    (h1 : a ≠ 1) (h2 : a ≠ 2) (now : Int) :
    ∃ f, (c.sendAlert a).2.log = c.log ++ [.record 21 f 0] ∧ f.length = 2 ∧
      d.handle W now 21 f = d.abort Alert.unexpectedMessage .eof := by
  obtain ⟨level, -, hl, hlog, -⟩ := sendAlert_sent h hov a
  refine ⟨_, hlog, rfl, ?_⟩
  have e1 : UInt8.ofNat a ≠ 1 := by
    intro he
    have := congrArg UInt8.toNat he
    simp at this
    omega
  have e2 : UInt8.ofNat a ≠ 2 := by
    intro he
    have := congrArg UInt8.toNat he
    simp at this
    omega
  unfold Live.handle
  rw [if_neg (by decide), if_pos rfl]
  dsimp only
  rw [if_neg (by rcases hl with rfl | rfl <;> decide), if_neg e1, if_neg e2]

/-- The same during the handshake: every alert is taken for the alert with its level as a code, 1 or 2, neither of which is
the code of an alert. -/
theorem C52_handshake_decode_fails (c : Live) (A : Aead) (h : CanWrite c A) (hov : A.overhead ≤ 255) (a : Nat) (s : HsIn)
    (onAck : Bytes → Res Unit) (epoch seq : Nat) :
    ∃ f, (c.sendAlert a).2.log = c.log ++ [.record 21 f 0] ∧
      (s.readRecord onAck (.ok ⟨21, epoch, seq, f⟩) = .err (.alert 1) ∨ s.readRecord onAck (.ok ⟨21, epoch, seq, f⟩) = .err (.alert 2)) := by
  obtain ⟨level, -, hl, hlog, -⟩ := sendAlert_sent h hov a
  refine ⟨_, hlog, ?_⟩
  rcases hl with rfl | rfl
  · exact .inl rfl
  · exact .inr rfl

/-- In the toy world. The client sends what only a server may send; the server answers unexpected_message (10), as its
history shows; but the client's Read reports end of file, as it does for a close_notify. -/
example : ∃ (cl sv : Connected) (co ci so si : Machine.Keys) (x y : Ctx) (ks ks' : List Call),
    Established Toy.world cl sv co ci so si ∧
    let sent := (Live.calls Toy.world (Live.start Toy.world cl x true [97] co ci 0 []) ks).2.wire
    let server := (Live.calls Toy.world (Live.start Toy.world sv y true [] so si 0 [.ok sent]) ks').2
    server.log = [.record 21 [10, 2] 0] ∧
    ((Live.calls Toy.world (Live.start Toy.world cl x true [97] co ci 0 [.ok server.wire]) [.read 0 9 9]).1.map fun r => r.2.error) =
      [some .eof] := by
  obtain ⟨cl, x, co, ci, sv, y, so, si, ca, sa, hc, hs, h1, h2, h3, h4, h⟩ := Toy.linked_ok
    (f := fun c x co ci s y so si => c.cp == s.cp && c.clientAp == s.clientAp && c.serverAp == s.serverAp &&
      (let sent := (Live.calls Toy.world (Live.start Toy.world c x true [97] co ci 0 []) [.ticket 0 1 0 0 [] [1]]).2.wire
       let server := (Live.calls Toy.world (Live.start Toy.world s y true [] so si 0 [.ok sent]) [.read 0 9 9]).2
       (match server.log with
        | [.record 21 [10, 2] 0] => true
        | _ => false) &&
       ((Live.calls Toy.world (Live.start Toy.world c x true [97] co ci 0 [.ok server.wire]) [.read 0 9 9]).1.map fun r => r.2.error) ==
         [some .eof]))
    (r := clientRun Toy.env Toy.tls Toy.pskClient (Toy.coins 2) (Toy.exchange Toy.tls Toy.pskClient Toy.pskServer 2).1)
    (r' := serverRun Toy.env Toy.tls Toy.pskServer (Toy.exchange Toy.tls Toy.pskClient Toy.pskServer 2).2) (by decide +kernel)
  simp only [Bool.and_eq_true, beq_iff_eq] at h
  obtain ⟨⟨⟨h5, h6⟩, h7⟩, h8, h9⟩ := h
  refine ⟨cl, sv, co, ci, so, si, x, y, _, _, ⟨⟨_, _, _, _, _, _, _, _, _, _, _, hc, hs, h1, h2, h3, h4⟩, h5, h6, h7⟩, ?_, h9⟩
  split at h8
  · assumption
  · cases h8

/-- C52, the reading side: a record with the level before the description, as a peer other than mint sends it, is reported
by Read as the alert it is, both on a connection and during a handshake; except that would_block, Alert(254), a value mint
uses itself, is reported as if nothing had been received. close_notify is reported as end of file. Missing: what
`Conn.sendAlert` sends has another order. -/
theorem C52_decode_partial (W : World) (d : Live) (now : Int) (code : UInt8) (h0 : code ≠ 0) (hw : code ≠ 254) (s : HsIn)
    (onAck : Bytes → Res Unit) (epoch seq : Nat) (level : UInt8) :
    d.handle W now 21 [2, code] = (.err (.alert code.toNat), d) ∧ d.handle W now 21 [level, 0] = (.err .eof, d) ∧
    s.readRecord onAck (.ok ⟨21, epoch, seq, [2, code]⟩) = .err (.alert code.toNat) := by
  refine ⟨?_, ?_, ?_⟩
  · unfold Live.handle
    rw [if_neg (by decide), if_pos rfl]
    dsimp only
    rw [if_neg h0, if_neg (by decide), if_pos rfl, alertErr, if_neg hw]
  · unfold Live.handle
    rw [if_neg (by decide), if_pos rfl]
    dsimp only
    rw [if_pos rfl]
  · show Res.err (alertErr code) = _
    rw [alertErr, if_neg hw]

/-- The exception: would_block from the peer. -/
theorem C52_would_block_fails (W : World) (d : Live) (now : Int) : d.handle W now 21 [2, 254] = (.err .wouldBlock, d) := rfl

/-! ### Fatal alerts and the sender -/

theorem silent_stable (W : World) (w : Bytes) (l : List Item) : Stable W fun c => c.closed = true ∧ c.wire = w ∧
    (c.log.filter fun i => match i with | .record _ _ _ => true | .rekey _ _ _ => false) = l where
  record c ct f _ h := by
    unfold Live.writeRecord
    split
    · rw [if_pos h.1]; exact h
    all_goals exact h
  close c h := ⟨rfl, h.2⟩
  rekey c e a iv h := ⟨h.1, h.2.1, by simp [h.2.2]⟩
  other c c' h1 h2 h3 h4 h := ⟨by rw [h4]; exact h.1, by rw [h2]; exact h.2.1, by rw [h1]; exact h.2.2⟩

theorem closed_write {c : Live} (h : c.closed = true) (b : Bytes) (hb : b ≠ []) :
    (∃ e, (c.write b).1 = .ok (0, some e)) ∨ (c.write b).1 = .panic ∨ (c.write b).1 = .diverge := by
  obtain ⟨f, fs, hfr⟩ : ∃ f fs, fragments b.length b = f :: fs := by
    cases hn : b.length with
    | zero => exact absurd (List.eq_nil_of_length_eq_zero hn) hb
    | succ n =>
      rw [fragments]
      split
      · exact ⟨_, _, rfl⟩
      · exact ⟨_, _, rfl⟩
  unfold Live.write
  rw [hfr, Live.writeAll]
  unfold Live.writeRecord
  cases Record.writeRecord c.out c.out.cur 23 f 0 with
  | ok z => simp only [h, if_true]; exact .inl ⟨_, rfl⟩
  | err e => exact .inl ⟨_, rfl⟩
  | panic => exact .inr (.inl rfl)
  | diverge => exact .inr (.inr rfl)

theorem sendAlert_closed {c : Live} {A : Aead} (h : CanWrite c A) (hov : A.overhead ≤ 255) (a : Nat) (h0 : a ≠ 0) (h100 : a ≠ 100) :
    (c.sendAlert a).2.closed = true := by
  obtain ⟨-, -, -, -, hok⟩ := sendAlert_sent h hov a
  have hl : ¬ (a = 100 ∨ a = Alert.closeNotify) := by
    rintro (e | e)
    · exact h100 e
    · exact h0 e
  revert hok
  unfold Live.sendAlert
  dsimp only
  rw [if_neg hl]
  split
  · intro e; cases e
  · intro e; cases e
  · intro _; rw [if_neg (by decide)]

/-- C52, the sender of a fatal alert: whatever calls are made afterwards, nothing more is given to the transport, and Write
does not report a single byte. Missing: the peer, for which see below. -/
theorem C52_sender_partial (W : World) (c : Live) (A : Aead) (h : CanWrite c A) (hov : A.overhead ≤ 255) (a : Nat) (h0 : a ≠ 0)
    (h100 : a ≠ 100) (ks : List Call) :
    let c1 := (c.sendAlert a).2
    (Live.calls W c1 ks).2.wire = c1.wire ∧
    ∀ b, b ≠ [] → (∃ e, ((Live.calls W c1 ks).2.write b).1 = .ok (0, some e)) ∨
      ((Live.calls W c1 ks).2.write b).1 = .panic ∨ ((Live.calls W c1 ks).2.write b).1 = .diverge := by
  have := (silent_stable W (c.sendAlert a).2.wire _).calls ks ⟨sendAlert_closed h hov a h0 h100, rfl, rfl⟩
  exact ⟨this.2.1, fun b hb => closed_write this.1 b hb⟩

/-! ### Fatal alerts and the receiver -/

/-- C52 fails for the receiver of a fatal alert, whatever it is: reporting it is all that happens. The connection is not
closed, and whatever was possible before is possible afterwards: Write succeeds and puts records on the wire. -/
theorem C52_receiver_fails (W : World) (d : Live) (A : Aead) (h : CanWrite d A) (now : Int) (code : UInt8) (hc : code ≠ 0) (b : Bytes)
    (hb : b.length + 1 + A.overhead ≤ 2 ^ 14) :
    ∃ e, d.handle W now 21 [2, code] = (.err e, d) ∧ ((d.handle W now 21 [2, code]).2.write b).1 = .ok (b.length, none) := by
  have hh : d.handle W now 21 [2, code] = (.err (alertErr code), d) := by
    unfold Live.handle
    rw [if_neg (by decide), if_pos rfl]
    dsimp only
    rw [if_neg hc, if_neg (by decide), if_pos rfl]
  refine ⟨_, hh, ?_⟩
  rw [hh]
  exact C50_write_partial d A h b hb

/-- In the toy world: the server sends a fatal alert with the level first, and application data after it, as no honest server
does. The client reports the alert, then returns the data, and then still writes. -/
example : ∃ (cl sv : Connected) (co ci so si : Machine.Keys) (x y : Ctx) (wire : Bytes),
    Established Toy.world cl sv co ci so si ∧
    wire = ((Live.start Toy.world sv y true [] so si 0 []).writeRecord 21 [2, 40]).2.wire ++
      ((((Live.start Toy.world sv y true [] so si 0 []).writeRecord 21 [2, 40]).2.writeRecord 23 [7, 8]).2.wire.drop
        ((Live.start Toy.world sv y true [] so si 0 []).writeRecord 21 [2, 40]).2.wire.length) ∧
    ((Live.calls Toy.world (Live.start Toy.world cl x true [97] co ci 0 [.ok wire]) [.read 0 9 9, .read 0 9 9, .write [5]]).1.map
      fun r => (r.2.bytes, r.2.wrote, r.2.error)) = [([], [], some (.alert 40)), ([7, 8], [], none), ([], [5], none)] := by
  obtain ⟨cl, x, co, ci, sv, y, so, si, ca, sa, hc, hs, h1, h2, h3, h4, h⟩ := Toy.linked_ok
    (f := fun c x co ci s y so si => c.cp == s.cp && c.clientAp == s.clientAp && c.serverAp == s.serverAp &&
      (let wire := ((Live.start Toy.world s y true [] so si 0 []).writeRecord 21 [2, 40]).2.wire ++
         ((((Live.start Toy.world s y true [] so si 0 []).writeRecord 21 [2, 40]).2.writeRecord 23 [7, 8]).2.wire.drop
           ((Live.start Toy.world s y true [] so si 0 []).writeRecord 21 [2, 40]).2.wire.length)
       ((Live.calls Toy.world (Live.start Toy.world c x true [97] co ci 0 [.ok wire]) [.read 0 9 9, .read 0 9 9, .write [5]]).1.map
         fun r => (r.2.bytes, r.2.wrote, r.2.error)) == [([], [], some (.alert 40)), ([7, 8], [], none), ([], [5], none)]))
    (r := clientRun Toy.env Toy.tls Toy.pskClient (Toy.coins 2) (Toy.exchange Toy.tls Toy.pskClient Toy.pskServer 2).1)
    (r' := serverRun Toy.env Toy.tls Toy.pskServer (Toy.exchange Toy.tls Toy.pskClient Toy.pskServer 2).2) (by decide +kernel)
  simp only [Bool.and_eq_true, beq_iff_eq] at h
  obtain ⟨⟨⟨h5, h6⟩, h7⟩, h8⟩ := h
  exact ⟨cl, sv, co, ci, so, si, x, y, _, ⟨⟨_, _, _, _, _, _, _, _, _, _, _, hc, hs, h1, h2, h3, h4⟩, h5, h6, h7⟩, rfl, h8⟩

/-- A connection that can write, with an AEAD of small overhead; and one that has sent a fatal alert cannot write. -/
example : ∃ (c : Live) (A : Aead), CanWrite c A ∧ A.overhead ≤ 255 ∧ (c.sendAlert 40).2.closed = true := by
  obtain ⟨cl, x, co, ci, sv, y, so, si, ca, sa, hc, hs, h1, h2, h3, h4, h⟩ := Toy.linked_ok
    (f := fun c x co ci s y so si => c.cp == s.cp && c.clientAp == s.clientAp && c.serverAp == s.serverAp)
    (r := clientRun Toy.env Toy.tls Toy.pskClient (Toy.coins 2) (Toy.exchange Toy.tls Toy.pskClient Toy.pskServer 2).1)
    (r' := serverRun Toy.env Toy.tls Toy.pskServer (Toy.exchange Toy.tls Toy.pskClient Toy.pskServer 2).2) (by decide +kernel)
  simp only [Bool.and_eq_true, beq_iff_eq] at h
  obtain ⟨⟨h5, h6⟩, h7⟩ := h
  have hE : Established Toy.world cl sv co ci so si := ⟨⟨_, _, _, _, _, _, _, _, _, _, _, hc, hs, h1, h2, h3, h4⟩, h5, h6, h7⟩
  have hw := (established_canWrite Toy.world_lawful Toy.prims_sized hE x y true true [97] [] 0 0 [] []).1
  exact ⟨_, _, hw, by show 28 ≤ 255; omega, sendAlert_closed hw (by show 28 ≤ 255; omega) 40 (by decide) (by decide)⟩

end Verif.Props
