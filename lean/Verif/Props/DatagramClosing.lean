import Verif.Conn.DatagramQuiet
import Verif.Props.KeyUpdate

/-
C82: alerts, Close and tickets over an established DTLS connection.
-/

namespace Verif.Props

open Verif Verif.Crypto Verif.Messages Verif.Negotiation Verif.Handshake Verif.Machine Verif.Spec Verif.Conn Verif.Record

/-! ### Reading an alert -/

section
variable {W : World} {cp : Params} {b : Bool} {s : Bytes} {g n : Nat} {c : DLive}

theorem Listening.arriving (h : Listening W cp b s g n c) (ds : List Bytes) : Listening W cp b s g n (c.arrives ds) :=
  ⟨h.params, h.role, h.secret, h.rest, h.idle, h.cached, h.datagram, h.direction, h.epoch, h.aead, h.iv, h.known, h.count⟩

/-- One round of Read over a datagram whose record is refused. -/
theorem read_refused (hl : W.Lawful) (h : Listening W cp b s g n c) (hempty : c.readBuffer = []) {ct : UInt8} {f d : Bytes}
    (hd : Sealed (guardOf W cp b s g) ct f d) (hct : knownType ct = true) (ds : List Bytes) (now : Int) (fuel m : Nat) :
    ∃ r', r'.conn = ds.map .ok ∧
      (∀ e c', ({ c with reader := r' } : DLive).handle W now ct f = (.err e, c') → e ≠ .wouldBlock →
        (c.arrives (d :: ds)).call W (.read now false (fuel + 1) (m + 1)) = (.ok { error := some e }, c')) ∧
      ((¬ (({ c with reader := r' } : DLive).handle W now ct f).1.Safe) →
        ∀ r c', (c.arrives (d :: ds)).call W (.read now false (fuel + 1) (m + 1)) ≠ (.ok r, c')) := by
  obtain ⟨pt, r', h1, h2, h3, -, h4, -⟩ := sealed_opens hl (h.arriving (d :: ds)) hd hct rfl
  have hb : (c.arrives (d :: ds)).readBuffer = [] := hempty
  have hcons : (c.arrives (d :: ds)).consume W now = ({ c with reader := r' } : DLive).handle W now ct f := by
    simp only [DLive.consume, h1, h2, h3]
    rfl
  refine ⟨r', h4, ?_, ?_⟩
  · intro e c' hh hne
    have hloop : DLive.readLoop W now (fuel + 1) (c.arrives (d :: ds)) = (.err e, c') := by
      rw [DLive.readLoop, if_pos hb, hcons, hh]
      dsimp only
      rw [if_pos (Or.inr hne)]
    simp only [DLive.call, DLive.read, DLive.checkTimers]
    rw [if_neg (by omega), if_neg (by simp)]
    dsimp only
    rw [hloop]
  · intro hns r c' hcall
    rcases hh : ({ c with reader := r' } : DLive).handle W now ct f with ⟨res, q⟩
    rw [hh] at hns
    have hloop : DLive.readLoop W now (fuel + 1) (c.arrives (d :: ds)) = (res, q) := by
      rw [DLive.readLoop, if_pos hb, hcons, hh]
      cases res with
      | ok u => exact absurd trivial hns
      | err e => exact absurd trivial hns
      | panic => rfl
      | diverge => rfl
    simp only [DLive.call, DLive.read, DLive.checkTimers] at hcall
    rw [if_neg (by omega), if_neg (by simp)] at hcall
    dsimp only at hcall
    rw [hloop] at hcall
    cases res with
    | ok u => exact absurd trivial hns
    | err e => exact absurd trivial hns
    | panic => cases hcall
    | diverge => cases hcall

end

/-- An alert of the peer in the format of RFC 8446, section 6, is what Read reports: close_notify as the end of file, a fatal alert
as that alert. Nothing is sent in answer, and what arrives later is still there. (254 is the number the code uses for a
transport that would block.) -/
theorem C82_alert_partial (W : World) (hl : W.Lawful) (cp : Params) (fromClient : Bool) (s : Bytes) (g n : Nat) (c : DLive)
    (h : Listening W cp fromClient s g n c) (hempty : c.readBuffer = []) (level code : UInt8) (d : Bytes) (ds : List Bytes)
    (hd : Sealed (guardOf W cp fromClient s g) 21 [level, code] d) (hcode : code = 0 ∨ level = 2 ∧ code ≠ 254) (now : Int) (fuel m : Nat) :
    ∃ c', (c.arrives (d :: ds)).call W (.read now false (fuel + 1) (m + 1)) =
        (.ok { error := some (if code = 0 then .eof else .alert code.toNat) }, c') ∧
      c'.datagrams = c.datagrams ∧ c'.closed = c.closed ∧ c'.reader.conn = ds.map .ok := by
  obtain ⟨r', hr', hread, -⟩ := read_refused hl h hempty hd (by decide) ds now fuel m
  refine ⟨{ c with reader := r' }, ?_, rfl, rfl, hr'⟩
  rcases hcode with rfl | ⟨rfl, h254⟩
  · rw [if_pos rfl]
    refine hread _ _ ?_ (by simp)
    simp [DLive.handle]
  · by_cases h0 : code = 0
    · rw [if_pos h0]
      refine hread _ _ ?_ (by simp)
      simp [DLive.handle, h0]
    · rw [if_neg h0]
      refine hread _ _ ?_ (by simp)
      simp [DLive.handle, h0, alertErr, h254]

/-- An alert that this library sends is not read as it was meant: its two bytes are written in the wrong order (conn.go:512-536), so
that the level is taken for the code. Whatever the alert, the peer's Read reports the end of file, as after close_notify; the peer
then closes its transport. -/
theorem C82_own_alert_fails (W : World) (hl : W.Lawful) (cp : Params) (fromClient : Bool) (s : Bytes) (g n : Nat) (c p p' : DLive)
    (h : Listening W cp fromClient s g n c) (hempty : c.readBuffer = []) (hp : Speaking W cp fromClient s g p) (a : Nat) (ha : a < 256)
    (h1 : a ≠ 1) (h2 : a ≠ 2) (hopen : p.closed = false) (hs : p.sendAlert a = (.ok (), p')) (hgrow : p'.datagrams ≠ p.datagrams)
    (now : Int) (fuel m : Nat) :
    ∃ d, p'.datagrams = p.datagrams ++ [d] ∧
      ∀ r c', (c.arrives [d]).call W (.read now false (fuel + 1) (m + 1)) = (.ok r, c') → r = { error := some .eof } ∧ c'.closed = true := by
  unfold DLive.sendAlert at hs
  dsimp only at hs
  rcases hw : p.writeRecord 21 [UInt8.ofNat a, if a = 100 ∨ a = Alert.closeNotify then 1 else 2] with ⟨r, q⟩
  rw [hw] at hs
  have hq : p'.datagrams = q.datagrams := by
    cases r with
    | panic => cases hs
    | diverge => cases hs
    | ok u => simp only [Prod.mk.injEq, true_and] at hs; rw [← hs]; split <;> rfl
    | err u => simp only [Prod.mk.injEq, true_and] at hs; rw [← hs]; split <;> rfl
  have hr : r = .ok () := by
    by_cases hr : r = .ok ()
    · exact hr
    · exact absurd (by rw [hq, writeRecord_fails hw hr]) hgrow
  subst hr
  obtain ⟨d, hd, hseal, -⟩ := writeRecord_speaking hp hw
  refine ⟨d, by rw [hq, hd], ?_⟩
  obtain ⟨r', -, hread, hpanic⟩ := read_refused hl h hempty hseal (by decide) [] now fuel m
  have hne : ∀ x : Nat, x < 256 → a ≠ x → UInt8.ofNat a ≠ UInt8.ofNat x := by
    intro x hx hax e
    have := congrArg UInt8.toNat e
    simp only [UInt8.toNat_ofNat'] at this
    omega
  have hh : ({ c with reader := r' } : DLive).handle W now 21 [UInt8.ofNat a, if a = 100 ∨ a = Alert.closeNotify then 1 else 2] =
      ({ c with reader := r' } : DLive).abort Alert.unexpectedMessage .eof := by
    unfold DLive.handle
    rw [if_neg (by decide), if_pos rfl]
    dsimp only
    rw [if_neg (by split <;> decide), if_neg (show ¬ UInt8.ofNat a = 1 from hne 1 (by decide) h1),
      if_neg (show ¬ UInt8.ofNat a = 2 from hne 2 (by decide) h2)]
  intro r c' hcall
  rcases hab : ({ c with reader := r' } : DLive).abort Alert.unexpectedMessage .eof with ⟨ra, ca⟩
  rw [hab] at hh
  have hcl : ra.Safe → ra = .err .eof ∧ ca.closed = true := by
    intro hsafe
    unfold DLive.abort DLive.sendAlert at hab
    dsimp only at hab
    rw [show (if Alert.unexpectedMessage = 100 ∨ Alert.unexpectedMessage = Alert.closeNotify then (1 : UInt8) else 2) = 2 by decide] at hab
    rcases hw2 : ({ c with reader := r' } : DLive).writeRecord 21 [UInt8.ofNat Alert.unexpectedMessage, 2] with ⟨r2, q2⟩
    rw [hw2] at hab
    cases r2 with
    | panic => dsimp only at hab; cases hab; exact absurd hsafe (by simp)
    | diverge => dsimp only at hab; cases hab; exact absurd hsafe (by simp)
    | ok u => dsimp only at hab; rw [if_neg (by decide)] at hab; cases hab; exact ⟨rfl, rfl⟩
    | err u => dsimp only at hab; rw [if_neg (by decide)] at hab; cases hab; exact ⟨rfl, rfl⟩
  cases ra with
  | ok u => exact absurd (hcl trivial).1 (by simp)
  | err e =>
    obtain ⟨e1, e2⟩ := hcl trivial
    cases e1
    rw [hread _ _ hh (by simp)] at hcall
    cases hcall
    exact ⟨rfl, e2⟩
  | panic => exact absurd hcall (hpanic (by rw [hh]; simp) _ _)
  | diverge => exact absurd hcall (hpanic (by rw [hh]; simp) _ _)

/-- After Close, whatever is called and whatever arrives, nothing more is sent; every Write of something fails and reports that
nothing was written. -/
theorem C82_closed (W : World) (c : DLive) (ks : List DCall) :
    (c.calls W (.close :: ks)).2.datagrams = c.datagrams ∧
    ∀ b r, (.write b, r) ∈ (c.calls W (.close :: ks)).1 → b ≠ [] → r.wrote = [] ∧ r.error ≠ none := by
  have hc : c.calls W (.close :: ks) = ((.close, {}) :: (DLive.calls W { c with closed := true } ks).1,
      (DLive.calls W { c with closed := true } ks).2) := rfl
  obtain ⟨h1, h2⟩ := quiet_calls (W := W) ks (c := { c with closed := true }) rfl
  rw [hc]
  refine ⟨congrArg (List.map WireRec.bytes) h1.2, ?_⟩
  intro b r hm hb
  rcases List.mem_cons.mp hm with hm | hm
  · cases hm
  · exact h2 b r hm hb

/-- The same once the connection has sent a fatal alert. -/
theorem C82_after_alert (W : World) (c c' : DLive) (a : Nat) (h0 : a ≠ 0) (h100 : a ≠ 100) (h : c.sendAlert a = (.ok (), c')) (ks : List DCall) :
    (c'.calls W ks).2.datagrams = c'.datagrams ∧
    ∀ b r, (.write b, r) ∈ (c'.calls W ks).1 → b ≠ [] → r.wrote = [] ∧ r.error ≠ none := by
  have hcl : c'.closed = true := by
    unfold DLive.sendAlert at h
    dsimp only at h
    rw [show (if a = 100 ∨ a = Alert.closeNotify then (1 : UInt8) else 2) = 2 from if_neg (by simp [Alert.closeNotify, h0, h100])] at h
    split at h
    · cases h
    · cases h
    · rw [if_neg (by decide)] at h
      cases h
      rfl
  obtain ⟨h1, h2⟩ := quiet_calls (W := W) ks hcl
  exact ⟨congrArg (List.map WireRec.bytes) h1.2, h2⟩

/-! ### Tickets -/

/-- A message that fits in a record is sent as one. -/
theorem lone_sent {o o' : Out} {t : UInt8} {q n : Nat} {d : Bytes} (hq : o.queued = []) (hs : o.sent = []) (hr : o.room = 1200)
    (hd : d.length ≤ 1188) (h : (o.queue t q d).sendQueued = .ok (n, o')) :
    ∃ rec k, writeRecord o.keys o.keys.cur 22 (Msg.marshal true ⟨t, q, d, 0, d.length⟩) 0 = .ok (rec, k) ∧ o'.keys = k ∧
      o'.wire.map WireRec.bytes = o.wire.map WireRec.bytes ++ [rec] := by
  have hmin : min d.length 1188 = d.length := by omega
  simp only [Out.queue, Out.sendQueued, hq, List.nil_append, Out.writeMessages, Res.bind_eq_ok, Res.ok.injEq, Prod.mk.injEq] at h
  obtain ⟨⟨n1, o1⟩, h, -, rfl⟩ := h
  simp only [Out.writeMessage] at h
  rw [if_neg (by omega), Out.writeLoop] at h
  simp only [Out.writeFragment, hr, hs, Nat.sub_zero, hmin, List.drop_zero, List.take_length, fragmentAcked, List.any_nil, Bool.false_eq_true,
    if_false, Res.bind_eq_ok] at h
  rw [if_neg (by decide)] at h
  obtain ⟨⟨w, st, o2⟩, h2, h⟩ := h
  rw [Res.bind_eq_ok] at h2
  obtain ⟨o3, h3, h2⟩ := h2
  cases h2
  dsimp only at h
  rw [if_pos (by omega)] at h
  cases h
  simp only [Out.emit, Res.bind_eq_ok] at h3
  obtain ⟨⟨rec, k⟩, hw, h3⟩ := h3
  cases h3
  exact ⟨rec, k, hw, rfl, by simp⟩

/-- A message is queued and the queue is sent. -/
theorem lone_actions {W : World} {cp : Params} {b : Bool} {s : Bytes} {g : Nat} {c c' : DLive} (hp : Speaking W cp b s g c)
    (hq : c.out.queued = []) (hs : c.out.sent = []) (hr : c.out.room = 1200) {m : Msg} (hm : m.body.length ≤ 1188) {as : List Action}
    (h : c.takeAll W (.queue m :: .sendQueued :: as) = (.ok (), c')) :
    ∃ d c1, c1.datagrams = c.datagrams ++ [d] ∧ c1.closed = c.closed ∧ c1.stored = c.stored ∧ c1.st = c.st ∧
      Sealed (guardOf W cp b s g) 22 (Msg.marshal true ⟨m.msgType, m.seq, m.body, 0, m.body.length⟩) d ∧
      Speaking W cp b s g c1 ∧ c1.takeAll W as = (.ok (), c') := by
  rw [DLive.takeAll] at h
  have e1 : c.takeAction W (.queue m) = (.ok (), { c with out := c.out.queue m.msgType m.seq m.body }) := by
    simp [DLive.takeAction, Out.op, DLive.sends, Out.queue, dInternal]
  rw [e1] at h
  dsimp only at h
  rw [DLive.takeAll] at h
  have e2 : ({ c with out := c.out.queue m.msgType m.seq m.body } : DLive).takeAction W .sendQueued =
    dInternal (({ c with out := c.out.queue m.msgType m.seq m.body } : DLive).sends ((c.out.queue m.msgType m.seq m.body).op .send)) := rfl
  rw [e2] at h
  cases ho : (c.out.queue m.msgType m.seq m.body).op .send with
  | ok o =>
    rw [ho] at h
    have hsend := ho
    simp only [Out.op, Res.bind_eq_ok] at hsend
    obtain ⟨⟨n, o2⟩, hsend, hx⟩ := hsend
    cases hx
    obtain ⟨rec, k, hw, hk, hwire⟩ := lone_sent hq hs hr hm hsend
    obtain ⟨-, -, -, -, -, hkk, -⟩ := writeRecord_ok hw
    simp only [DLive.sends] at h
    by_cases hg : c.closed = true ∧ o2.wire.length > (c.out.queue m.msgType m.seq m.body).wire.length
    · rw [if_pos hg] at h
      simp [dInternal, alert] at h
    · rw [if_neg hg] at h
      simp only [dInternal] at h
      refine ⟨rec, _, ?_, ?_, ?_, ?_, ⟨_, _, _, hp.datagram, hp.direction, hp.epoch, hp.aead, hp.iv, hw⟩, ?_, h⟩
      · exact hwire
      · rfl
      · rfl
      · rfl
      · refine ⟨?_, ?_, ?_, ?_, ?_⟩
        · show o2.keys.datagram = true; rw [hk, hkk]; exact hp.datagram
        · show o2.keys.direction = .write; rw [hk, hkk]; exact hp.direction
        · show (o2.keys.heap o2.keys.cur).epoch = _; rw [hk, hkk]; simp only [upd, if_true]; exact hp.epoch
        · show (o2.keys.heap o2.keys.cur).aead = _; rw [hk, hkk]; simp only [upd, if_true]; exact hp.aead
        · show (o2.keys.heap o2.keys.cur).iv = _; rw [hk, hkk]; simp only [upd, if_true]; exact hp.iv
  | err e => rw [ho] at h; simp [DLive.sends, dInternal, alert] at h
  | panic => rw [ho] at h; simp [DLive.sends, dInternal] at h
  | diverge => rw [ho] at h; simp [DLive.sends, dInternal] at h

theorem readLoop_nothing {W : World} {cp : Params} {b : Bool} {s : Bytes} {g n : Nat} {c : DLive} (h : Listening W cp b s g n c)
    (hempty : c.readBuffer = []) (hconn : c.reader.conn = []) (now : Int) (fuel : Nat) :
    DLive.readLoop W now fuel c = (.err .wouldBlock, c) := by
  induction fuel with
  | zero => rw [DLive.readLoop, if_pos hempty]
  | succ fuel ih =>
    rw [DLive.readLoop, if_pos hempty, consume_nothing h hconn]
    dsimp only
    split
    · rfl
    · exact ih

/-- Read over a datagram that contains a ticket. -/
theorem read_ticket {W : World} (hl : W.Lawful) {cp : Params} {s : Bytes} {g n : Nat} {c : DLive} (h : Listening W cp false s g (n + 1) c)
    (hempty : c.readBuffer = []) {seq : Nat} {body d : Bytes} {psk : Psk} {now : Int}
    (hproc : c.st.process W.E c.x now ⟨4, 0, body, 0, 0⟩ = .ok (c.st, [.storePsk psk], c.x))
    (hd : Sealed (guardOf W cp false s g) 22 (ticketBytes seq body) d) (fuel m : Nat) :
    ∃ c', (c.arrives [d]).call W (.read now false (fuel + 1) (m + 1)) = (.ok { error := some .wouldBlock }, c') ∧
      c'.stored = c.stored ++ [(c.serverName, psk)] := by
  obtain ⟨pt, r', h1, h2, h3, hsh, h4, h5⟩ := sealed_opens hl (h.arriving [d]) hd (by decide) rfl
  have hblen : body.length < 2 ^ 24 := by
    simp only [ticketBytes, List.length_cons, List.length_append] at hsh
    omega
  have hhs : ({ c with reader := r' } : DLive).handle W now 22 (ticketBytes seq body) =
      ({ c with reader := r' } : DLive).process W now ⟨4, 0, body, 0, 0⟩ := by
    unfold DLive.handle
    rw [if_pos rfl]
    have e1 : ticketBytes seq body = 4 :: beBytes 3 body.length ++ (beBytes 2 seq ++ [0, 0, 0] ++ beBytes 3 body.length) ++ body := by
      simp [ticketBytes]
    have e2 : (ticketBytes seq body).length + 1 = (body.length + 11) + 2 := by simp [ticketBytes]; omega
    rw [e2, e1]
    exact postHandshake_dtls W now _ _ _ _ hblen (by simp) _
  have hcons : (c.arrives [d]).consume W now = ({ c with reader := r' } : DLive).handle W now 22 (ticketBytes seq body) := by
    simp only [DLive.consume, h1, h2, h3]
    rfl
  have hrole : c.st.isClient = true := h.role
  have hend : (c.arrives [d]).consume W now = (.ok (), { c with reader := r', stored := c.stored ++ [(c.serverName, psk)] }) := by
    rw [hcons, hhs]
    simp only [DLive.process, hproc, DLive.takeAll, DLive.takeAction, hrole, if_true]
  have hl' : Listening W cp false s g n { c with reader := r', stored := c.stored ++ [(c.serverName, psk)] } :=
    (h5 n rfl).congr rfl rfl rfl
  refine ⟨{ c with reader := r', stored := c.stored ++ [(c.serverName, psk)] }, ?_, rfl⟩
  have hb : (c.arrives [d]).readBuffer = [] := hempty
  have hloop : DLive.readLoop W now (fuel + 1) (c.arrives [d]) =
      (.err .wouldBlock, { c with reader := r', stored := c.stored ++ [(c.serverName, psk)] }) := by
    rw [DLive.readLoop, if_pos hb, hend]
    exact readLoop_nothing hl' hempty h4 now fuel
  simp only [DLive.call, DLive.read, DLive.checkTimers]
  rw [if_neg (by omega), if_neg (by simp)]
  dsimp only
  rw [hloop]

/-- A ticket that fits in one record (see C79_large_ticket_fails). If the server's call succeeds, one datagram is sent and the
server has stored a PSK under the name of the ticket; the Read of the client that gets the datagram stores the same PSK under the
name of the server, but for the times: both have the key of RFC 8446, 4.6.1. -/
theorem C82_ticket_partial (W : World) (hl : W.Lawful) (hP : W.E.P.Sized) (cl sv : Connected) (co ci so si : Machine.Keys)
    (h : Established W cl sv co ci so si) (hres : cl.resumption = sv.resumption) (hproto : cl.params.nextProto = sv.params.nextProto)
    (x y : Ctx) (nb nb' : Bool) (sn sn' : Bytes) (ho hi ho' hi' : Machine.Keys) (conn : List (Except Err Bytes))
    (now now' : Int) (lifetime early ageAdd : UInt32) (nonce ticket : Bytes) (acts : List Action) (y' : Ctx)
    (ht : sv.newSessionTicket W.E y now lifetime early ageAdd nonce ticket = .ok (acts, y'))
    (hfit : ∀ m, .queue m ∈ acts → m.body.length ≤ 1188) (server : DLive)
    (hcall : (DLive.start W sv y nb' sn' ho' hi' so si conn).call W (.ticket now lifetime early ageAdd nonce ticket) = (.ok {}, server))
    (fuel n : Nat) :
    ∃ (d : Bytes) (psk psk' : Psk) (client : DLive), server.datagrams = [d] ∧ server.stored = [(hexString ticket, psk')] ∧
      (DLive.start W cl x nb sn ho hi co ci [.ok d]).call W (.read now' false (fuel + 1) (n + 1)) =
        (.ok { error := some .wouldBlock }, client) ∧
      client.stored = [(sn, psk)] ∧ psk = { psk' with receivedAt := psk.receivedAt, expiresAt := psk.expiresAt } ∧
      psk.key = resumptionPsk W.E.P sv.cp.hash sv.resumption nonce ∧ psk.identity = ticket := by
  obtain ⟨hz, hc, hs, e1, e2, e3, e4⟩ := h.ends hP
  obtain ⟨psk', m, rfl, hty, hkey, hid, -, -, -, -, hread⟩ := C48_same_psk W.E hP cl sv y y' x now now' lifetime early ageAdd nonce ticket acts
    ht hc h.suite (h.suite ▸ hz) hres hproto
  obtain ⟨psk, hproc, hpsk⟩ := hread ⟨4, 0, m.body, 0, 0⟩ hty.symm rfl
  have hm := hfit m (by simp)
  simp only [DLive.call, DLive.ticket] at hcall
  have hst : (DLive.start W sv y nb' sn' ho' hi' so si conn).st = sv := rfl
  have hx : (DLive.start W sv y nb' sn' ho' hi' so si conn).x = y := rfl
  rw [hst, hx, ht] at hcall
  dsimp only at hcall
  rw [DLive.takeAll, DLive.takeAction] at hcall
  dsimp only at hcall
  rw [hs] at hcall
  simp only [Bool.false_eq_true, if_false] at hcall
  have hsp := start_speaking (W := W) (st := sv) (x := y') (nb := nb') (sn := sn') (ho := ho') (hi := hi') (o := so) (i := si) (b := false)
    (conn := conn) (by rw [← h.suite]; exact e3.trans (by rw [h.server]; rfl))
  let c0 : DLive := { DLive.start W sv y' nb' sn' ho' hi' so si conn with stored := [(hexString psk'.identity, psk')] }
  have hc0 : Speaking W sv.cp false (if false then sv.clientAp else sv.serverAp) 0 c0 := ⟨hsp.1, hsp.2, hsp.3, hsp.4, hsp.5⟩
  rcases hta : c0.takeAll W [.queue m, .sendQueued] with ⟨r, c1⟩
  have hcall' : dReply (match (r, c1) with
      | (Res.err (Err.alert a), c') => c'.abort a (Err.alert a)
      | r => r) = (.ok {}, server) := by rw [← hta]; exact hcall
  have hab : ∀ a, dReply (c1.abort a (.alert a)) ≠ (.ok {}, server) := by
    intro a ha
    rcases hab : c1.abort a (.alert a) with ⟨ra, ca⟩
    have : ra ≠ .ok () := by
      intro e
      subst e
      unfold DLive.abort at hab
      split at hab
      · cases hab
      · rename_i hno
        rcases hsa : c1.sendAlert a with ⟨rb, cb⟩
        rw [hsa] at hab hno
        cases hab
        exact hno _ _ rfl
    rw [hab] at ha
    cases ra with
    | ok u => exact this rfl
    | err e => simp [dReply] at ha
    | panic => simp [dReply] at ha
    | diverge => simp [dReply] at ha
  cases r with
  | ok u =>
    simp only [dReply, Prod.mk.injEq, true_and] at hcall'
    subst hcall'
    obtain ⟨d, c2, d1, d2, d3, d4, d5, d6, d7⟩ := lone_actions hc0 rfl rfl rfl hm hta
    rw [DLive.takeAll] at d7
    simp only [Prod.mk.injEq, true_and] at d7
    subst d7
    have hseal : Sealed (guardOf W cl.cp false cl.serverAp 0) 22 (ticketBytes m.seq m.body) d := by
      have : Msg.marshal true ⟨m.msgType, m.seq, m.body, 0, m.body.length⟩ = ticketBytes m.seq m.body := by
        simp [Msg.marshal, ticketBytes, hty, beBytes]
      rw [this] at d5
      rw [h.suite, h.server]
      exact d5
    have hL := start_listening (W := W) (st := cl) (x := x) (nb := nb) (sn := sn) (ho := ho) (hi := hi) (o := co) (i := ci) (b := false)
      (conn := []) 1 (by decide) hc e2
    obtain ⟨client, h1, h2⟩ := read_ticket hl hL rfl (now := now') hproc hseal fuel n
    refine ⟨d, psk, psk', client, d1, ?_, h1, h2, hpsk, ?_, ?_⟩
    · rw [d3]; show [(hexString psk'.identity, psk')] = _; rw [hid]
    · rw [hpsk]; exact hkey
    · rw [hpsk]; exact hid
  | err e =>
    cases e with
    | alert a => exact absurd hcall' (hab a)
    | msg => simp [dReply] at hcall'
    | wouldBlock => simp [dReply] at hcall'
    | eof => simp [dReply] at hcall'
  | panic => simp [dReply] at hcall'
  | diverge => simp [dReply] at hcall'

/-! ### Concrete cases -/

/-- What C82_alert_partial speaks of: the server of the toy world gets the alert that it must expect, close_notify, and a fatal
one. -/
example : ∃ (cl sv : Connected) (co ci so si : Machine.Keys) (x y : Ctx), Established Toy.world cl sv co ci so si ∧
    ∃ d e, Sealed (guardOf Toy.world cl.cp true cl.clientAp 0) 21 [1, 0] d ∧ Sealed (guardOf Toy.world cl.cp true cl.clientAp 0) 21 [2, 40] e ∧
    ∃ c', ((DLive.start Toy.world sv y true [] ([2], [2]) ([1], [1]) so si []).arrives [e, d]).call Toy.world (.read 0 false 1 1) =
      (.ok { error := some (.alert 40) }, c') ∧ c'.reader.conn = [.ok d] := by
  obtain ⟨cl, sv, co, ci, so, si, x, y, h, hf⟩ := toy_dtls
    (fun _ s => decide (8 ≤ (generation Toy.world s.st.cp true s.st.clientAp 0).2.length) && decide ((Toy.world.A s.st.cp
      (generation Toy.world s.st.cp true s.st.clientAp 0).1).overhead ≤ 100)) (by decide +kernel)
  simp only [Bool.and_eq_true, decide_eq_true_eq] at hf
  have hf' : 8 ≤ (generation Toy.world cl.cp true cl.clientAp 0).2.length ∧
      (Toy.world.A cl.cp (generation Toy.world cl.cp true cl.clientAp 0).1).overhead ≤ 100 := by
    rw [h.suite, h.client]; exact hf
  obtain ⟨hz, hc, hs, e1, e2, e3, e4⟩ := h.ends Toy.prims_sized
  have hL := start_listening (W := Toy.world) (st := sv) (x := y) (nb := true) (sn := []) (ho := ([2], [2])) (hi := ([1], [1])) (o := so)
    (i := si) (b := true) (conn := []) 1000 (by decide) hs (by rw [← h.suite, if_pos rfl, ← h.client]; exact e4)
  rw [if_pos rfl, ← h.suite, ← h.client] at hL
  have hx : ∀ f : Bytes, f.length = 2 → ∃ d, Sealed (guardOf Toy.world cl.cp true cl.clientAp 0) 21 f d := fun f hlen =>
    exists_sealed _ (Toy.world_lawful cl.cp _) hf'.1 21 f (by
      have : (guardOf Toy.world cl.cp true cl.clientAp 0).aead.overhead ≤ 100 := hf'.2
      omega)
  obtain ⟨d, hd⟩ := hx [1, 0] rfl
  obtain ⟨e, he⟩ := hx [2, 40] rfl
  refine ⟨cl, sv, co, ci, so, si, x, y, h, d, e, hd, he, ?_⟩
  obtain ⟨c', h1, -, -, h2⟩ := C82_alert_partial Toy.world Toy.world_lawful cl.cp true cl.clientAp 0 1000 _ hL rfl 2 40 e [d] he (.inr ⟨rfl, by decide⟩)
    0 0 0
  exact ⟨c', h1, h2⟩

/-- What C82_own_alert_fails and C82_after_alert speak of: the client of the toy world sends the alert 40; the server's Read says
that the connection was closed in good order; neither end sends anything after that. -/
example : ∃ (cl sv : Connected) (co ci so si : Machine.Keys) (x y : Ctx), Established Toy.world cl sv co ci so si ∧
    let c := DLive.start Toy.world cl x true [97] ([1], [1]) ([2], [2]) co ci []
    let s := DLive.start Toy.world sv y true [] ([2], [2]) ([1], [1]) so si []
    ((c.sendAlert 40).1 = .ok () ∧ (c.sendAlert 40).2.datagrams.length = 1 ∧
      ((s.arrives (c.sendAlert 40).2.datagrams).calls Toy.world [.read 0 false 9 9, .write [1]]).1.map (·.2.error) = [some .eof, some .msg] ∧
      ((c.sendAlert 40).2.calls Toy.world [.write [1], .update true]).2.datagrams.length = 1) := by
  obtain ⟨cl, sv, co, ci, so, si, x, y, h, hf⟩ := toy_dtls
    (fun c s => decide ((c.sendAlert 40).1 = .ok ()) && decide ((c.sendAlert 40).2.datagrams.length = 1) &&
      decide (((s.arrives (c.sendAlert 40).2.datagrams).calls Toy.world [.read 0 false 9 9, .write [1]]).1.map (·.2.error) =
        [some .eof, some .msg]) && decide (((c.sendAlert 40).2.calls Toy.world [.write [1], .update true]).2.datagrams.length = 1))
    (by decide +kernel)
  simp only [Bool.and_eq_true, decide_eq_true_eq] at hf
  exact ⟨cl, sv, co, ci, so, si, x, y, h, hf.1.1.1, hf.1.1.2, hf.1.2, hf.2⟩

/-- What C82_closed speaks of: an end that has written, closes. -/
example : ∃ (cl sv : Connected) (co ci so si : Machine.Keys) (x y : Ctx), Established Toy.world cl sv co ci so si ∧
    let c := DLive.start Toy.world cl x true [97] ([1], [1]) ([2], [2]) co ci []
    (c.calls Toy.world [.write [1], .write [2]]).2.datagrams.length = 2 ∧
      (c.calls Toy.world [.write [1], .close, .write [2]]).2.datagrams.length = 1 ∧
      (c.calls Toy.world [.write [1], .close, .write [2]]).1.map (·.2.error) = [none, none, some .msg] := by
  obtain ⟨cl, sv, co, ci, so, si, x, y, h, hf⟩ := toy_dtls
    (fun c _ => decide ((c.calls Toy.world [.write [1], .write [2]]).2.datagrams.length = 2) &&
      decide ((c.calls Toy.world [.write [1], .close, .write [2]]).2.datagrams.length = 1) &&
      decide ((c.calls Toy.world [.write [1], .close, .write [2]]).1.map (·.2.error) = [none, none, some .msg])) (by decide +kernel)
  simp only [Bool.and_eq_true, decide_eq_true_eq] at hf
  exact ⟨cl, sv, co, ci, so, si, x, y, h, hf.1.1, hf.1.2, hf.2⟩

/-- What C82_ticket_partial speaks of: in the toy world the ends agree on the resumption secret, and the server sends a ticket. -/
example : ∃ (cl sv : Connected) (co ci so si : Machine.Keys) (x y : Ctx), Established Toy.world cl sv co ci so si ∧
    cl.resumption = sv.resumption ∧ cl.params.nextProto = sv.params.nextProto ∧
    ((DLive.start Toy.world sv y true [] ([2], [2]) ([1], [1]) so si []).call Toy.world (.ticket 5 100 10 7 [1, 2] [8, 9])).1.isOk = true ∧
    ((DLive.start Toy.world sv y true [] ([2], [2]) ([1], [1]) so si []).call Toy.world (.ticket 5 100 10 7 [1, 2] [8, 9])).2.datagrams.length = 1 := by
  obtain ⟨cl, sv, co, ci, so, si, x, y, h, hf⟩ := toy_dtls
    (fun c s => decide (c.st.resumption = s.st.resumption) && decide (c.st.params.nextProto = s.st.params.nextProto) &&
      (s.call Toy.world (.ticket 5 100 10 7 [1, 2] [8, 9])).1.isOk &&
      decide ((s.call Toy.world (.ticket 5 100 10 7 [1, 2] [8, 9])).2.datagrams.length = 1)) (by decide +kernel)
  simp only [Bool.and_eq_true, decide_eq_true_eq] at hf
  exact ⟨cl, sv, co, ci, so, si, x, y, h, hf.1.1.1, hf.1.1.2, hf.1.2, hf.2⟩

end Verif.Props
