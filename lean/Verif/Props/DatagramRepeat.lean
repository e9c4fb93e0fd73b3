import Verif.Props.DatagramUpdate

/-
C79, continued: a key update that is sent again when the timer expires.
-/

namespace Verif.Props

open Verif Verif.Crypto Verif.Messages Verif.Negotiation Verif.Handshake Verif.Machine Verif.Spec Verif.Conn Verif.Record

/-- What a datagram carries: data written before or after the key update, or the key update. -/
inductive Carried where
  | data (after : Bool) (f : Bytes)
  | update
  deriving DecidableEq

/-- What is read of the datagrams that arrive: until a copy of the key update arrives the data written before it, from then on the
data written after it, in the order of arrival. -/
def readable : Bool → List Carried → List Bytes
  | _, [] => []
  | _, .update :: r => readable true r
  | updated, .data after f :: r => if after = updated then f :: readable updated r else readable updated r

/-- The data, in the order of sending. -/
def carriedData : List Carried → List Bytes
  | [] => []
  | .update :: r => carriedData r
  | .data _ f :: r => f :: carriedData r

/-- Writes, and Reads with room for a byte, whether the timer has expired or not. -/
def WritesAndReads (ks : List DCall) : Prop :=
  ∀ k ∈ ks, (∃ b, k = .write b) ∨ ∃ now expired fuel n, k = .read now expired fuel (n + 1)

/-- The Reads during which the timer expired, and that did not fail. -/
def expiries (rs : List (DCall × Reply)) : Nat :=
  (rs.filter fun r => match r.1 with
    | .read _ expired _ _ => expired && r.2.error == some .wouldBlock
    | _ => false).length

/-- A datagram is as described. -/
def Carries (W : World) (cp : Params) (b : Bool) (s : Bytes) (d : Bytes) : Carried → Prop
  | .data after f => Sealed (guardOf W cp b s (if after then 1 else 0)) 23 f d
  | .update => ∃ seq, Sealed (guardOf W cp b s 0) 22 (keyUpdateBytes seq) d

/-! ### The network -/

theorem arrives_carried {W : World} (hl : W.Lawful) {cp : Params} {b : Bool} {s : Bytes} (updated : Bool) {ds : List Bytes} {ts : List Carried}
    (h : List.Forall₂ (Carries W cp b s) ds ts) : Arrives W cp b s (if updated then 1 else 0) ds (readable updated ts) := by
  induction h generalizing updated with
  | nil => exact .done
  | @cons d t ds ts hd _ ih =>
    cases t with
    | update =>
      obtain ⟨seq, hd⟩ := hd
      cases updated with
      | false => exact .update hd (ih true)
      | true => exact .stray (sealed_stray hd (by simp [guardOf]) (hl cp _) (by simp [guardOf])) (ih true)
    | data after f =>
      rw [readable]
      by_cases ha : after = updated
      · rw [if_pos ha]
        subst ha
        exact .data hd (ih after)
      · rw [if_neg ha]
        refine .stray (sealed_stray hd (by simp only [guardOf]; split <;> decide) (hl cp _) ?_) (ih updated)
        cases after <;> cases updated <;> simp_all [guardOf]

theorem forall₂_pick {R : Bytes → Carried → Prop} {ds : List Bytes} {ts : List Carried} (h : List.Forall₂ R ds ts) (idx : List Nat)
    (hidx : ∀ i ∈ idx, i < ts.length) : List.Forall₂ R (idx.map fun i => ds.getD i []) (idx.map fun i => ts.getD i .update) := by
  induction idx with
  | nil => exact .nil
  | cons i idx ih =>
    refine .cons ?_ (ih fun j hj => hidx j (by simp [hj]))
    have hi := hidx i (by simp)
    have hi' : i < ds.length := by rw [h.length_eq]; exact hi
    have := h.get hi' hi
    simpa [List.getD_eq_getElem?_getD, List.getElem?_eq_getElem hi, List.getElem?_eq_getElem hi'] using this

/-! ### The sender -/

/-- Two record layers differ in the numbers of records only. -/
structure SameCiphers (k k' : Record.Keys) : Prop where
  datagram : k'.datagram = k.datagram
  direction : k'.direction = k.direction
  cur : k'.cur = k.cur
  fresh : k'.fresh = k.fresh
  epoch : ∀ i, (k'.heap i).epoch = (k.heap i).epoch
  aead : ∀ i, (k'.heap i).aead = (k.heap i).aead
  iv : ∀ i, (k'.heap i).iv = (k.heap i).iv

theorem writeRecord_ciphers {k k' : Record.Keys} {i : Nat} {ct : UInt8} {f : Bytes} {rec : Bytes}
    (h : writeRecord k i ct f 0 = .ok (rec, k')) : SameCiphers k k' := by
  obtain ⟨-, -, -, -, -, rfl, -⟩ := writeRecord_ok h
  refine ⟨rfl, rfl, rfl, rfl, ?_, ?_, ?_⟩ <;> (intro j; simp only [upd]; split <;> simp_all)

/-- An end to which nothing has arrived, and which has sent nothing but data, and a key update if `updated`. -/
structure Sender (W : World) (cp : Params) (b : Bool) (s : Bytes) (updated : Bool) (c : DLive) : Prop where
  speaking : Speaking W cp b s (if updated then 1 else 0) c
  idle : c.reader.frame.inBody = false ∧ c.reader.frame.target = 13 ∧ c.reader.frame.filled = [] ∧ c.reader.frame.remainder = []
  cached : c.reader.cached = none
  conn : c.reader.conn = []
  buffer : c.readBuffer = []
  room : c.out.room = 1200
  unacked : ∀ f ∈ c.out.sent, f.acked = false
  before : updated = false → c.out.queued = [] ∧ c.out.sent = [] ∧ c.out.keys.cur < c.out.keys.fresh ∧ c.st.cp = cp ∧ c.st.isClient = b ∧
    dirSecret b c.st = s
  after : updated = true → c.out.timer = true ∧ ∃ seq j, c.out.queued = [⟨24, seq, [0], j⟩] ∧
    (c.out.keys.heap j).epoch = (guardOf W cp b s 0).epoch ∧ (c.out.keys.heap j).aead = some (guardOf W cp b s 0).aead ∧
    (c.out.keys.heap j).iv = (guardOf W cp b s 0).iv

theorem Speaking.ciphers {W : World} {cp : Params} {b : Bool} {s : Bytes} {g : Nat} {c c' : DLive} (h : Speaking W cp b s g c)
    (hk : SameCiphers c.out.keys c'.out.keys) : Speaking W cp b s g c' :=
  ⟨hk.datagram.trans h.datagram, hk.direction.trans h.direction, by rw [hk.cur, hk.epoch]; exact h.epoch,
    by rw [hk.cur, hk.aead]; exact h.aead, by rw [hk.cur, hk.iv]; exact h.iv⟩

theorem Sender.ciphers {W : World} {cp : Params} {b : Bool} {s : Bytes} {u : Bool} {c c' : DLive} (h : Sender W cp b s u c)
    (hk : SameCiphers c.out.keys c'.out.keys) (hr : c'.reader = c.reader) (hb : c'.readBuffer = c.readBuffer) (hroom : c'.out.room = c.out.room)
    (hsent : ∀ f ∈ c'.out.sent, f.acked = false) (hq : c'.out.queued = c.out.queued) (ht : u = true → c'.out.timer = true)
    (h0 : u = false → c'.out.sent = c.out.sent) (hst : c'.st = c.st) :
    Sender W cp b s u c' := by
  refine ⟨h.speaking.ciphers hk, by rw [hr]; exact h.idle, by rw [hr]; exact h.cached, by rw [hr]; exact h.conn, by rw [hb]; exact h.buffer,
    by rw [hroom]; exact h.room, hsent, fun hu => by rw [hq, h0 hu, hk.cur, hk.fresh, hst]; exact h.before hu, fun hu => ⟨ht hu, ?_⟩⟩
  obtain ⟨-, seq, j, h1, h2, h3, h4⟩ := h.after hu
  exact ⟨seq, j, by rw [hq]; exact h1, by rw [hk.epoch]; exact h2, by rw [hk.aead]; exact h3, by rw [hk.iv]; exact h4⟩

theorem writeRecord_sender {W : World} {cp : Params} {b : Bool} {s : Bytes} {u : Bool} {c c' : DLive} {ct : UInt8} {f : Bytes}
    (h : Sender W cp b s u c) (hw : c.writeRecord ct f = (.ok (), c')) : Sender W cp b s u c' := by
  unfold DLive.writeRecord DLive.sends at hw
  split at hw
  · rename_i o ho
    simp only [Out.op, Out.emit, Res.bind_eq_ok, Res.ok.injEq] at ho
    obtain ⟨⟨rec, k⟩, hrec, rfl⟩ := ho
    split at hw
    · simp at hw
    · simp only [Prod.mk.injEq, true_and] at hw
      subst hw
      exact h.ciphers (writeRecord_ciphers hrec) rfl rfl rfl h.unacked rfl (fun hu => (h.after hu).1) (fun _ => rfl) rfl
  · simp at hw
  · simp at hw
  · simp at hw

theorem writeAll_sender {W : World} {cp : Params} {b : Bool} {s : Bytes} {u : Bool} (fs : List Bytes) (sent : Nat) {c : DLive}
    (h : Sender W cp b s u c) : Sender W cp b s u (c.writeAll fs sent).2 := by
  induction fs generalizing c sent with
  | nil => exact h
  | cons f fs ih =>
    rw [DLive.writeAll]
    split
    · rename_i h1; exact ih _ (writeRecord_sender h h1)
    · rename_i h1; cases writeRecord_fails h1 (by simp); exact h
    · rename_i h1; cases writeRecord_fails h1 (by simp); exact h
    · rename_i h1; cases writeRecord_fails h1 (by simp); exact h

theorem readLoop_still {W : World} {cp : Params} {b : Bool} {s : Bytes} {u : Bool} {c : DLive} (h : Sender W cp b s u c) (now : Int) (fuel : Nat) :
    DLive.readLoop W now fuel c = (.err .wouldBlock, c) := by
  have hcons : c.consume W now = (.err .wouldBlock, c) := by
    simp only [DLive.consume, readRecord_nothing h.idle h.cached h.conn]
  induction fuel with
  | zero => rw [DLive.readLoop, if_pos h.buffer]
  | succ fuel ih =>
    rw [DLive.readLoop, if_pos h.buffer, hcons]
    dsimp only
    split
    · rfl
    · exact ih

/-- The queue is sent: nothing before the key update, the key update from then on. -/
theorem send_sender {W : World} {cp : Params} {b : Bool} {s : Bytes} {u : Bool} {c : DLive} {o : Out} (h : Sender W cp b s u c)
    (ho : c.out.op .send = .ok o) :
    Sender W cp b s u { c with out := o } ∧ ∃ ds ts, o.wire.map WireRec.bytes = c.out.wire.map WireRec.bytes ++ ds ∧
      List.Forall₂ (Carries W cp b s) ds ts ∧ ts = if u then [.update] else [] := by
  simp only [Out.op, Res.bind_eq_ok] at ho
  obtain ⟨⟨n, o2⟩, hsend, hx⟩ := ho
  cases hx
  cases u with
  | false =>
    simp only [Out.sendQueued, (h.before rfl).1, Out.writeMessages] at hsend
    cases hsend
    refine ⟨h.ciphers ⟨rfl, rfl, rfl, rfl, fun _ => rfl, fun _ => rfl, fun _ => rfl⟩ rfl rfl rfl h.unacked rfl (fun hu => by cases hu) (fun _ => rfl) rfl,
      [], [], by simp, .nil, rfl⟩
  | true =>
    obtain ⟨-, seq, j, h1, h2, h3, h4⟩ := h.after rfl
    have hna : ∀ a b c', fragmentAcked c.out.sent a b c' = false := by
      intro a b c'
      simp only [fragmentAcked, List.any_eq_false]
      intro f hf
      simp [h.unacked f hf]
    simp only [Out.sendQueued, h1, Out.writeMessages, Res.bind_eq_ok, Res.ok.injEq, Prod.mk.injEq] at hsend
    obtain ⟨⟨n1, o1⟩, hsend, -, rfl⟩ := hsend
    simp only [Out.writeMessage] at hsend
    rw [if_neg (by decide), Out.writeLoop] at hsend
    simp only [Out.writeFragment, h.room, hna, Bool.false_eq_true, if_false, Res.bind_eq_ok] at hsend
    rw [if_neg (by decide)] at hsend
    obtain ⟨⟨w, st, o2⟩, hf, hsend⟩ := hsend
    rw [Res.bind_eq_ok] at hf
    obtain ⟨o3, hf, hx⟩ := hf
    cases hx
    dsimp only at hsend
    rw [if_pos (by decide)] at hsend
    cases hsend
    simp only [Out.emit, Res.bind_eq_ok] at hf
    obtain ⟨⟨rec, k⟩, hw, hf⟩ := hf
    cases hf
    refine ⟨h.ciphers (writeRecord_ciphers hw) rfl rfl h.room.symm ?_ rfl (fun _ => rfl) (fun hu => by cases hu) rfl, [rec], [.update], by simp, .cons ?_ .nil, rfl⟩
    · intro f hf
      rcases List.mem_append.mp hf with hf | hf
      · exact h.unacked f hf
      · simp only [List.mem_singleton] at hf
        rw [hf]
    · have : Msg.marshal true ⟨24, seq, List.take (min (List.length [(0 : UInt8)] - 0) (1200 - 12)) (List.drop 0 [0]), 0,
          List.length [(0 : UInt8)]⟩ = keyUpdateBytes seq := by
        simp [Msg.marshal, keyUpdateBytes, beBytes]
      rw [this] at hw
      exact ⟨seq, _, _, _, h.speaking.datagram, h.speaking.direction, h2, h3, h4, hw⟩

theorem call_sender {W : World} {cp : Params} {b : Bool} {s : Bytes} {u : Bool} {c c' : DLive} {k : DCall} {rep : Reply}
    (h : Sender W cp b s u c) (hk : (∃ b, k = .write b) ∨ ∃ now expired fuel n, k = .read now expired fuel (n + 1))
    (hc : c.call W k = (.ok rep, c')) :
    Sender W cp b s u c' ∧ ∃ ds ts, c'.datagrams = c.datagrams ++ ds ∧ List.Forall₂ (Carries W cp b s) ds ts ∧
      (carriedData ts).flatten = rep.wrote ∧ (∀ a f, .data a f ∈ ts → a = u) ∧
      ts.count .update = if u then expiries [(k, rep)] else 0 := by
  rcases hk with ⟨data, rfl⟩ | ⟨now, expired, fuel, n, rfl⟩
  · obtain ⟨ds, gs, e1, e2, e3, e4⟩ := write_speaking h.speaking hc
    have hw := write_snd W c data
    rw [hc] at hw
    have hs' := writeAll_sender (fragments data.length data) 0 h
    have hw' : c' = (c.writeAll (fragments data.length data) 0).2 := hw
    rw [← hw'] at hs'
    refine ⟨hs', ds, gs.map (.data u), e2, ?_, ?_, ?_, ?_⟩
    · clear e1 e2 hs' hw' hw e4
      induction e3 with
      | nil => exact .nil
      | cons hd _ ih => exact .cons hd ih
    · rw [← e1]
      congr 1
      clear e1 e3
      induction gs with
      | nil => rfl
      | cons g gs ih => simp [carriedData, ih]
    · intro a f hm
      simp only [List.mem_map, Carried.data.injEq] at hm
      obtain ⟨_, _, rfl, _⟩ := hm
      rfl
    · have : (gs.map (Carried.data u)).count .update = 0 := by
        rw [List.count_eq_zero]
        simp
      rw [this]
      simp [expiries]
  · simp only [DLive.call, DLive.read] at hc
    rw [if_neg (by omega)] at hc
    unfold DLive.checkTimers at hc
    by_cases hx : expired = true ∧ c.out.timer = true
    · rw [if_pos hx] at hc
      cases ho : c.out.op .send with
      | ok o =>
        rw [ho] at hc
        simp only [DLive.sends] at hc
        by_cases hg : c.closed = true ∧ o.wire.length > c.out.wire.length
        · rw [if_pos hg] at hc
          simp only [dInternal, alert] at hc
          cases hc
          refine ⟨h, [], [], by simp, .nil, rfl, by simp, ?_⟩
          simp [expiries]
        · rw [if_neg hg] at hc
          simp only [dInternal] at hc
          obtain ⟨hs', ds, ts, h1, h2, h3⟩ := send_sender h ho
          rw [readLoop_still hs' now fuel] at hc
          cases hc
          refine ⟨hs', ds, ts, h1, h2, ?_, ?_, ?_⟩
          · rw [h3]; cases u <;> rfl
          · rw [h3]; cases u <;> simp
          · rw [h3]; cases u <;> simp [expiries, hx.1]
      | err e =>
        rw [ho] at hc
        simp only [DLive.sends, dInternal, alert] at hc
        cases hc
        refine ⟨h, [], [], by simp, .nil, rfl, by simp, ?_⟩
        simp [expiries]
      | panic => rw [ho] at hc; simp [DLive.sends, dInternal] at hc
      | diverge => rw [ho] at hc; simp [DLive.sends, dInternal] at hc
    · rw [if_neg hx] at hc
      dsimp only at hc
      rw [readLoop_still h now fuel] at hc
      cases hc
      refine ⟨h, [], [], by simp, .nil, rfl, by simp, ?_⟩
      cases u with
      | false => rfl
      | true =>
        have : expired = false := by
          cases expired with
          | false => rfl
          | true => exact absurd ⟨rfl, (h.after rfl).1⟩ hx
        simp [expiries, this]

theorem calls_sender {W : World} {cp : Params} {b : Bool} {s : Bytes} {u : Bool} (ks : List DCall) (hks : WritesAndReads ks) {c : DLive}
    (h : Sender W cp b s u c) (hret : (c.calls W ks).1.length = ks.length) :
    Sender W cp b s u (c.calls W ks).2 ∧ ∃ ds ts, (c.calls W ks).2.datagrams = c.datagrams ++ ds ∧ List.Forall₂ (Carries W cp b s) ds ts ∧
      (carriedData ts).flatten = (c.calls W ks).1.flatMap (fun r => r.2.wrote) ∧ (∀ a f, .data a f ∈ ts → a = u) ∧
      ts.count .update = if u then expiries (c.calls W ks).1 else 0 := by
  induction ks generalizing c with
  | nil => exact ⟨h, [], [], by simp [DLive.calls], .nil, rfl, by simp, by simp [DLive.calls, expiries]⟩
  | cons k ks ih =>
    rw [DLive.calls] at hret ⊢
    split at hret
    · rename_i rep c1 h1
      dsimp only at hret ⊢
      obtain ⟨hs1, ds, ts, e1, e2, e3, e4, e5⟩ := call_sender h (hks k (by simp)) h1
      obtain ⟨hs2, ds', ts', i1, i2, i3, i4, i5⟩ := ih (fun k hk => hks k (by simp [hk])) hs1 (by simpa using hret)
      refine ⟨hs2, ds ++ ds', ts ++ ts', by rw [i1, e1]; simp, List.rel_append e2 i2, ?_, ?_, ?_⟩
      · have : ∀ l l' : List Carried, carriedData (l ++ l') = carriedData l ++ carriedData l' := by
          intro l l'
          induction l with
          | nil => rfl
          | cons t l ih => cases t <;> simp [carriedData, ih]
        rw [this, List.flatten_append, e3, i3]
        simp
      · intro a f hm
        rcases List.mem_append.mp hm with hm | hm
        · exact e4 a f hm
        · exact i4 a f hm
      · rw [List.count_append, e5, i5]
        cases u with
        | false => rfl
        | true =>
          simp only [if_true, expiries]
          rw [← List.length_append, ← List.filter_append]
          rfl
    · simp at hret

/-! ### The key update -/

/-- What is in the queue after the key update was queued and sent. -/
theorem lone_queue {o o' : Out} {t : UInt8} {q : Nat} {d : Bytes} (hq : o.queued = []) (hs : o.sent = []) (hr : o.room = 1200)
    (hd : d.length ≤ 1188) (h : (o.queue t q d).op .send = .ok o') :
    o'.queued = [⟨t, q, d, o.keys.cur⟩] ∧ o'.room = 1200 ∧ o'.timer = true ∧ (∀ f ∈ o'.sent, f.acked = false) ∧ SameCiphers o.keys o'.keys := by
  have hmin : min d.length 1188 = d.length := by omega
  simp only [Out.op, Res.bind_eq_ok] at h
  obtain ⟨⟨n, o2⟩, h, hx⟩ := h
  cases hx
  simp only [Out.queue, Out.sendQueued, hq, List.nil_append, Out.writeMessages, Res.bind_eq_ok, Res.ok.injEq, Prod.mk.injEq] at h
  obtain ⟨⟨n1, o1⟩, h, -, rfl⟩ := h
  simp only [Out.writeMessage] at h
  rw [if_neg (by omega), Out.writeLoop] at h
  simp only [Out.writeFragment, hr, hs, Nat.sub_zero, hmin, List.drop_zero, List.take_length, fragmentAcked, List.any_nil, Bool.false_eq_true,
    if_false, Res.bind_eq_ok] at h
  rw [if_neg (by decide)] at h
  obtain ⟨⟨w, st, o2⟩, h2, h⟩ := h
  rw [Res.bind_eq_ok] at h2
  obtain ⟨o3, h3, h2⟩ := h2
  cases h2
  dsimp only at h
  rw [if_pos (by omega)] at h
  cases h
  simp only [Out.emit, Res.bind_eq_ok] at h3
  obtain ⟨⟨rec, k⟩, hw, h3⟩ := h3
  cases h3
  exact ⟨rfl, rfl, rfl, by simp, writeRecord_ciphers hw⟩

/-- SendKeyUpdate at an end that has sent nothing but data. -/
theorem update_sender {W : World} (hP : W.E.P.Sized) {cp : Params} (hz : 0 < cp.hash.size) {b : Bool} {s : Bytes} {c c' : DLive}
    (h : Sender W cp b s false c) (hu : c.call W (.update false) = (.ok {}, c')) :
    Sender W cp b s true c' ∧ ∃ d, c'.datagrams = c.datagrams ++ [d] ∧ Carries W cp b s d .update := by
  obtain ⟨hq, hs, hfresh, hcp, hb, hsec⟩ := h.before rfl
  obtain ⟨s', m, x', hk, -, hty, hbd, hcp', -, -, -⟩ := connected_keyUpdate hP c.x c.st (hcp ▸ hz) 0
  obtain ⟨d, seq, u1, u2, u3⟩ := update_speaking hP hz h.speaking hq hs h.room hcp hb (by rw [hsec]; rfl) hu
  refine ⟨?_, d, u1, seq, u2⟩
  simp only [DLive.call, DLive.update, Bool.false_eq_true, if_false] at hu
  rw [hk] at hu
  dsimp only at hu
  rw [DLive.takeAll] at hu
  have e1 : ({ c with st := s', x := x' } : DLive).takeAction W (.queue m) =
      (.ok (), { c with st := s', x := x', out := c.out.queue m.msgType m.seq m.body }) := by
    simp [DLive.takeAction, Out.op, DLive.sends, Out.queue, dInternal]
  rw [e1] at hu
  dsimp only at hu
  rw [DLive.takeAll] at hu
  have e2 : ({ c with st := s', x := x', out := c.out.queue m.msgType m.seq m.body } : DLive).takeAction W .sendQueued =
    dInternal (({ c with st := s', x := x', out := c.out.queue m.msgType m.seq m.body } : DLive).sends
      ((c.out.queue m.msgType m.seq m.body).op .send)) := rfl
  rw [e2] at hu
  have hfail : ∀ c2 : DLive, dReply (DLive.orAbort .msg (alert Alert.internalError, c2)) ≠ (.ok {}, c') := by
    intro c2 hc2
    simp only [DLive.orAbort, alert, DLive.abort] at hc2
    split at hc2
    · simp [dReply] at hc2
    · rename_i hno
      rcases hsa : c2.sendAlert Alert.internalError with ⟨rb, cb⟩
      rw [hsa] at hc2
      cases rb with
      | ok u => exact hno _ _ hsa
      | err e => simp [dReply] at hc2
      | panic => simp [dReply] at hc2
      | diverge => simp [dReply] at hc2
  cases ho : (c.out.queue m.msgType m.seq m.body).op .send with
  | ok o =>
    rw [ho] at hu
    simp only [DLive.sends] at hu
    by_cases hg : c.closed = true ∧ o.wire.length > (c.out.queue m.msgType m.seq m.body).wire.length
    · rw [if_pos hg] at hu
      exact absurd hu (hfail _)
    · rw [if_neg hg] at hu
      obtain ⟨q1, q2, q3, q4, q5⟩ := lone_queue hq hs h.room (by rw [hbd]; decide) ho
      simp only [dInternal, DLive.takeAll, DLive.takeAction, Out.op, DLive.sends] at hu
      rw [if_neg (by simp)] at hu
      simp only [DLive.orAbort, dReply, Prod.mk.injEq, true_and] at hu
      subst hu
      have hne : c.out.keys.cur ≠ o.keys.fresh := by rw [q5.fresh]; omega
      refine ⟨u3, h.idle, h.cached, h.conn, h.buffer, q2, q4, (fun hu => by cases hu), fun _ => ⟨q3, m.seq, c.out.keys.cur, ?_, ?_, ?_, ?_⟩⟩
      · show o.queued = _
        rw [q1, hty, hbd]
      · show (upd o.keys.heap o.keys.fresh _ c.out.keys.cur).epoch = _
        rw [upd, if_neg hne, q5.epoch]
        exact h.speaking.epoch
      · show (upd o.keys.heap o.keys.fresh _ c.out.keys.cur).aead = _
        rw [upd, if_neg hne, q5.aead]
        exact h.speaking.aead
      · show (upd o.keys.heap o.keys.fresh _ c.out.keys.cur).iv = _
        rw [upd, if_neg hne, q5.iv]
        exact h.speaking.iv
  | err e => rw [ho] at hu; exact absurd hu (hfail _)
  | panic => rw [ho] at hu; simp [DLive.sends, dInternal, DLive.orAbort, dReply] at hu
  | diverge => rw [ho] at hu; simp [DLive.sends, dInternal, DLive.orAbort, dReply] at hu

/-! ### C79 -/

theorem repeated_update {W : World} (hl : W.Lawful) (hP : W.E.P.Sized) {cp : Params} (hz : 0 < cp.hash.size) {b : Bool} {s : Bytes}
    {c c1 r : DLive} (h : Sender W cp b s false c) (hnone : c.datagrams = []) (hr : ∀ n, n + 1 < 2 ^ 48 → Listening W cp b s 0 n r)
    (hrb : r.readBuffer = []) (before after : List DCall) (hb : WritesAndReads before) (ha : WritesAndReads after)
    (hret : (c.calls W before).1.length = before.length) (hu : (c.calls W before).2.call W (.update false) = (.ok {}, c1))
    (hret' : (c1.calls W after).1.length = after.length) :
    ∃ ts ts' : List Carried,
      (ts ++ .update :: ts').length = (c1.calls W after).2.datagrams.length ∧
      (∀ t ∈ ts, ∃ f, t = .data false f) ∧ (carriedData ts).flatten = (c.calls W before).1.flatMap (fun r => r.2.wrote) ∧
      (∀ t ∈ ts', t = .update ∨ ∃ f, t = .data true f) ∧ (carriedData ts').flatten = (c1.calls W after).1.flatMap (fun r => r.2.wrote) ∧
      ts'.count .update = expiries (c1.calls W after).1 ∧
      ∀ (idx : List Nat) (ks : List DCall), (∀ i ∈ idx, i < (ts ++ .update :: ts').length) → idx.length + 1 < 2 ^ 48 → OnlyReads ks →
        let ds := idx.map fun i => (c1.calls W after).2.datagrams.getD i []
        let reads := (r.arrives ds).calls W ks
        let got := (readable false (idx.map fun i => (ts ++ .update :: ts').getD i .update)).flatten
        reads.1.length = ks.length ∧ (∀ r ∈ reads.1, r.2.error = none ∨ r.2.error = some .wouldBlock) ∧
        returned reads.1 <+: got ∧ (idx.length + got.length ≤ ks.length → returned reads.1 = got) := by
  obtain ⟨h1, ds, ts, e1, e2, e3, e4, e5⟩ := calls_sender before hb h hret
  obtain ⟨h2, u, u1, u2⟩ := update_sender hP hz h1 hu
  obtain ⟨-, ds', ts', i1, i2, i3, i4, i5⟩ := calls_sender after ha h2 hret'
  have hall : (c1.calls W after).2.datagrams = ds ++ u :: ds' := by
    rw [i1, u1, e1, hnone]; simp
  have hrel : List.Forall₂ (Carries W cp b s) (ds ++ u :: ds') (ts ++ .update :: ts') := List.rel_append e2 (.cons u2 i2)
  refine ⟨ts, ts', by rw [hall]; exact hrel.length_eq.symm, ?_, e3, ?_, i3, by simpa using i5, ?_⟩
  · intro t ht
    cases t with
    | update =>
      exfalso
      have h0 : ts.count .update = 0 := by simpa using e5
      exact List.count_eq_zero.mp h0 ht
    | data a f => exact ⟨f, by rw [e4 a f ht]⟩
  · intro t ht
    cases t with
    | update => exact .inl rfl
    | data a f => exact .inr ⟨f, by rw [i4 a f ht]⟩
  · intro idx ks hidx hlen hks
    rw [hall]
    have := C79_reads_partial W hl hP cp hz b s 0 r _ _ (hr _ (by simpa using hlen))
      (arrives_carried hl false (forall₂_pick hrel idx hidx)) ks hks
    rw [hrb] at this
    simpa using this

theorem start_sender {W : World} {st : Connected} {x : Ctx} {nb : Bool} {sn : Bytes} {ho hi o i : Machine.Keys} {b : Bool}
    (hr : st.isClient = b) (h : o = keysOf W.E.P st.cp (if b then st.clientAp else st.serverAp)) :
    Sender W st.cp b (if b then st.clientAp else st.serverAp) false (DLive.start W st x nb sn ho hi o i []) :=
  ⟨start_speaking h, ⟨rfl, rfl, rfl, rfl⟩, rfl, rfl, rfl, rfl, by simp [DLive.start, Out.new],
    fun _ => ⟨rfl, rfl, by simp [DLive.start, Record.Keys.rekey], rfl, hr, rfl⟩, fun hu => by cases hu⟩

/-- A key update that is lost gets through later. The client writes and reads, updates its keys, and again writes and reads, its
timer expiring whenever it likes; nothing arrives at it. Every expiry after the key update sends the key update again, under the
keys it was first sent with. The network delivers any selection of the datagrams, in any order, each as often as it likes. The
server's Reads return, in the order of arrival, the data written before the key update up to the first copy of it, and from then
on the data written after it; they do not fail, and enough of them return all of this. Missing: more than one key update
(C79_second_update_fails, C79_third_update_fails), one that asks for an answer. -/
theorem C79_repeated_to_server_partial (W : World) (hl : W.Lawful) (hP : W.E.P.Sized) (cl sv : Connected) (co ci so si : Machine.Keys)
    (h : Established W cl sv co ci so si) (x y : Ctx) (nb nb' : Bool) (sn sn' : Bytes) (ho hi ho' hi' : Machine.Keys)
    (before after : List DCall) (hb : WritesAndReads before) (ha : WritesAndReads after) (c1 : DLive)
    (hret : ((DLive.start W cl x nb sn ho hi co ci []).calls W before).1.length = before.length)
    (hu : ((DLive.start W cl x nb sn ho hi co ci []).calls W before).2.call W (.update false) = (.ok {}, c1))
    (hret' : (c1.calls W after).1.length = after.length) :
    ∃ ts ts' : List Carried,
      (ts ++ .update :: ts').length = (c1.calls W after).2.datagrams.length ∧
      (∀ t ∈ ts, ∃ f, t = .data false f) ∧
      (carriedData ts).flatten = ((DLive.start W cl x nb sn ho hi co ci []).calls W before).1.flatMap (fun r => r.2.wrote) ∧
      (∀ t ∈ ts', t = .update ∨ ∃ f, t = .data true f) ∧ (carriedData ts').flatten = (c1.calls W after).1.flatMap (fun r => r.2.wrote) ∧
      ts'.count .update = expiries (c1.calls W after).1 ∧
      ∀ (idx : List Nat) (ks : List DCall), (∀ i ∈ idx, i < (ts ++ .update :: ts').length) → idx.length + 1 < 2 ^ 48 → OnlyReads ks →
        let ds := idx.map fun i => (c1.calls W after).2.datagrams.getD i []
        let reads := ((DLive.start W sv y nb' sn' ho' hi' so si []).arrives ds).calls W ks
        let got := (readable false (idx.map fun i => (ts ++ .update :: ts').getD i .update)).flatten
        reads.1.length = ks.length ∧ (∀ r ∈ reads.1, r.2.error = none ∨ r.2.error = some .wouldBlock) ∧
        returned reads.1 <+: got ∧ (idx.length + got.length ≤ ks.length → returned reads.1 = got) := by
  obtain ⟨hz, hc, hs, e1, e2, e3, e4⟩ := h.ends hP
  refine repeated_update (b := true) (s := cl.clientAp) (cp := cl.cp) hl hP hz (start_sender (b := true) hc e1) rfl ?_ rfl before after hb ha hret hu hret'
  intro n hn
  have hL := start_listening (W := W) (st := sv) (x := y) (nb := nb') (sn := sn') (ho := ho') (hi := hi') (o := so) (i := si) (b := true)
    (conn := []) n hn hs (by rw [← h.suite, if_pos rfl, ← h.client]; exact e4)
  rwa [if_pos rfl, ← h.suite, ← h.client] at hL

/-- The same from a server to a client. -/
theorem C79_repeated_to_client_partial (W : World) (hl : W.Lawful) (hP : W.E.P.Sized) (cl sv : Connected) (co ci so si : Machine.Keys)
    (h : Established W cl sv co ci so si) (x y : Ctx) (nb nb' : Bool) (sn sn' : Bytes) (ho hi ho' hi' : Machine.Keys)
    (before after : List DCall) (hb : WritesAndReads before) (ha : WritesAndReads after) (c1 : DLive)
    (hret : ((DLive.start W sv y nb' sn' ho' hi' so si []).calls W before).1.length = before.length)
    (hu : ((DLive.start W sv y nb' sn' ho' hi' so si []).calls W before).2.call W (.update false) = (.ok {}, c1))
    (hret' : (c1.calls W after).1.length = after.length) :
    ∃ ts ts' : List Carried,
      (ts ++ .update :: ts').length = (c1.calls W after).2.datagrams.length ∧
      (∀ t ∈ ts, ∃ f, t = .data false f) ∧
      (carriedData ts).flatten = ((DLive.start W sv y nb' sn' ho' hi' so si []).calls W before).1.flatMap (fun r => r.2.wrote) ∧
      (∀ t ∈ ts', t = .update ∨ ∃ f, t = .data true f) ∧ (carriedData ts').flatten = (c1.calls W after).1.flatMap (fun r => r.2.wrote) ∧
      ts'.count .update = expiries (c1.calls W after).1 ∧
      ∀ (idx : List Nat) (ks : List DCall), (∀ i ∈ idx, i < (ts ++ .update :: ts').length) → idx.length + 1 < 2 ^ 48 → OnlyReads ks →
        let ds := idx.map fun i => (c1.calls W after).2.datagrams.getD i []
        let reads := ((DLive.start W cl x nb sn ho hi co ci []).arrives ds).calls W ks
        let got := (readable false (idx.map fun i => (ts ++ .update :: ts').getD i .update)).flatten
        reads.1.length = ks.length ∧ (∀ r ∈ reads.1, r.2.error = none ∨ r.2.error = some .wouldBlock) ∧
        returned reads.1 <+: got ∧ (idx.length + got.length ≤ ks.length → returned reads.1 = got) := by
  obtain ⟨hz, hc, hs, e1, e2, e3, e4⟩ := h.ends hP
  have hsd := start_sender (W := W) (st := sv) (x := y) (nb := nb') (sn := sn') (ho := ho') (hi := hi') (o := so) (i := si) (b := false)
    hs (by rw [if_neg (by simp), ← h.suite, ← h.server]; exact e3)
  rw [if_neg (by simp), ← h.suite, ← h.server] at hsd
  exact repeated_update (b := false) (s := cl.serverAp) (cp := cl.cp) hl hP hz hsd rfl
    (fun n hn => start_listening (b := false) n hn hc e2) rfl before after hb ha hret hu hret'

/-- The key update is lost, and so is what was written after it until the timer expires. -/
example : readable false [.data false [1], .data true [3], .update, .data false [2], .data true [4], .update, .data true [3]] =
    [[1], [4], [3]] := by decide

example : ∃ (cl sv : Connected) (co ci so si : Machine.Keys) (x y : Ctx) (c1 : DLive), Established Toy.world cl sv co ci so si ∧
    ((DLive.start Toy.world cl x true [97] ([1], [1]) ([2], [2]) co ci []).calls Toy.world [.write [1], .read 0 true 1 1]).1.length = 2 ∧
    ((DLive.start Toy.world cl x true [97] ([1], [1]) ([2], [2]) co ci []).calls Toy.world [.write [1], .read 0 true 1 1]).2.call Toy.world
      (.update false) = (.ok {}, c1) ∧
    (c1.calls Toy.world [.write [2], .read 0 true 1 1, .write [3]]).1.length = 3 ∧
    (c1.calls Toy.world [.write [2], .read 0 true 1 1, .write [3]]).2.datagrams.length = 5 ∧
    returned (((DLive.start Toy.world sv y true [] ([2], [2]) ([1], [1]) so si []).arrives ([0, 2, 3, 4, 2].map fun i =>
      (c1.calls Toy.world [.write [2], .read 0 true 1 1, .write [3]]).2.datagrams.getD i [])).calls Toy.world
        (List.replicate 9 (.read 0 false 9 9))).1 = [1, 3, 2] := by
  obtain ⟨cl, sv, co, ci, so, si, x, y, h, hf⟩ := toy_dtls
    (fun c s =>
      match (c.calls Toy.world [.write [1], .read 0 true 1 1]).2.call Toy.world (.update false) with
      | (.ok r, c1) => decide (r.bytes = [] ∧ r.wrote = [] ∧ r.error = none) &&
          decide ((c.calls Toy.world [.write [1], .read 0 true 1 1]).1.length = 2) &&
          decide ((c1.calls Toy.world [.write [2], .read 0 true 1 1, .write [3]]).1.length = 3) &&
          decide ((c1.calls Toy.world [.write [2], .read 0 true 1 1, .write [3]]).2.datagrams.length = 5) &&
          decide (returned ((s.arrives ([0, 2, 3, 4, 2].map fun i =>
            (c1.calls Toy.world [.write [2], .read 0 true 1 1, .write [3]]).2.datagrams.getD i [])).calls Toy.world
              (List.replicate 9 (.read 0 false 9 9))).1 = [1, 3, 2])
      | _ => false) (by decide +kernel)
  split at hf
  · rename_i r c1 hc1
    simp only [Bool.and_eq_true, decide_eq_true_eq] at hf
    obtain ⟨⟨⟨⟨⟨hr1, hr2, hr3⟩, h1⟩, h2⟩, h3⟩, h4⟩ := hf
    obtain ⟨rb, rw', re⟩ := r
    cases hr1
    cases hr2
    cases hr3
    exact ⟨cl, sv, co, ci, so, si, x, y, c1, h, h1, hc1, h2, h3, h4⟩
  · cases hf

end Verif.Props
