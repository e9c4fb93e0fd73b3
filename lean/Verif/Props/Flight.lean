import Verif.Handshake.FlightLemmas
import Verif.Props.Syntax
import Verif.Props.Record

/-
C23: acknowledgements and retransmission. The theorems speak of the records handed to the transport (`wire`: number in the
header, message number, offset and bytes carried) and of the record numbers in the ACKs received (`acks`).
-/

namespace Verif.Handshake

open Verif Verif.Record

/-- Record `w` carries byte `p` of message `m` (of an empty message: a fragment of it). -/
def WireRec.Carries (w : WireRec) (m : OutMsg) (p : Nat) : Prop :=
  ∃ off b, w.content = some (m.seq, off, b) ∧ off ≤ p ∧ (p < off + b.length ∨ m.body = [])

/-- The byte positions of a message (an empty message has position 0). -/
def OutMsg.Pos (m : OutMsg) (p : Nat) : Prop := p < m.body.length ∨ (m.body = [] ∧ p = 0)

/-- The peer acknowledged a record that carried byte `p` of `m`. -/
def Out.Acknowledged (o : Out) (m : OutMsg) (p : Nat) : Prop :=
  ∃ w ∈ o.wire, w.number ∈ o.acks ∧ w.Carries m p

/-- All messages of the flight are to be protected with the current key. -/
def OneKey (o : Out) : Prop := ∀ m ∈ o.queued, m.cipher = o.keys.cur

/-- Histories in which that is so whenever the flight is (re)sent. -/
def Tame : Out → List OutOp → Prop
  | _, [] => True
  | o, op :: ops => ((op = .send ∨ ∃ data, op = .ack data) → OneKey o) ∧ ∀ o', o.op op = .ok o' → Tame o' ops

/-! ### The invariant -/

structure Book (o : Out) : Prop where
  noted : ∀ f ∈ o.sent, ∃ w ∈ o.wire, Noted f w
  acked : ∀ f ∈ o.sent, f.acked = true → f.record ∈ o.acks

theorem book_send {o o' : Out} {n : Nat} (hb : Book o) (hk : OneKey o) (h : o.sendQueued = .ok (n, o')) : Book o' := by
  obtain ⟨new, recs, hw, -, -, -, hn⟩ := writeMessages_ok _ _ _ _ _ h
  refine ⟨fun f hf => ?_, fun f hf ha => ?_⟩
  · rw [hw.sent] at hf
    rw [hw.wire]
    rcases List.mem_append.mp hf with hf | hf
    · obtain ⟨w, h1, h2⟩ := hb.noted f hf
      exact ⟨w, List.mem_append_left _ h1, h2⟩
    · obtain ⟨w, h1, h2⟩ := hn hk f hf
      exact ⟨w, List.mem_append_right _ h1, h2⟩
  · rw [hw.sent] at hf
    rw [hw.acks]
    rcases List.mem_append.mp hf with hf | hf
    · exact hb.acked f hf ha
    · rw [hw.unacked f hf] at ha; exact absurd ha (by simp)

/-- The state in which `processAck` resends. -/
def Out.marked (o : Out) (nums : List Nat) : Out :=
  { o with timer := false, sent := markAcked nums o.sent, acks := o.acks ++ nums }

theorem book_marked {o : Out} (hb : Book o) (nums : List Nat) : Book (o.marked nums) := by
  refine ⟨fun f hf => ?_, fun f hf ha => ?_⟩
  · simp only [Out.marked, markAcked, List.mem_map] at hf
    obtain ⟨g, hg, rfl⟩ := hf
    obtain ⟨w, h1, h2⟩ := hb.noted g hg
    refine ⟨w, h1, ?_⟩
    split
    · exact h2
    · exact h2
  · simp only [Out.marked, markAcked, List.mem_map] at hf
    obtain ⟨g, hg, rfl⟩ := hf
    simp only [Out.marked, List.mem_append]
    split at ha
    · rename_i hc
      rw [if_pos hc]
      exact .inr (List.contains_iff_mem.mp hc)
    · rename_i hc
      rw [if_neg hc]
      exact .inl (hb.acked g hg ha)

theorem processAck_ok {o o' : Out} {data : Bytes} (h : o.processAck data = .ok o') :
    ∃ nums n o2, ackNumbers data = .ok nums ∧ (o.marked nums).sendQueued = .ok (n, o2) ∧
      o' = if n = 0 then { o2 with queued := [] } else { o2 with timer := true } := by
  unfold Out.processAck at h
  rw [Res.bind_eq_ok] at h
  obtain ⟨nums, h1, h⟩ := h
  rw [Res.bind_eq_ok] at h
  obtain ⟨⟨n, o2⟩, h2, h⟩ := h
  refine ⟨nums, n, o2, h1, h2, ?_⟩
  dsimp only at h
  split at h <;> cases h <;> simp_all

theorem Book.of_eq {o o' : Out} (hb : Book o) (h1 : o'.sent = o.sent) (h2 : ∃ r, o'.wire = o.wire ++ r) (h3 : o'.acks = o.acks) :
    Book o' := by
  obtain ⟨r, h2⟩ := h2
  refine ⟨fun f hf => ?_, fun f hf ha => ?_⟩
  · rw [h1] at hf
    obtain ⟨w, hw, hn⟩ := hb.noted f hf
    exact ⟨w, by rw [h2]; exact List.mem_append_left _ hw, hn⟩
  · rw [h1] at hf; rw [h3]; exact hb.acked f hf ha

theorem book_op {o o' : Out} {op : OutOp} (hb : Book o) (hk : (op = .send ∨ ∃ data, op = .ack data) → OneKey o)
    (h : o.op op = .ok o') : Book o' := by
  cases op with
  | queue t s b => cases h; exact hb.of_eq rfl ⟨[], by simp [Out.queue]⟩ rfl
  | send =>
    simp only [Out.op] at h
    rw [Res.bind_eq_ok] at h
    obtain ⟨⟨n, o1⟩, h1, h⟩ := h
    cases h
    exact (book_send hb (hk (.inl rfl)) h1).of_eq rfl ⟨[], by simp⟩ rfl
  | ack data =>
    obtain ⟨nums, n, o2, -, h2, rfl⟩ := processAck_ok h
    have hk' : OneKey (o.marked nums) := hk (.inr ⟨data, rfl⟩)
    have := book_send (book_marked hb nums) hk' h2
    split
    · exact this.of_eq rfl ⟨[], by simp⟩ rfl
    · exact this.of_eq rfl ⟨[], by simp⟩ rfl
  | nextFlight => cases h; exact hb.of_eq rfl ⟨[], by simp⟩ rfl
  | rekey e a iv => cases h; exact hb.of_eq rfl ⟨[], by simp⟩ rfl
  | resetClear s => cases h; exact hb.of_eq rfl ⟨[], by simp⟩ rfl
  | version v => cases h; exact hb.of_eq rfl ⟨[], by simp⟩ rfl
  | other ct f =>
    obtain ⟨rec, rfl, -⟩ := emit_ok h
    exact hb.of_eq rfl ⟨_, rfl⟩ rfl

theorem book_run : ∀ (ops : List OutOp) (o o' : Out), Book o → Tame o ops → o.run ops = .ok o' → Book o' := by
  intro ops
  induction ops with
  | nil => intro o o' hb _ h; cases h; exact hb
  | cons op ops ih =>
    intro o o' hb ht h
    simp only [Out.run] at h
    rw [Res.bind_eq_ok] at h
    obtain ⟨o1, h1, h⟩ := h
    exact ih o1 o' (book_op hb ht.1 h1) (ht.2 o1 h1) h

theorem book_new : Book Out.new := ⟨by simp [Out.new], by simp [Out.new]⟩

/-- The fragment with byte `p`. -/
theorem start_of_pos {room : Nat} (hroom : 12 < room) (m : OutMsg) {p : Nat} (hp : m.Pos p) :
    IsStart room m (p / (room - 12) * (room - 12)) ∧ p / (room - 12) * (room - 12) ≤ p ∧
      (p < p / (room - 12) * (room - 12) + (piece room m (p / (room - 12) * (room - 12))).length ∨ m.body = []) := by
  have hc : 0 < room - 12 := by omega
  have h1 := Nat.div_add_mod p (room - 12)
  have h2 := Nat.mod_lt p hc
  rw [Nat.mul_comm] at h1
  rw [piece_length]
  rcases hp with hp | ⟨hp, rfl⟩
  · refine ⟨.inr ⟨by omega, by simp⟩, by omega, .inl (by omega)⟩
  · exact ⟨.inl (by simp), by simp, .inr hp⟩

theorem acked_pos {o : Out} (hb : Book o) {m : OutMsg} {s len p : Nat} (h : fragmentAcked o.sent m.seq s len = true)
    (h1 : s ≤ p) (h2 : p < s + len ∨ m.body = []) : o.Acknowledged m p := by
  simp only [fragmentAcked, List.any_eq_true, Bool.and_eq_true, beq_iff_eq, decide_eq_true_eq] at h
  obtain ⟨f, hf, ⟨⟨ha, hs⟩, h3⟩, h4⟩ := h
  obtain ⟨w, hw, hr, b, hc, hl⟩ := hb.noted f hf
  refine ⟨w, hw, hr ▸ hb.acked f hf ha, f.offset, b, by rw [hc, hs], by omega, ?_⟩
  rcases h2 with h2 | h2
  · left; omega
  · exact .inr h2

/-- On every (re)transmission, each byte of each message of the flight either goes out again, in a record with the right
bytes for its place, or was carried by a record whose number the peer acknowledged. What is missing: flights whose messages
are protected with different keys, or with another key than the current one (see `C23_mixed_keys_fails`). -/
theorem C23_skipped_only_if_acked_partial (ops : List OutOp) (o o' : Out) (n : Nat) (ht : Tame Out.new ops)
    (ho : Out.new.run ops = .ok o) (h : o.sendQueued = .ok (n, o')) :
    ∃ recs, o'.wire = o.wire ++ recs ∧ n = recs.length ∧
      ∀ m ∈ o.queued, ∀ p, m.Pos p →
        (∃ w ∈ recs, ∃ off b, w.content = some (m.seq, off, b) ∧ w.key = m.cipher ∧ b = (m.body.drop off).take b.length ∧
          off ≤ p ∧ (p < off + b.length ∨ m.body = [])) ∨ o.Acknowledged m p := by
  have hb := book_run ops _ _ book_new ht ho
  obtain ⟨new, recs, hw, hn, hd, -, -⟩ := writeMessages_ok _ _ _ _ _ h
  refine ⟨recs, hw.wire, by omega, fun m hm p hp => ?_⟩
  obtain ⟨hroom, hd⟩ := hd m hm
  obtain ⟨hs, hle, hlt⟩ := start_of_pos hroom m hp
  rcases hd _ hs with ha | ⟨⟨w, hwm, hk, hc⟩, -⟩
  · exact .inr (acked_pos hb ha hle hlt)
  · refine .inl ⟨w, hwm, _, _, hc, hk, ?_, hle, hlt⟩
    simp [piece]

/-- An acknowledgement ends the flight (nothing is queued any more) only if every byte of every message in it was carried
by a record whose number was acknowledged, in this or an earlier ACK. Missing: as above. -/
theorem C23_delivered_only_if_acked_partial (ops : List OutOp) (o o' : Out) (data : Bytes) (ht : Tame Out.new ops)
    (ho : Out.new.run ops = .ok o) (h : o.processAck data = .ok o') (hq : o'.queued = []) :
    ∀ m ∈ o.queued, ∀ p, m.Pos p → ∃ w ∈ o.wire, w.number ∈ o'.acks ∧ w.Carries m p := by
  have hb := book_run ops _ _ book_new ht ho
  obtain ⟨nums, n, o2, hnum, h2, rfl⟩ := processAck_ok h
  obtain ⟨new, recs, hw, hn, hd, -, -⟩ := writeMessages_ok _ _ _ _ _ h2
  intro m hm p hp
  have hn0 : n = 0 := by
    apply Classical.byContradiction
    intro hne
    rw [if_neg hne] at hq
    have : o2.queued = o.queued := hw.queued
    rw [show ({ o2 with timer := true } : Out).queued = o2.queued from rfl, this] at hq
    rw [hq] at hm
    exact absurd hm (by simp)
  have hrecs : recs = [] := List.eq_nil_of_length_eq_zero (by omega)
  obtain ⟨hroom, hd⟩ := hd m hm
  obtain ⟨hs, hle, hlt⟩ := start_of_pos hroom m hp
  rcases hd _ hs with ha | ⟨⟨w, hwm, -⟩, -⟩
  · obtain ⟨w, h1, h2, h3⟩ := acked_pos (book_marked hb nums) ha hle hlt
    refine ⟨w, h1, ?_, h3⟩
    rw [if_pos hn0]
    show w.number ∈ o2.acks
    rw [hw.acks]
    exact h2
  · rw [hrecs] at hwm
    exact absurd hwm (by simp)

/-! ### Completion -/

theorem writeLoop_all_acked (o : Out) (m : OutMsg) (hroom : 12 < o.room)
    (h : ∀ s, IsStart o.room m s → fragmentAcked o.sent m.seq s (piece o.room m s).length = true) :
    ∀ (fuel s : Nat), m.body.length ≤ fuel + s → IsStart o.room m s → s % (o.room - 12) = 0 →
      o.writeLoop m (fuel + 1) s 0 = .ok (0, o) := by
  intro fuel
  induction fuel with
  | zero =>
    intro s hf hs hm
    have ha := h s hs
    simp only [Out.writeLoop, Out.writeFragment, if_neg (show ¬ o.room ≤ 12 by omega), ← piece_length, ha, if_true,
      Res.bind]
    rw [if_pos (by omega)]
    rfl
  | succ fuel ih =>
    intro s hf hs hm
    have ha := h s hs
    have hpl := piece_length o.room m s
    rw [Out.writeLoop]
    simp only [Out.writeFragment, if_neg (show ¬ o.room ≤ 12 by omega), ← piece_length, ha, if_true, Res.bind]
    split
    · rfl
    · rename_i hlt
      have hp : (piece o.room m s).length = o.room - 12 := by omega
      have hm' : (s + (piece o.room m s).length) % (o.room - 12) = 0 := by rw [hp, Nat.add_mod, hm]; simp
      exact ih _ (by omega) (.inr ⟨by omega, hm'⟩) hm'

theorem writeMessages_all_acked (o : Out) : ∀ (ms : List OutMsg) (n : Nat),
    (∀ m ∈ ms, 12 < o.room ∧ m.body.length ≤ 2 ^ 24 ∧
      ∀ s, IsStart o.room m s → fragmentAcked o.sent m.seq s (piece o.room m s).length = true) →
    Out.writeMessages ms n o = .ok (n, o) := by
  intro ms
  induction ms with
  | nil => intro n _; rfl
  | cons m ms ih =>
    intro n h
    obtain ⟨h1, h2, h3⟩ := h m (by simp)
    rw [Out.writeMessages, Out.writeMessage, if_neg (by omega),
      writeLoop_all_acked o m h1 h3 m.body.length 0 (by omega) (.inl rfl) (by simp)]
    exact ih n (fun x hx => h x (by simp [hx]))

theorem writeMessages_size : ∀ (ms : List OutMsg) (o : Out) (written n : Nat) (o' : Out),
    Out.writeMessages ms written o = .ok (n, o') → ∀ m ∈ ms, m.body.length ≤ 2 ^ 24 := by
  intro ms
  induction ms with
  | nil => intro o w n o' _; simp
  | cons m ms ih =>
    intro o w n o' h
    simp only [Out.writeMessages] at h
    rw [Res.bind_eq_ok] at h
    obtain ⟨⟨n1, o1⟩, h1, h⟩ := h
    have hs : m.body.length ≤ 2 ^ 24 := by
      unfold Out.writeMessage at h1
      split at h1
      · exact absurd h1 (by simp)
      · omega
    intro x hx
    rcases List.mem_cons.mp hx with rfl | hx
    · exact hs
    · exact ih _ _ _ _ h x hx

/-- Once the flight was sent, an ACK that lists the numbers of all records sent ends it: nothing is sent again, nothing is
queued, and the retransmission timer is off. Missing: as above. -/
theorem C23_all_acked_ends_flight_partial (ops : List OutOp) (o o1 : Out) (n : Nat) (data : Bytes) (nums : List Nat)
    (ht : Tame Out.new ops) (ho : Out.new.run ops = .ok o) (hk : OneKey o) (h : o.sendQueued = .ok (n, o1))
    (hd : ackNumbers data = .ok nums) (hall : ∀ w ∈ o1.wire, w.number ∈ nums) :
    ∃ o2, o1.processAck data = .ok o2 ∧ o2.queued = [] ∧ o2.wire = o1.wire ∧ o2.timer = false := by
  have hb := book_run ops _ _ book_new ht ho
  have hb1 := book_send hb hk h
  obtain ⟨new, recs, hw, -, hdone, -, -⟩ := writeMessages_ok _ _ _ _ _ h
  have hsize := writeMessages_size _ _ _ _ _ h
  have hall' : (o1.marked nums).sendQueued = .ok (0, o1.marked nums) := by
    refine writeMessages_all_acked _ _ 0 ?_
    intro m hm
    have hm' : m ∈ o.queued := by rw [show (o1.marked nums).queued = o1.queued from rfl, hw.queued] at hm; exact hm
    obtain ⟨hroom, hdn⟩ := hdone m hm'
    have hr : (o1.marked nums).room = o.room := hw.room
    refine ⟨by rw [hr]; exact hroom, hsize m hm', fun s hs => ?_⟩
    rw [hr] at hs ⊢
    have hmk : ∀ f ∈ o1.sent, { f with acked := true } ∈ (o1.marked nums).sent := by
      intro f hf
      obtain ⟨w, h1, h2, -⟩ := hb1.noted f hf
      simp only [Out.marked, markAcked, List.mem_map]
      refine ⟨f, hf, ?_⟩
      rw [if_pos (by rw [List.contains_iff_mem, h2]; exact hall w h1)]
    rcases hdn s hs with ha | ⟨-, f, hf, h1, h2, h3⟩
    · simp only [fragmentAcked, List.any_eq_true, Bool.and_eq_true, beq_iff_eq, decide_eq_true_eq] at ha ⊢
      obtain ⟨f, hf, ⟨⟨-, hs1⟩, hs2⟩, hs3⟩ := ha
      exact ⟨_, hmk f (by rw [hw.sent]; exact List.mem_append_left _ hf), ⟨⟨rfl, hs1⟩, hs2⟩, hs3⟩
    · simp only [fragmentAcked, List.any_eq_true, Bool.and_eq_true, beq_iff_eq, decide_eq_true_eq]
      exact ⟨_, hmk f (by rw [hw.sent]; exact List.mem_append_right _ hf), ⟨⟨rfl, h1⟩, by simp [h2]⟩, by simp [h2, h3]⟩
  refine ⟨{ o1.marked nums with queued := [] }, ?_, rfl, rfl, rfl⟩
  have e : o1.processAck data = (o1.marked nums).sendQueued.bind fun (count, o2) =>
      if count = 0 then .ok { o2 with queued := [] } else .ok { o2 with timer := true } := by
    unfold Out.processAck
    rw [hd]
    rfl
  rw [e, hall']
  rfl

/-! ### Record numbers -/

/-- Key changes only, each to a later epoch. -/
def Rising : Out → List OutOp → Prop
  | _, [] => True
  | o, op :: ops =>
    (match op with
      | .rekey e _ _ => (∀ i, i < o.keys.fresh → (o.keys.heap i).epoch < e)
      | .resetClear _ => False
      | _ => True) ∧ ∀ o', o.op op = .ok o' → Rising o' ops

structure Numbered (o : Out) : Prop where
  range : ∀ w ∈ o.wire, w.key < o.keys.fresh ∧ ∃ s, s < (o.keys.heap w.key).seq ∧
    w.number = (o.keys.heap w.key).epoch * 2 ^ 48 + s
  bound : ∀ i, (o.keys.heap i).seq ≤ 2 ^ 48 - 1
  distinct : ∀ i j, i < o.keys.fresh → j < o.keys.fresh → (o.keys.heap i).epoch = (o.keys.heap j).epoch → i = j
  cur : o.keys.cur < o.keys.fresh
  msgs : ∀ m ∈ o.queued, m.cipher < o.keys.fresh
  nodup : (o.wire.map WireRec.number).Nodup

theorem numbered_emit {o o' : Out} {key : Nat} {ct : UInt8} {f : Bytes} {c : Option (Nat × Nat × Bytes)} (hn : Numbered o)
    (hkey : key < o.keys.fresh) (h : o.emit key ct f c = .ok o') : Numbered o' ∧ o'.keys.fresh = o.keys.fresh := by
  obtain ⟨rec, rfl, hs⟩ := emit_ok h
  have hcomb : combineSeq (o.keys.heap key) true = (o.keys.heap key).epoch * 2 ^ 48 + (o.keys.heap key).seq := by
    rw [combineSeq_eq (by omega)]; rfl
  have hep : ∀ i, (upd o.keys.heap key { o.keys.heap key with seq := (o.keys.heap key).seq + 1 } i).epoch = (o.keys.heap i).epoch := by
    intro i; unfold upd; split
    · rename_i h; rw [h]
    · rfl
  have hsq : ∀ i, (o.keys.heap i).seq ≤ (upd o.keys.heap key { o.keys.heap key with seq := (o.keys.heap key).seq + 1 } i).seq := by
    intro i; unfold upd; split
    · rename_i h; subst h; simp
    · exact Nat.le_refl _
  refine ⟨⟨?_, ?_, ?_, hn.cur, hn.msgs, ?_⟩, rfl⟩
  · intro w hw
    simp only [List.mem_append, List.mem_singleton] at hw
    rcases hw with hw | rfl
    · obtain ⟨h1, s, h2, h3⟩ := hn.range w hw
      exact ⟨h1, s, Nat.lt_of_lt_of_le h2 (hsq _), by simp only [hep]; exact h3⟩
    · exact ⟨hkey, (o.keys.heap key).seq, by simp [upd], by simp only [hep, hcomb]⟩
  · intro i
    simp only [upd]
    split
    · simp; omega
    · exact hn.bound i
  · intro i j hi hj he
    simp only [hep] at he
    exact hn.distinct i j hi hj he
  · simp only [List.map_append, List.map_cons, List.map_nil, List.nodup_append]
    refine ⟨hn.nodup, by simp, ?_⟩
    intro x hx y hy hxy
    rw [List.mem_map] at hx
    obtain ⟨w, hw, rfl⟩ := hx
    simp only [List.mem_singleton] at hy
    obtain ⟨h1, s, h2, h3⟩ := hn.range w hw
    rw [hxy, hy, hcomb] at h3
    have hb1 := hn.bound w.key
    have hb2 := hn.bound key
    have he : (o.keys.heap key).epoch = (o.keys.heap w.key).epoch := by omega
    have := hn.distinct key w.key hkey h1 he
    subst this
    omega

theorem Numbered.sent {o : Out} (h : Numbered o) (s : List Sent) : Numbered { o with sent := s } :=
  ⟨h.range, h.bound, h.distinct, h.cur, h.msgs, h.nodup⟩

theorem numbered_loop (m : OutMsg) : ∀ (fuel : Nat) (o : Out) (s written n : Nat) (o' : Out), Numbered o →
    m.cipher < o.keys.fresh → o.writeLoop m fuel s written = .ok (n, o') → Numbered o' ∧ o'.keys.fresh = o.keys.fresh := by
  intro fuel
  induction fuel with
  | zero => intro o s written n o' _ _ h; exact absurd h (by simp [Out.writeLoop])
  | succ fuel ih =>
    intro o s written n o' hn hm h
    simp only [Out.writeLoop] at h
    rw [Res.bind_eq_ok] at h
    obtain ⟨⟨wrote, s1, o1⟩, h1, h⟩ := h
    have h1' : Numbered o1 ∧ o1.keys.fresh = o.keys.fresh := by
      unfold Out.writeFragment at h1
      split at h1
      · exact absurd h1 (by simp)
      · dsimp only at h1
        split at h1
        · cases h1; exact ⟨hn, rfl⟩
        · rw [Res.bind_eq_ok] at h1
          obtain ⟨o2, h2, h1⟩ := h1
          cases h1
          generalize hsent : (_ ++ _ : List Sent) = sent at h2
          have h3 := numbered_emit (hn.sent sent) hm h2
          exact h3
    dsimp only at h
    split at h
    · cases h; exact h1'
    · obtain ⟨a, b⟩ := ih _ _ _ _ _ h1'.1 (by rw [h1'.2]; exact hm) h
      exact ⟨a, b.trans h1'.2⟩

theorem numbered_messages : ∀ (ms : List OutMsg) (o : Out) (written n : Nat) (o' : Out), Numbered o →
    (∀ m ∈ ms, m.cipher < o.keys.fresh) → Out.writeMessages ms written o = .ok (n, o') → Numbered o' := by
  intro ms
  induction ms with
  | nil => intro o w n o' hn _ h; cases h; exact hn
  | cons m ms ih =>
    intro o w n o' hn hm h
    simp only [Out.writeMessages] at h
    rw [Res.bind_eq_ok] at h
    obtain ⟨⟨n1, o1⟩, h1, h⟩ := h
    unfold Out.writeMessage at h1
    split at h1
    · exact absurd h1 (by simp)
    · obtain ⟨a, b⟩ := numbered_loop m _ _ _ _ _ _ hn (hm m (by simp)) h1
      exact ih _ _ _ _ a (fun x hx => by rw [b]; exact hm x (by simp [hx])) h

theorem numbered_run : ∀ (ops : List OutOp) (o o' : Out), Numbered o → Rising o ops → o.run ops = .ok o' → Numbered o' := by
  intro ops
  induction ops with
  | nil => intro o o' hn _ h; cases h; exact hn
  | cons op ops ih =>
    intro o o' hn hr h
    simp only [Out.run] at h
    rw [Res.bind_eq_ok] at h
    obtain ⟨o1, h1, h⟩ := h
    refine ih o1 o' ?_ (hr.2 o1 h1) h
    have hr1 := hr.1
    clear ih hr h
    cases op with
    | queue t s b =>
      cases h1
      refine ⟨hn.range, hn.bound, hn.distinct, hn.cur, ?_, hn.nodup⟩
      intro m hm
      simp only [Out.queue, List.mem_append, List.mem_singleton] at hm
      rcases hm with hm | rfl
      · exact hn.msgs m hm
      · exact hn.cur
    | send =>
      simp only [Out.op] at h1
      rw [Res.bind_eq_ok] at h1
      obtain ⟨⟨n, o2⟩, h2, h1⟩ := h1
      cases h1
      have := numbered_messages _ _ _ _ _ hn hn.msgs h2
      exact ⟨this.range, this.bound, this.distinct, this.cur, this.msgs, this.nodup⟩
    | ack data =>
      obtain ⟨nums, n, o2, -, h2, rfl⟩ := processAck_ok h1
      have hn' : Numbered (o.marked nums) := ⟨hn.range, hn.bound, hn.distinct, hn.cur, hn.msgs, hn.nodup⟩
      have := numbered_messages _ _ _ _ _ hn' hn'.msgs h2
      split
      · exact ⟨this.range, this.bound, this.distinct, this.cur, by simp, this.nodup⟩
      · exact ⟨this.range, this.bound, this.distinct, this.cur, this.msgs, this.nodup⟩
    | nextFlight => cases h1; exact ⟨hn.range, hn.bound, hn.distinct, hn.cur, by simp, hn.nodup⟩
    | rekey e a iv =>
      cases h1
      have hold : ∀ i, i < o.keys.fresh → (o.keys.rekey e a iv).heap i = o.keys.heap i := by
        intro i hi
        simp [Keys.rekey, upd, Nat.ne_of_lt hi]
      refine ⟨?_, ?_, ?_, ?_, ?_, hn.nodup⟩
      · intro w hw
        obtain ⟨h1, h2⟩ := hn.range w hw
        refine ⟨Nat.lt_succ_of_lt h1, ?_⟩
        simp only [hold _ h1]
        exact h2
      · intro i
        simp only [Keys.rekey, upd]
        split
        · simp
        · exact hn.bound i
      · intro i j hi hj he
        simp only [Keys.rekey] at hi hj
        by_cases hi' : i < o.keys.fresh <;> by_cases hj' : j < o.keys.fresh
        · simp only [hold _ hi', hold _ hj'] at he
          exact hn.distinct i j hi' hj' he
        · have hj2 : j = o.keys.fresh := by omega
          subst hj2
          have := hr1 i hi'
          simp only [hold _ hi'] at he
          simp [Keys.rekey, upd] at he
          omega
        · have hi2 : i = o.keys.fresh := by omega
          subst hi2
          have := hr1 j hj'
          simp only [hold _ hj'] at he
          simp [Keys.rekey, upd] at he
          omega
        · omega
      · simp [Keys.rekey]
      · intro m hm
        have := hn.msgs m hm
        simp only [Keys.rekey]
        omega
    | resetClear s => exact absurd hr1 (by simp)
    | version v => cases h1; exact ⟨hn.range, hn.bound, hn.distinct, hn.cur, hn.msgs, hn.nodup⟩
    | other ct f => exact (numbered_emit hn hn.cur h1).1

/-- Record numbers are never used twice, so an acknowledged number names one record: in every history in which each key
change goes to a later epoch and the record layer is not reset. -/
theorem C23_numbers_unique (ops : List OutOp) (o : Out) (hr : Rising Out.new ops) (h : Out.new.run ops = .ok o) :
    ∀ w ∈ o.wire, ∀ w' ∈ o.wire, w.number = w'.number → w = w' := by
  have hn : Numbered o := by
    refine numbered_run ops _ _ ⟨by simp [Out.new], by simp [Out.new, Keys.new, nullCipher], ?_, by simp [Out.new, Keys.new],
      by simp [Out.new], by simp [Out.new]⟩ hr h
    intro i j hi hj _
    simp only [Out.new, Keys.new] at hi hj
    omega
  intro w hw w' hw' he
  exact inj_of_nodup hn.nodup hw hw' he
where
  inj_of_nodup {l : List WireRec} (h : (l.map WireRec.number).Nodup) {a b : WireRec} (ha : a ∈ l) (hb : b ∈ l)
      (e : a.number = b.number) : a = b := by
    induction l with
    | nil => simp at ha
    | cons x l ih =>
      rw [List.map_cons, List.nodup_cons] at h
      rcases List.mem_cons.mp ha with ha1 | ha1 <;> rcases List.mem_cons.mp hb with hb1 | hb1
      · rw [ha1, hb1]
      · subst ha1; exact absurd (List.mem_map.mpr ⟨b, hb1, e.symm⟩) h.1
      · subst hb1; exact absurd (List.mem_map.mpr ⟨a, ha1, e⟩) h.1
      · exact ih h.2 ha1 hb1

/-! ### What fails -/

theorem ackNumbers_marshal (nums : List UInt64) (bs : Bytes) (h : Syntax.marshal ackTy (nums, ()) = .ok bs)
    (hl : bs.length < 2 ^ 63) : ackNumbers bs = .ok (nums.map UInt64.toNat) := by
  obtain ⟨v', h1, h2⟩ := Syntax.C01_roundtrip ackTy (nums, ()) bs [] (by simp [ackTy, Syntax.Ty.selfDelim, Syntax.Fields.selfDelim, Syntax.Ty.nonEmpty])
    (by simp [ackTy, Syntax.Ty.good, Syntax.Fields.good]) h hl
  have hv : v'.1 = nums := by
    simp only [ackTy, Syntax.Ty.same, Syntax.Fields.same] at h2
    have := h2.1
    simp only [Bool.false_eq_true, if_false, List.forall₂_eq_eq_eq] at this
    exact this.symm
  rw [List.append_nil] at h1
  unfold ackNumbers
  rw [h1]
  simp [Res.bind, hv]

/-- A server-like flight: a message in the clear, a key change, a message under the new key; then both are sent. -/
def mixedFlight : List OutOp :=
  [.version 0x0303, .queue 2 0 [1, 2, 3], .rekey 2 toyAead toyIv, .queue 8 1 [4, 5], .send]

/-- The facts of the next theorem as one evaluation. -/
def mixedCheck : Bool :=
  match Out.new.run mixedFlight with
  | .ok o =>
    (o.wire.map (fun w => (w.number, w.content)) == [(0, some (0, 0, [1, 2, 3])), (2 * 2 ^ 48, some (1, 0, [4, 5]))]) &&
    (o.queued.map OutMsg.seq == [0, 1]) && (o.acks == []) &&
    (match (o.marked [2 * 2 ^ 48]).sendQueued with
      | .ok (n, o2) => n == 0 && o2.wire == o.wire && o2.acks == [2 * 2 ^ 48]
      | _ => false)
  | _ => false

/-- The property fails for flights with several keys: an ACK of the record with the second message (epoch 2, number 0) makes
the first message count as acknowledged too, though its record (epoch 0, number 0) was not; nothing is resent and the flight
is dropped. -/
theorem C23_mixed_keys_fails :
    ∃ o, Out.new.run mixedFlight = .ok o ∧
      o.wire.map (fun w => (w.number, w.content)) = [(0, some (0, 0, [1, 2, 3])), (2 * 2 ^ 48, some (1, 0, [4, 5]))] ∧
      o.queued.map OutMsg.seq = [0, 1] ∧
      (∃ o', o.processAck [0, 8, 0, 2, 0, 0, 0, 0, 0, 0] = .ok o' ∧ o'.acks = [2 * 2 ^ 48] ∧ o'.queued = [] ∧
        o'.wire = o.wire) := by
  have h : mixedCheck = true := by decide +kernel
  unfold mixedCheck at h
  split at h
  · rename_i o ho
    simp only [Bool.and_eq_true, beq_iff_eq] at h
    obtain ⟨⟨⟨h1, h2⟩, h3⟩, h4⟩ := h
    refine ⟨o, ho, h1, h2, ?_⟩
    split at h4
    · rename_i n o2 hs
      simp only [Bool.and_eq_true, beq_iff_eq] at h4
      obtain ⟨⟨rfl, h5⟩, h6⟩ := h4
      have e : o.processAck [0, 8, 0, 2, 0, 0, 0, 0, 0, 0] = (o.marked [2 * 2 ^ 48]).sendQueued.bind fun (count, o2) =>
          if count = 0 then .ok { o2 with queued := [] } else .ok { o2 with timer := true } := by
        unfold Out.processAck
        rw [ackNumbers_marshal [0x0002000000000000] _ (by decide) (by decide)]
        rfl
      rw [e, hs]
      exact ⟨_, rfl, h6, rfl, h5⟩
    · exact absurd h4 (by simp)
  · exact absurd h (by simp)

/-! ### Cases that meet the hypotheses -/

/-- A flight of one message, sent and retransmitted. -/
def plainFlight : List OutOp := [.version 0x0303, .queue 1 0 (List.replicate 3 7), .send, .send]

example : Tame Out.new plainFlight := by
  refine ⟨by simp, fun o h => ?_⟩
  cases h
  refine ⟨by simp, fun o h => ?_⟩
  cases h
  have hk : OneKey (Out.queue { Out.new with keys := Out.new.keys.setVersion 0x0303 } 1 0 (List.replicate 3 7)) := by
    simp [OneKey, Out.queue, Out.new]
  refine ⟨fun _ => hk, fun o h => ?_⟩
  simp only [Out.op] at h
  rw [Res.bind_eq_ok] at h
  obtain ⟨⟨n, o1⟩, h1, h⟩ := h
  cases h
  obtain ⟨_, _, hw, -⟩ := writeMessages_ok _ _ _ _ _ h1
  refine ⟨fun _ m hm => ?_, fun _ _ => trivial⟩
  have hq : m ∈ o1.queued := hm
  rw [hw.queued] at hq
  rw [show ({ o1 with timer := true } : Out).keys.cur = o1.keys.cur from rfl, hw.cur]
  exact hk m hq

example : (match Out.new.run plainFlight with
    | .ok o => decide (o.wire.map (fun w => (w.number, w.content)) = [(0, some (0, 0, [7, 7, 7])), (1, some (0, 0, [7, 7, 7]))])
    | _ => false) = true := by decide +kernel

example : Rising Out.new [.version 0x0303, .queue 1 0 [1], .rekey 2 toyAead toyIv, .rekey 3 toyAead toyIv] := by
  refine ⟨trivial, fun o h => ?_⟩
  cases h
  refine ⟨trivial, fun o h => ?_⟩
  cases h
  refine ⟨?_, fun o h => ?_⟩
  · intro i _; simp [Out.queue, Out.new, Keys.new, Keys.setVersion, nullCipher]
  cases h
  refine ⟨?_, fun _ _ => trivial⟩
  intro i hi
  simp [Out.queue, Out.new, Keys.new, Keys.setVersion, Keys.rekey, nullCipher, upd]
  split <;> simp

end Verif.Handshake
