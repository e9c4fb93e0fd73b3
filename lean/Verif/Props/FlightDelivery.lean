import Verif.Props.AckRecords
import Verif.Props.HandshakeDtls
import Verif.Props.RecordDtls

/-
C78: a DTLS flight gets through. The sending half of one end, a network that loses, repeats and reorders datagrams, and the record
layer and handshake layer of the other end.
-/

namespace Verif.Handshake

open Verif Verif.Record

/-! ### Specification -/

/-- What was queued: `msg n` is type and body of message number `n`, whenever such a message was queued. -/
def Queues (ops : List OutOp) (msg : Nat → UInt8 × Bytes) : Prop := ∀ t n b, OutOp.queue t n b ∈ ops → msg n = (t, b)

/-- Every message fits in one record of the initial MTU: 1200 bytes less 12 of header. -/
def Small (msg : Nat → UInt8 × Bytes) : Prop := ∀ n, (msg n).2.length ≤ 1188

/-- A reader between records whose current key is the sender's key number `key`, with room to count `n` records. -/
structure Receives (r : Reader) (k : Keys) (key n : Nat) : Prop where
  inv : r.Inv
  cached : r.cached = none
  between : ∀ s, r.frame.future (recordFraming true) s = frameEvents (recordFraming true) s
  datagram : r.keys.datagram = true
  direction : r.keys.direction = .read
  aead : (r.keys.heap r.keys.cur).aead = (k.heap key).aead
  iv : (r.keys.heap r.keys.cur).iv = (k.heap key).iv
  epoch : (r.keys.heap r.keys.cur).epoch = (k.heap key).epoch
  short : (k.heap key).epoch < 2 ^ 16
  lawful : ∀ a, (k.heap key).aead = some a → a.Lawful
  known : (r.keys.readCiphers.lookup (r.keys.heap r.keys.cur).epoch).isSome = true
  count : ∀ i, (r.keys.heap i).seq + n + 1 < 2 ^ 48

/-- A handshake record of message number `n`. -/
def WireRec.Of (w : WireRec) (n : Nat) : Prop := ∃ off b, w.content = some (n, off, b)

/-! ### What is in the records -/

/-- The record was made of the whole message. -/
def Made (msg : Nat → UInt8 × Bytes) (k : Keys) (w : WireRec) : Prop :=
  ∀ n off b, w.content = some (n, off, b) → ∃ kk kk', kk.datagram = true ∧ kk.direction = .write ∧
    (kk.heap w.key).aead = (k.heap w.key).aead ∧ (kk.heap w.key).iv = (k.heap w.key).iv ∧
    (kk.heap w.key).epoch = (k.heap w.key).epoch ∧
    writeRecord kk w.key 22 ((whole (msg n).1 n (msg n).2).marshal true) 0 = .ok (w.bytes, kk')

structure Tidy (msg : Nat → UInt8 × Bytes) (o : Out) : Prop where
  datagram : o.keys.datagram = true
  direction : o.keys.direction = .write
  room : o.room = 1200
  cur : o.keys.cur < o.keys.fresh
  queued : ∀ m ∈ o.queued, (m.msgType, m.body) = msg m.seq ∧ m.cipher < o.keys.fresh
  wire : ∀ w ∈ o.wire, w.key < o.keys.fresh ∧ Made msg o.keys w

theorem Made.of_heap {msg : Nat → UInt8 × Bytes} {k k' : Keys} {w : WireRec} (h : Made msg k w)
    (h1 : (k'.heap w.key).aead = (k.heap w.key).aead) (h2 : (k'.heap w.key).iv = (k.heap w.key).iv)
    (h3 : (k'.heap w.key).epoch = (k.heap w.key).epoch) : Made msg k' w := by
  intro n off b hc
  obtain ⟨kk, kk', e1, e2, e3, e4, e5, e6⟩ := h n off b hc
  exact ⟨kk, kk', e1, e2, e3.trans h1.symm, e4.trans h2.symm, e5.trans h3.symm, e6⟩

theorem tidy_emit {msg : Nat → UInt8 × Bytes} {o o' : Out} {key : Nat} {ct : UInt8} {f : Bytes} {c : Option (Nat × Nat × Bytes)}
    (ht : Tidy msg o) (hkey : key < o.keys.fresh)
    (hc : ∀ n off b, c = some (n, off, b) → ct = 22 ∧ f = (whole (msg n).1 n (msg n).2).marshal true)
    (h : o.emit key ct f c = .ok o') : Tidy msg o' := by
  unfold Out.emit at h
  rw [Res.bind_eq_ok] at h
  obtain ⟨⟨rec, k⟩, hwr, h⟩ := h
  cases h
  obtain ⟨header, body, -, -, -, rfl, -⟩ := writeRecord_ok hwr
  refine ⟨ht.datagram, ht.direction, ht.room, ht.cur, ht.queued, ?_⟩
  intro w hw
  have hsame : ∀ i, (upd o.keys.heap key { o.keys.heap key with seq := (o.keys.heap key).seq + 1 } i).aead = (o.keys.heap i).aead ∧
      (upd o.keys.heap key { o.keys.heap key with seq := (o.keys.heap key).seq + 1 } i).iv = (o.keys.heap i).iv ∧
      (upd o.keys.heap key { o.keys.heap key with seq := (o.keys.heap key).seq + 1 } i).epoch = (o.keys.heap i).epoch := by
    intro i
    simp only [upd]
    split
    · rename_i e; subst e; exact ⟨rfl, rfl, rfl⟩
    · exact ⟨rfl, rfl, rfl⟩
  rcases List.mem_append.mp hw with hw | hw
  · obtain ⟨h1, h2⟩ := ht.wire w hw
    exact ⟨h1, h2.of_heap (hsame w.key).1 (hsame w.key).2.1 (hsame w.key).2.2⟩
  · rw [List.mem_singleton] at hw
    subst hw
    refine ⟨hkey, ?_⟩
    intro n off b hcon
    obtain ⟨rfl, rfl⟩ := hc n off b hcon
    exact ⟨o.keys, _, ht.datagram, ht.direction, ((hsame key).1).symm, ((hsame key).2.1).symm, ((hsame key).2.2).symm, hwr⟩

theorem Tidy.sent {msg : Nat → UInt8 × Bytes} {o : Out} (h : Tidy msg o) (s : List Sent) : Tidy msg { o with sent := s } :=
  ⟨h.datagram, h.direction, h.room, h.cur, h.queued, h.wire⟩

/-- What writing leaves unchanged. -/
structure Frame (o o' : Out) : Prop where
  fresh : o'.keys.fresh = o.keys.fresh
  queued : o'.queued = o.queued

theorem emit_frame {o o' : Out} {key : Nat} {ct : UInt8} {f : Bytes} {c : Option (Nat × Nat × Bytes)}
    (h : o.emit key ct f c = .ok o') : Frame o o' := by
  obtain ⟨rec, rfl, -⟩ := emit_ok h
  exact ⟨rfl, rfl⟩

theorem tidy_loop {msg : Nat → UInt8 × Bytes} (hsm : Small msg) (m : OutMsg) (fuel : Nat) (o : Out) (written n : Nat) (o' : Out)
    (ht : Tidy msg o) (hm : (m.msgType, m.body) = msg m.seq) (hk : m.cipher < o.keys.fresh)
    (h : o.writeLoop m fuel 0 written = .ok (n, o')) : Tidy msg o' ∧ Frame o o' := by
  cases fuel with
  | zero => exact absurd h (by simp [Out.writeLoop])
  | succ fuel =>
    simp only [Out.writeLoop] at h
    rw [Res.bind_eq_ok] at h
    obtain ⟨⟨wrote, s1, o1⟩, h1, h⟩ := h
    have hlen : m.body.length ≤ 1188 := by
      have := hsm m.seq
      rw [← hm] at this
      exact this
    have h1' : s1 = m.body.length ∧ Tidy msg o1 ∧ Frame o o1 := by
      unfold Out.writeFragment at h1
      split at h1
      · exact absurd h1 (by simp)
      · dsimp only at h1
        have hmin : min (m.body.length - 0) (o.room - 12) = m.body.length := by rw [ht.room]; omega
        rw [hmin] at h1
        split at h1
        · cases h1
          exact ⟨by omega, ht, rfl, rfl⟩
        · rw [Res.bind_eq_ok] at h1
          obtain ⟨o2, h2, h1⟩ := h1
          cases h1
          generalize hsent : (_ ++ _ : List Sent) = sent at h2
          refine ⟨by omega, tidy_emit (ht.sent sent) (by exact hk) ?_ h2, ?_⟩
          · intro n off b hcon
            simp only [List.drop_zero, List.take_length, Option.some.injEq, Prod.mk.injEq] at hcon ⊢
            obtain ⟨rfl, rfl, rfl⟩ := hcon
            refine ⟨trivial, ?_⟩
            rw [← hm]
            rfl
          · have := emit_frame h2
            exact ⟨this.1, this.2⟩
    obtain ⟨rfl, h2, h3⟩ := h1'
    dsimp only at h
    rw [if_pos (by omega)] at h
    cases h
    exact ⟨h2, h3⟩

theorem tidy_messages {msg : Nat → UInt8 × Bytes} (hsm : Small msg) : ∀ (ms : List OutMsg) (o : Out) (written n : Nat) (o' : Out),
    Tidy msg o → (∀ m ∈ ms, (m.msgType, m.body) = msg m.seq ∧ m.cipher < o.keys.fresh) →
    Out.writeMessages ms written o = .ok (n, o') → Tidy msg o' ∧ Frame o o' := by
  intro ms
  induction ms with
  | nil => intro o w n o' ht _ h; cases h; exact ⟨ht, rfl, rfl⟩
  | cons m ms ih =>
    intro o w n o' ht hms h
    simp only [Out.writeMessages] at h
    rw [Res.bind_eq_ok] at h
    obtain ⟨⟨n1, o1⟩, h1, h⟩ := h
    unfold Out.writeMessage at h1
    split at h1
    · exact absurd h1 (by simp)
    · obtain ⟨ht1, hf1⟩ := tidy_loop hsm m _ _ _ _ _ ht (hms m (by simp)).1 (hms m (by simp)).2 h1
      obtain ⟨ht2, hf2⟩ := ih o1 _ _ _ ht1 (fun m' hm' => by
        rw [hf1.fresh]; exact hms m' (List.mem_cons_of_mem _ hm')) h
      exact ⟨ht2, hf2.1.trans hf1.1, hf2.2.trans hf1.2⟩

theorem tidy_run {msg : Nat → UInt8 × Bytes} (hsm : Small msg) : ∀ (ops : List OutOp) (o o' : Out), Queues ops msg → Tidy msg o →
    o.run ops = .ok o' → Tidy msg o' := by
  intro ops
  induction ops with
  | nil => intro o o' _ hn h; cases h; exact hn
  | cons op ops ih =>
    intro o o' hq ht h
    simp only [Out.run] at h
    rw [Res.bind_eq_ok] at h
    obtain ⟨o1, h1, h⟩ := h
    refine ih o1 o' (fun t n b hm => hq t n b (List.mem_cons_of_mem _ hm)) ?_ h
    clear ih h
    -- changes of keys: a new entry of the heap
    have hnew : ∀ (k : Keys) (c : CipherState), k.datagram = o.keys.datagram → k.direction = o.keys.direction →
        k.fresh = o.keys.fresh + 1 → k.cur = o.keys.fresh → k.heap = upd o.keys.heap o.keys.fresh c → Tidy msg { o with keys := k } := by
      intro k c e1 e2 e3 e4 e5
      refine ⟨e1.trans ht.datagram, e2.trans ht.direction, ht.room, by show k.cur < k.fresh; omega, ?_, ?_⟩
      · intro m hm
        obtain ⟨f1, f2⟩ := ht.queued m hm
        exact ⟨f1, by show m.cipher < k.fresh; omega⟩
      · intro w hw
        obtain ⟨f1, f2⟩ := ht.wire w hw
        have hne : k.heap w.key = o.keys.heap w.key := by
          rw [e5]
          simp only [upd]
          rw [if_neg (by omega)]
        refine ⟨by show w.key < k.fresh; omega, f2.of_heap ?_ ?_ ?_⟩ <;> show _ = _ <;> rw [← hne]
    cases op with
    | queue t s b =>
      cases h1
      refine ⟨ht.datagram, ht.direction, ht.room, ht.cur, ?_, ht.wire⟩
      intro m hm
      rcases List.mem_append.mp hm with hm | hm
      · exact ht.queued m hm
      · rw [List.mem_singleton] at hm
        subst hm
        exact ⟨(hq t s b (by simp)).symm, ht.cur⟩
    | send =>
      simp only [Out.op] at h1
      rw [Res.bind_eq_ok] at h1
      obtain ⟨⟨n, o2⟩, h2, h1⟩ := h1
      cases h1
      have h3 := (tidy_messages hsm _ _ _ _ _ ht ht.queued h2).1
      exact ⟨h3.datagram, h3.direction, h3.room, h3.cur, h3.queued, h3.wire⟩
    | ack data =>
      obtain ⟨nums, n, o2, -, h2, rfl⟩ := processAck_ok h1
      have hmk : Tidy msg (o.marked nums) := ⟨ht.datagram, ht.direction, ht.room, ht.cur, ht.queued, ht.wire⟩
      have h3 := (tidy_messages hsm _ _ _ _ _ hmk hmk.queued h2).1
      split
      · exact ⟨h3.datagram, h3.direction, h3.room, h3.cur, by simp, h3.wire⟩
      · exact ⟨h3.datagram, h3.direction, h3.room, h3.cur, h3.queued, h3.wire⟩
    | nextFlight => cases h1; exact ⟨ht.datagram, ht.direction, ht.room, ht.cur, by simp, ht.wire⟩
    | rekey e a iv => cases h1; exact hnew _ _ rfl rfl rfl rfl rfl
    | resetClear s => cases h1; exact hnew _ _ rfl rfl rfl rfl rfl
    | version v => cases h1; exact ⟨ht.datagram, ht.direction, ht.room, ht.cur, ht.queued, ht.wire⟩
    | other ct f => exact tidy_emit ht ht.cur (by simp) h1

theorem tidy_new (msg : Nat → UInt8 × Bytes) : Tidy msg Out.new :=
  ⟨rfl, rfl, rfl, by simp [Out.new, Keys.new], by simp [Out.new], by simp [Out.new]⟩

/-! ### Reading the records -/

/-- A record written with a key is opened by a DTLS reader that holds this key, however many records it has read. -/
theorem verdict_written {kk kk' : Keys} {r : Reader} {k : Keys} {key n : Nat} {ct : UInt8} {f bytes : Bytes} (any : Bool)
    (hr : Receives r k key n) (hd : kk.datagram = true) (hdir : kk.direction = .write)
    (ha : (kk.heap key).aead = (k.heap key).aead) (hiv : (kk.heap key).iv = (k.heap key).iv)
    (hep : (kk.heap key).epoch = (k.heap key).epoch) (h : writeRecord kk key ct f 0 = .ok (bytes, kk'))
    (hct : knownType ct = true) :
    ∃ hd b seq, bytes = hd ++ b ∧ Whole (hd, b) ∧
      verdict r.keys any hd b = .ok ⟨ct, (k.heap key).epoch, seq, f⟩ := by
  have h' : writeRecord { kk with cur := key } key ct f 0 = .ok (bytes, { kk' with cur := key }) := by
    have := h
    unfold writeRecord at this ⊢
    dsimp only at this ⊢
    split at this
    · simp only [Res.bind_eq_ok] at this
      obtain ⟨header, hh, this⟩ := this
      have hh' : recordHeader { kk with cur := key } 23 (combineSeq (kk.heap key) kk.datagram)
        (f.length + (1 + 0 + _)) = .ok header := hh
      rw [hh']
      simp only [Res.bind_ok]
      split at this
      · simp at this
      · rw [if_neg (by assumption)]
        simp only [Res.bind_eq_ok] at this ⊢
        obtain ⟨nonce, hn, this⟩ := this
        refine ⟨nonce, hn, ?_⟩
        split at this
        · simp at this
        · rw [if_neg (by assumption)]
          simp only [Res.bind_eq_ok] at this ⊢
          obtain ⟨hp, hb, this⟩ := this
          refine ⟨hp, hb, ?_⟩
          cases this
          rfl
    · simp only [Res.bind_eq_ok] at this
      obtain ⟨header, hh, this⟩ := this
      have hh' : recordHeader { kk with cur := key } ct (combineSeq (kk.heap key) kk.datagram) f.length = .ok header := hh
      rw [hh']
      simp only [Res.bind_ok]
      split at this
      · simp at this
      · rw [if_neg (by assumption)]
        split at this
        · simp at this
        · rw [if_neg (by assumption)]
          simp only [Res.bind_eq_ok] at this ⊢
          obtain ⟨hp, hb, this⟩ := this
          refine ⟨hp, hb, ?_⟩
          cases this
          rfl
  -- the reader with its count at 0
  let r0 : Keys := { r.keys with heap := upd r.keys.heap r.keys.cur { r.keys.heap r.keys.cur with seq := 0 } }
  have hal : r0.Alike r.keys := by
    refine ⟨rfl, rfl, rfl, rfl, ?_, ?_, ?_⟩
    all_goals
      intro i
      simp only [r0, upd]
      split
      · rename_i e; rw [e]
      · rfl
  have hpair : Paired { kk with cur := key } r0 := by
    refine ⟨hdir, hr.direction, hd.trans hr.datagram.symm, ?_, ?_, ?_, ?_, ?_, ?_, ?_, ?_⟩
    · simp only [r0, upd_same]; exact ha.trans hr.aead.symm
    · simp only [r0, upd_same]; exact hiv.trans hr.iv.symm
    · simp only [r0, upd_same]; exact hep.trans hr.epoch.symm
    · intro hf; exact absurd (hd.symm.trans hf) (by simp)
    · simp [r0]
    · intro _; simp only [r0, upd_same]; exact hr.known
    · simp only [r0, upd_same]; rw [hr.epoch]; exact hr.short
    · intro a h; simp only [r0, upd_same] at h; exact hr.lawful a (by rw [← h]; exact hr.aead.symm)
  obtain ⟨hdr, b, pt, r', e1, e2, e3, e4, e5, e6, e7, -⟩ := openRecord_writeRecord any hpair h' (fun h0 => by rw [h0] at hct; revert hct; decide) (fun _ => hct)
  refine ⟨hdr, b, pt.seq, e1, ⟨?_, ?_⟩, ?_⟩
  · rw [e2]; show (recordFraming kk.datagram).headerLen = 13; rw [hd]; rfl
  · have : (recordFraming kk.datagram).frameLen hdr = .ok b.length := e3
    rw [hd] at this; exact this
  · rw [verdict_alike any hdr b (k := r0) hr.datagram hal ?_ (fun i => by have := hr.count i; omega), verdict_ok e4]
    · obtain ⟨ct, ep, sq, fr⟩ := pt
      dsimp only at e5 e6 e7
      subst e5 e6
      rw [show ep = (k.heap key).epoch from e7.trans hep]
    · intro i
      simp only [r0, upd]
      split
      · exact Nat.sub_pos_of_lt (by decide)
      · have := hr.count i; omega

/-! ### Progress -/

theorem HsIn.calls_idle (onAck : Bytes → Res Unit) (h : HsIn) (hi : Idle h.frame) (hc : h.check = (.ok none, h)) (k : Nat) :
    (h.calls onAck k []).1 = List.replicate k (.err .wouldBlock) := by
  induction k with
  | zero => rfl
  | succ k ih =>
    rw [HsIn.calls]
    dsimp only
    rw [HsIn.readMessage_empty onAck h hi hc]
    dsimp only
    rw [ih]
    rfl

theorem HsIn.calls_waits (onAck : Bytes → Res Unit) (msg : Nat → Msg) (hwm : WholeMsgs msg) (k : Nat)
    (xs : List (Nat × Nat)) (hx : ∀ x ∈ xs, x.1 < 2 ^ 16) (h : HsIn) (seen : List Nat) (hd : h.datagram = true)
    (hi : Idle h.frame) (hg : Gathering msg h seen)
    (hk : 2 * xs.length + (seen.filter fun s => decide (h.msgSeq ≤ s)).length < k) :
    (h.calls onAck k (wholeFeed msg h.epoch xs)).1.getLast? = some (.err .wouldBlock) := by
  induction k generalizing xs h seen with
  | zero => omega
  | succ k ih =>
    have hlast : ∀ (a : Res (Option Msg)) (l : List (Res (Option Msg))), l.getLast? = some (.err .wouldBlock) →
        (a :: l).getLast? = some (.err .wouldBlock) := by
      intro a l hl
      cases l with
      | nil => simp at hl
      | cons b l => rw [List.getLast?_cons_cons]; exact hl
    rw [HsIn.calls]
    dsimp only
    rcases HsIn.check_gathering hwm hg with ⟨hin, hc⟩ | ⟨hns, hc⟩
    · have hr : h.readMessage onAck (wholeFeed msg h.epoch xs) =
          (.ok (some (msg h.msgSeq)), h.noteDelivered h.msgSeq, wholeFeed msg h.epoch xs) := by
        unfold HsIn.readMessage
        rw [hc]
      rw [hr]
      refine hlast _ _ (ih xs hx (h.noteDelivered h.msgSeq) seen hd hi
        (hg.delivered hwm _ (fun _ hx => hx) fun _ hx => Or.inl hx) ?_)
      have hlt : (seen.filter fun s => decide (h.msgSeq + 1 ≤ s)).length < (seen.filter fun s => decide (h.msgSeq ≤ s)).length := by
        have hsub : (seen.filter fun s => decide (h.msgSeq + 1 ≤ s)) =
            (seen.filter fun s => decide (h.msgSeq ≤ s)).filter fun s => decide (h.msgSeq + 1 ≤ s) := by
          rw [List.filter_filter]
          refine List.filter_congr fun s _ => ?_
          rw [Bool.eq_iff_iff]
          simp only [Bool.and_eq_true, decide_eq_true_eq]
          omega
        rw [hsub]
        exact List.length_filter_lt_length_iff_exists.mpr ⟨h.msgSeq, by simp [hin], by simp⟩
      show 2 * xs.length + (seen.filter fun s => decide (h.msgSeq + 1 ≤ s)).length < k
      omega
    · cases xs with
      | nil =>
        rw [show wholeFeed msg h.epoch [] = [] from rfl, HsIn.readMessage_empty onAck h hi hc]
        dsimp only
        rw [HsIn.calls_idle onAck h hi hc, ← List.replicate_succ, List.getLast?_replicate]
        simp
      | cons x xs =>
        obtain ⟨h1, g1, g2, g3, g4, g5, g6, g7⟩ := HsIn.readMessage_frag onAck h (msg x.1)
          (hwm.fits _ (hx x List.mem_cons_self)) x.2 (wholeFeed msg h.epoch xs) hd hi hc
        have hg1 : Gathering msg h1 seen :=
          ⟨by rw [g3]; exact hg.entries, by rw [g3]; exact hg.sorted, by rw [g3, g2]; exact hg.kept,
            by rw [g3, g2]; exact hg.shape⟩
        have hxs := fun y hy => hx y (List.mem_cons_of_mem _ hy)
        have hfeed : wholeFeed msg h.epoch (x :: xs) =
            .ok ⟨22, h.epoch, x.2, (msg x.1).marshal true⟩ :: wholeFeed msg h.epoch xs := rfl
        have hcnt : ∀ n, h.msgSeq ≤ n → ((seen ++ [x.1]).filter fun s => decide (n ≤ s)).length ≤
            (seen.filter fun s => decide (h.msgSeq ≤ s)).length + 1 := by
          intro n hn
          rw [List.filter_append, List.length_append]
          have h1 : (seen.filter fun s => decide (n ≤ s)).length ≤ (seen.filter fun s => decide (h.msgSeq ≤ s)).length := by
            rw [← List.countP_eq_length_filter, ← List.countP_eq_length_filter]
            exact List.countP_mono_left fun s _ hs => by simp only [decide_eq_true_eq] at hs ⊢; omega
          have h2 := List.length_filter_le (fun s => decide (n ≤ s)) [x.1]
          simp only [List.length_singleton] at h2
          omega
        simp only [List.length_cons] at hk
        rcases HsIn.received_gathering hwm hg1 (by rw [g2]; exact hns) x.1 with ⟨he, hr, hg2⟩ | ⟨he, hr, hseq, hg2⟩
        · rw [hfeed, g7, hr]
          dsimp only
          rw [← g4]
          refine hlast _ _ (ih xs hxs (h1.noteDelivered x.1) (seen ++ [x.1]) g1 g6 hg2 ?_)
          have := hcnt (x.1 + 1) (by rw [he, g2]; omega)
          show 2 * xs.length + ((seen ++ [x.1]).filter fun s => decide (x.1 + 1 ≤ s)).length < k
          omega
        · rw [hfeed, g7]
          dsimp only
          have hpar := HsIn.received_params h1 (msg x.1)
          rw [← g4, ← hpar.2.2.1]
          refine hlast _ _ (ih xs hxs (h1.received (msg x.1)).2 (seen ++ [x.1]) (hpar.1.trans g1)
            (by rw [hpar.2.2.2.1]; exact g6) hg2 ?_)
          have := hcnt h.msgSeq (Nat.le_refl _)
          rw [hseq, g2]
          omega

/-! ### The flight -/

/-- C78, as far as it holds: a flight of messages that need no fragments, sent with one key, by any history of sending, resending
and acknowledgements. Any of its records arrive, in any order and any number of times, each in a datagram of its own, at a reader that
has the key. Then every record is read, and ReadMessage returns the messages that were queued, unchanged and in order of
their numbers; it never fails; and when it has to wait, it has returned every message up to the first of which no record arrived.
Missing: fragmented messages (`C20_next_message_fails`, `C20_interleaved_fails`). -/
theorem C78_flight_arrives_partial (ops : List OutOp) (o : Out) (h : Out.new.run ops = .ok o) (msg : Nat → UInt8 × Bytes)
    (hq : Queues ops msg) (hsm : Small msg) (key : Nat) (arrived : List WireRec)
    (harr : ∀ w ∈ arrived, w ∈ o.wire ∧ w.key = key ∧ ∃ n, n < 2 ^ 16 ∧ w.Of n)
    (r : Reader) (any : Bool) (hr : Receives r o.keys key arrived.length)
    (hin : HsIn) (hd : hin.datagram = true) (hi : Idle hin.frame) (hnone : hin.queued = [])
    (hep : hin.epoch = (o.keys.heap key).epoch) (onAck : Bytes → Res Unit) (calls : Nat) :
    ∃ pts : List Plaintext,
      readsWith (List.replicate arrived.length any) { r with conn := arrived.map fun w => .ok w.bytes } = pts.map .ok ∧
      let results := (hin.calls onAck calls (pts.map .ok)).1
      (∀ x ∈ results, x = .err .wouldBlock ∨ ∃ m, x = .ok m) ∧
      ∃ c, messages results = (List.range' hin.msgSeq c).map (fun n => whole (msg n).1 n (msg n).2) ∧
        (∀ i, i < c → ∃ w ∈ arrived, w.Of (hin.msgSeq + i)) ∧
        (results.getLast? = some (.err .wouldBlock) → ∀ w ∈ arrived, ¬ w.Of (hin.msgSeq + c)) ∧
        (2 * arrived.length < calls → results.getLast? = some (.err .wouldBlock)) := by
  have ht := tidy_run hsm ops _ _ hq (tidy_new msg) h
  -- each record by itself
  have hone : ∀ w ∈ arrived, ∃ x : (Bytes × Bytes) × (Nat × Nat), x.2.1 < 2 ^ 16 ∧ w.Of x.2.1 ∧ w.bytes = x.1.1 ++ x.1.2 ∧ Whole x.1 ∧
      verdict r.keys any x.1.1 x.1.2 = .ok ⟨22, hin.epoch, x.2.2, (whole (msg x.2.1).1 x.2.1 (msg x.2.1).2).marshal true⟩ := by
    intro w hw
    obtain ⟨h1, rfl, n, hn, off, b, hc⟩ := harr w hw
    obtain ⟨kk, kk', e1, e2, e3, e4, e5, e6⟩ := (ht.wire w h1).2 n off b hc
    obtain ⟨hdr, body, seq, f1, f2, f3⟩ := verdict_written any hr e1 e2 e3 e4 e5 e6 (by decide)
    exact ⟨((hdr, body), (n, seq)), hn, ⟨off, b, hc⟩, f1, f2, by rw [hep]; exact f3⟩
  have hlist : ∃ xs : List ((Bytes × Bytes) × (Nat × Nat)), List.Forall₂ (fun w x => x.2.1 < 2 ^ 16 ∧ w.Of x.2.1 ∧
      w.bytes = x.1.1 ++ x.1.2 ∧ Whole x.1 ∧ verdict r.keys any x.1.1 x.1.2 =
        .ok ⟨22, hin.epoch, x.2.2, (whole (msg x.2.1).1 x.2.1 (msg x.2.1).2).marshal true⟩) arrived xs := by
    clear harr hr
    induction arrived with
    | nil => exact ⟨[], .nil⟩
    | cons w ws ih =>
      obtain ⟨x, hx⟩ := hone w (by simp)
      obtain ⟨xs, hxs⟩ := ih (fun w hw => hone w (List.mem_cons_of_mem _ hw))
      exact ⟨x :: xs, .cons hx hxs⟩
  obtain ⟨xs, hxs⟩ := hlist
  have hlen := hxs.length_eq
  let msgs : Nat → Msg := fun n => whole (msg n).1 n (msg n).2
  have hwm : WholeMsgs msgs := by
    refine ⟨fun _ => rfl, fun _ => rfl, fun _ => rfl, fun s hs => ⟨hs, by simp [msgs, whole], ?_, ?_⟩⟩
    all_goals
      have := hsm s
      simp only [msgs, whole]
      omega
  have hconn : (arrived.map fun w => (Except.ok w.bytes : Except Err Bytes)) = deliver (xs.map fun x => [x.1]) := by
    unfold deliver
    rw [List.map_map]
    clear hlen hone harr hr
    induction hxs with
    | nil => rfl
    | cons hx _ ih =>
      rw [List.map_cons, List.map_cons, ih, hx.2.2.1]
      simp
  have hflat : (xs.map fun x => [x.1]).flatten = xs.map Prod.fst := by
    clear hxs hlen hconn
    induction xs with
    | nil => rfl
    | cons x xs ih => simp only [List.map_cons, List.flatten_cons, ih]; rfl
  have hall : ∀ x ∈ xs, ∃ w ∈ arrived, x.2.1 < 2 ^ 16 ∧ w.Of x.2.1 ∧ Whole x.1 ∧ verdict r.keys any x.1.1 x.1.2 =
      .ok ⟨22, hin.epoch, x.2.2, (msgs x.2.1).marshal true⟩ := by
    clear hlen hconn hflat hone harr hr
    induction hxs with
    | nil => intro x hx; cases hx
    | cons hx _ ih =>
      intro y hy
      rcases List.mem_cons.mp hy with rfl | hy
      · exact ⟨_, List.mem_cons_self, hx.1, hx.2.1, hx.2.2.2.1, hx.2.2.2.2⟩
      · obtain ⟨w, hw, e⟩ := ih y hy
        exact ⟨w, List.mem_cons_of_mem _ hw, e⟩
  have hback : ∀ w ∈ arrived, ∃ x ∈ xs, w.Of x.2.1 := by
    clear hlen hconn hflat hone harr hr hall
    induction hxs with
    | nil => intro x hx; cases hx
    | cons hx _ ih =>
      intro y hy
      rcases List.mem_cons.mp hy with rfl | hy
      · exact ⟨_, List.mem_cons_self, hx.2.1⟩
      · obtain ⟨w, hw, e⟩ := ih y hy
        exact ⟨w, List.mem_cons_of_mem _ hw, e⟩
  refine ⟨xs.map fun x => ⟨22, hin.epoch, x.2.2, (msgs x.2.1).marshal true⟩, ?_, ?_⟩
  · rw [hconn]
    have hcount : (xs.map fun x => [x.1]).flatten.length = arrived.length := by rw [hflat, List.length_map, hlen]
    rw [← hcount, C64_independent_partial r hr.inv hr.cached hr.datagram any hr.between _ ?_ ?_, hflat, List.map_map, List.map_map]
    · refine List.map_congr_left fun x hx => ?_
      obtain ⟨w, -, -, -, -, hv⟩ := hall x hx
      exact hv
    · intro dg hdg
      rw [List.mem_map] at hdg
      obtain ⟨x, hx, rfl⟩ := hdg
      refine ⟨by simp, fun y hy => ?_⟩
      rw [List.mem_singleton.mp hy]
      obtain ⟨w, -, -, -, hw, -⟩ := hall x hx
      exact hw
    · intro i; rw [hcount]; exact hr.count i
  · have hfeed : ((xs.map fun x => (⟨22, hin.epoch, x.2.2, (msgs x.2.1).marshal true⟩ : Plaintext)).map Except.ok : Feed) =
        wholeFeed msgs hin.epoch (xs.map Prod.snd) := by
      unfold wholeFeed
      rw [List.map_map, List.map_map]
      rfl
    dsimp only
    rw [hfeed]
    have hx16 : ∀ x ∈ xs.map Prod.snd, x.1 < 2 ^ 16 := by
      intro x hx
      rw [List.mem_map] at hx
      obtain ⟨y, hy, rfl⟩ := hx
      obtain ⟨w, -, h16, -⟩ := hall y hy
      exact h16
    obtain ⟨c1, c, c2, c3, c4⟩ := C20_whole_messages_partial onAck msgs hwm hin hd hi hnone (xs.map Prod.snd) hx16 calls
    refine ⟨c1, c, c2, ?_, ?_, ?_⟩
    · intro i hic
      have := c3 i hic
      rw [List.map_map, List.mem_map] at this
      obtain ⟨y, hy, he⟩ := this
      obtain ⟨w, hw, -, hof, -⟩ := hall y hy
      refine ⟨w, hw, ?_⟩
      rw [← he]
      exact hof
    · intro hlast w hw hof
      refine c4 hlast ?_
      obtain ⟨y, hy, off, b, hc⟩ := hback w hw
      obtain ⟨off', b', hc'⟩ := hof
      rw [hc] at hc'
      simp only [Option.some.injEq, Prod.mk.injEq] at hc'
      rw [List.map_map, List.mem_map]
      exact ⟨y, hy, hc'.1⟩
    · intro hcalls
      refine HsIn.calls_waits onAck msgs hwm calls (xs.map Prod.snd) hx16 hin [] hd hi
        ⟨by simp [hnone], by simp [hnone, SeqSorted], by simp, by simp [hnone]⟩ ?_
      simp only [List.length_map, List.filter_nil, List.length_nil]
      omega

/-- Every message of which a record arrived comes out, if those before it arrived as well: after more calls than twice the number of
records. -/
theorem C78_all_returned_partial (ops : List OutOp) (o : Out) (h : Out.new.run ops = .ok o) (msg : Nat → UInt8 × Bytes)
    (hq : Queues ops msg) (hsm : Small msg) (key : Nat) (arrived : List WireRec)
    (harr : ∀ w ∈ arrived, w ∈ o.wire ∧ w.key = key ∧ ∃ n, n < 2 ^ 16 ∧ w.Of n)
    (r : Reader) (any : Bool) (hr : Receives r o.keys key arrived.length)
    (hin : HsIn) (hd : hin.datagram = true) (hi : Idle hin.frame) (hnone : hin.queued = [])
    (hep : hin.epoch = (o.keys.heap key).epoch) (onAck : Bytes → Res Unit) (calls : Nat) (hcalls : 2 * arrived.length < calls)
    (n : Nat) (hn : hin.msgSeq ≤ n) (hall : ∀ i, hin.msgSeq ≤ i → i ≤ n → ∃ w ∈ arrived, w.Of i) :
    ∃ pts : List Plaintext,
      readsWith (List.replicate arrived.length any) { r with conn := arrived.map fun w => .ok w.bytes } = pts.map .ok ∧
      whole (msg n).1 n (msg n).2 ∈ messages (hin.calls onAck calls (pts.map .ok)).1 := by
  obtain ⟨pts, h1, -, c, h2, -, h3, h4⟩ := C78_flight_arrives_partial ops o h msg hq hsm key arrived harr r any hr hin hd hi hnone hep
    onAck calls
  refine ⟨pts, h1, ?_⟩
  rw [h2, List.mem_map]
  refine ⟨n, ?_, rfl⟩
  rw [List.mem_range'_1]
  refine ⟨hn, ?_⟩
  apply Classical.byContradiction
  intro hlt
  obtain ⟨w, hw, hof⟩ := hall (hin.msgSeq + c) (by omega) (by omega)
  exact h3 (h4 hcalls) w hw hof

/-- When the sender gives up its flight as received, and the acknowledgements named only records that arrived, the receiver gets every
message of it. -/
theorem C78_given_up_returned_partial (ops : List OutOp) (o o' : Out) (data : Bytes) (ht : Tame Out.new ops)
    (h : Out.new.run ops = .ok o) (hack : o.processAck data = .ok o') (hend : o'.queued = []) (msg : Nat → UInt8 × Bytes)
    (hq : Queues ops msg) (hsm : Small msg) (key : Nat) (arrived : List WireRec)
    (harr : ∀ w ∈ arrived, w ∈ o.wire ∧ w.key = key ∧ ∃ n, n < 2 ^ 16 ∧ w.Of n)
    (htrue : ∀ w ∈ o.wire, w.number ∈ o'.acks → w ∈ arrived)
    (r : Reader) (any : Bool) (hr : Receives r o.keys key arrived.length)
    (hin : HsIn) (hd : hin.datagram = true) (hi : Idle hin.frame) (hnone : hin.queued = [])
    (hep : hin.epoch = (o.keys.heap key).epoch) (onAck : Bytes → Res Unit) (calls : Nat) (hcalls : 2 * arrived.length < calls)
    (m : OutMsg) (hmem : m ∈ o.queued) (hm : hin.msgSeq ≤ m.seq)
    (hrun : ∀ n, hin.msgSeq ≤ n → n ≤ m.seq → ∃ m' ∈ o.queued, m'.seq = n) :
    ∃ pts : List Plaintext,
      readsWith (List.replicate arrived.length any) { r with conn := arrived.map fun w => .ok w.bytes } = pts.map .ok ∧
      whole m.msgType m.seq m.body ∈ messages (hin.calls onAck calls (pts.map .ok)).1 := by
  have hmsg := ((tidy_run hsm ops _ _ hq (tidy_new msg) h).queued m hmem).1
  rw [show m.msgType = (msg m.seq).1 by rw [← hmsg], show m.body = (msg m.seq).2 by rw [← hmsg]]
  refine C78_all_returned_partial ops o h msg hq hsm key arrived harr r any hr hin hd hi hnone hep onAck calls hcalls m.seq hm ?_
  intro i h1 h2
  obtain ⟨m', hm', rfl⟩ := hrun i h1 h2
  have hp : ∃ p, m'.Pos p := by
    cases hb : m'.body with
    | nil => exact ⟨0, Or.inr ⟨hb, rfl⟩⟩
    | cons a l => exact ⟨0, Or.inl (by simp [hb])⟩
  obtain ⟨p, hp⟩ := hp
  obtain ⟨w, hw, hnum, off, b, hc, -⟩ := C23_delivered_only_if_acked_partial ops o o' data ht h hack hend m' hm' p hp
  exact ⟨w, htrue w hw hnum, off, b, hc⟩

/-! ### Fragmented messages -/

/-- Two messages of 1189 bytes, one more than fits in a fragment. -/
def longFlight : List OutOp :=
  [.version 0x0303, .queue 11 0 (List.replicate 1189 1), .queue 11 1 (List.replicate 1189 2), .send]

def okOnly : List (Res Plaintext) → List Plaintext
  | [] => []
  | .ok pt :: more => pt :: okOnly more
  | _ :: more => okOnly more

theorem okOnly_le (l : List (Res Plaintext)) : (okOnly l).length ≤ l.length := by
  fun_induction okOnly l <;> simp only [List.length_cons, List.length_nil] <;> omega

theorem okOnly_all (l : List (Res Plaintext)) (h : (okOnly l).length = l.length) : l = (okOnly l).map .ok := by
  fun_induction okOnly l with
  | case1 => rfl
  | case2 pt more ih =>
    simp only [List.length_cons, Nat.add_right_cancel_iff] at h
    rw [List.map_cons, ← ih h]
  | case3 x more hx ih =>
    have := okOnly_le more
    rw [List.length_cons] at h
    omega

theorem readsWith_length (l : List Bool) (r : Reader) : (readsWith l r).length = l.length := by
  induction l generalizing r with
  | nil => rfl
  | cons a l ih => simp only [readsWith, List.length_cons, ih]

/-- What the receiver's record layer makes of the flight. -/
def longReads (o : Out) : List (Res Plaintext) :=
  readsWith (List.replicate 4 true) { Reader.new true [] with conn := o.wire.map fun w => .ok w.bytes }

def longCheck : Bool :=
  match Out.new.run longFlight with
  | .ok o =>
    (okOnly (longReads o)).length == 4 &&
    decide (messages ((HsIn.new true false).calls (fun _ => .ok ()) 4 ((okOnly (longReads o)).map .ok)).1 =
      [whole 11 0 (List.replicate 1189 1), whole 11 1 (List.replicate 1188 2 ++ [1])])
  | _ => false

/-- C78 fails for flights with fragmented messages, even when nothing is lost, repeated or reordered: of two messages of 1189 bytes the
second comes out with the last byte of the first. -/
theorem C78_fragmented_fails : ∃ (o : Out) (pts : List Plaintext), Out.new.run longFlight = .ok o ∧ longReads o = pts.map .ok ∧
    messages ((HsIn.new true false).calls (fun _ => .ok ()) 4 (pts.map .ok)).1 =
      [whole 11 0 (List.replicate 1189 1), whole 11 1 (List.replicate 1188 2 ++ [1])] := by
  have h : longCheck = true := by decide +kernel
  unfold longCheck at h
  split at h
  · rename_i o ho
    simp only [Bool.and_eq_true, beq_iff_eq, decide_eq_true_eq] at h
    refine ⟨o, okOnly (longReads o), ho, okOnly_all _ ?_, h.2⟩
    rw [h.1, longReads, readsWith_length, List.length_replicate]
  · exact absurd h (by simp)

/-! ### A case that meets the hypotheses -/

def threeMessages : Nat → UInt8 × Bytes
  | 0 => (8, [1])
  | 1 => (11, [2, 2])
  | 2 => (20, [])
  | _ => (0, [])

/-- Three messages under the keys of epoch 2, sent twice. -/
def threeFlight : List OutOp :=
  [.version 0x0303, .rekey 2 toyAead toyIv, .queue 8 0 [1], .queue 11 1 [2, 2], .queue 20 2 [], .send, .send]

def threeReader : Reader := { Reader.new true [] with keys := keyedReader }

def threeCheck : Bool :=
  match Out.new.run threeFlight with
  | .ok o =>
    match o.wire with
    | [a, b, c, a', _, _] =>
      -- the first record was lost, the last is late, one comes twice
      decide ([c, b, b, a'].map (fun w => (w.key, w.content)) =
        [(1, some (2, 0, [])), (1, some (1, 0, [2, 2])), (1, some (1, 0, [2, 2])), (1, some (0, 0, [1]))]) &&
      decide (a.number ≠ a'.number) &&
      decide ((o.keys.heap 1).epoch = 2) && decide ((o.keys.heap 1).iv = toyIv)
    | _ => false
  | _ => false

theorem rekeyed_aead {a : Aead} (ms : List OutMsg) (o : Out) (w n : Nat) (o' : Out) (ha : 1 < o.keys.fresh ∧ (o.keys.heap 1).aead = some a)
    (h : Out.writeMessages ms w o = .ok (n, o')) : 1 < o'.keys.fresh ∧ (o'.keys.heap 1).aead = some a := by
  refine Kept.messages (P := fun k _ => 1 < k.fresh ∧ (k.heap 1).aead = some a) (ops := []) ⟨?_, by simp, ?_, fun _ _ _ h => h⟩
    ms o w n o' ha h
  · intro o key ct f c o' hp he
    obtain ⟨rec, rfl, -⟩ := emit_ok he
    refine ⟨hp.1, ?_⟩
    simp only [upd]
    split
    · rename_i e; subst e; exact hp.2
    · exact hp.2
  · intro k w s hp
    refine ⟨by simp only [Keys.resetClear]; omega, ?_⟩
    simp only [Keys.resetClear, upd]
    rw [if_neg (by omega)]
    exact hp.2

/-- The first record was lost, the last is late, one comes twice: all three messages come out. -/
example : ∃ (o : Out) (arrived : List WireRec), Out.new.run threeFlight = .ok o ∧ arrived.length = 4 ∧ Queues threeFlight threeMessages ∧ Small threeMessages ∧
    (∀ w ∈ arrived, w ∈ o.wire ∧ w.key = 1 ∧ ∃ n, n < 2 ^ 16 ∧ w.Of n) ∧ Receives threeReader o.keys 1 arrived.length ∧
    (HsIn.new true false).msgSeq = 0 ∧ Idle (HsIn.new true false).frame ∧ (o.keys.heap 1).epoch = 2 ∧
    ∀ i, i ≤ 2 → ∃ w ∈ arrived, w.Of i := by
  have h : threeCheck = true := by decide +kernel
  unfold threeCheck at h
  split at h
  · rename_i o ho
    split at h
    · rename_i a b c a' b' c' hw
      simp only [Bool.and_eq_true, decide_eq_true_eq, List.map_cons, List.map_nil, List.cons.injEq, Prod.mk.injEq, and_true] at h
      obtain ⟨⟨⟨⟨⟨k1, c1⟩, ⟨k2, c2⟩, -, ⟨k3, c3⟩⟩, -⟩, hep⟩, hiv⟩ := h
      have haead : (o.keys.heap 1).aead = some toyAead := by
        simp only [threeFlight, Out.run, Out.op, Res.bind_ok, Res.bind_eq_ok, Prod.exists] at ho
        obtain ⟨o1, ⟨n1, o2, h1, e1⟩, o3, ⟨n2, o4, h2, e2⟩, e3⟩ := ho
        cases e1
        cases e2
        cases e3
        have := rekeyed_aead (a := toyAead) _ _ _ _ _ (by simp [Out.queue, Out.new, Keys.new, Keys.rekey, Keys.setVersion]) h1
        exact (rekeyed_aead (a := toyAead) _ { o2 with timer := true } _ _ _ this h2).2
      refine ⟨o, [c, b, b, a'], ho, rfl, ?_, ?_, ?_, ?_, rfl, by unfold Idle; decide, hep, ?_⟩
      · intro t n b hm
        simp only [threeFlight, List.mem_cons, OutOp.queue.injEq, reduceCtorEq, List.not_mem_nil, or_false, false_or] at hm
        rcases hm with ⟨rfl, rfl, rfl⟩ | ⟨rfl, rfl, rfl⟩ | ⟨rfl, rfl, rfl⟩ <;> rfl
      · intro n
        unfold threeMessages
        split <;> simp
      · intro w hwm
        rw [hw]
        simp only [List.mem_cons, List.not_mem_nil, or_false] at hwm
        rcases hwm with rfl | rfl | rfl | rfl
        · exact ⟨by simp, k1, 2, by decide, _, _, c1⟩
        · exact ⟨by simp, k2, 1, by decide, _, _, c2⟩
        · exact ⟨by simp, k2, 1, by decide, _, _, c2⟩
        · exact ⟨by simp, k3, 0, by decide, _, _, c3⟩
      · refine ⟨FrameReader.inv_new _, rfl, fun s => FrameReader.future_new _ _, rfl, rfl, ?_, ?_, ?_, ?_, ?_, by decide, ?_⟩
        · rw [haead]; rfl
        · rw [hiv]; rfl
        · rw [hep]; rfl
        · rw [hep]; decide
        · intro a ha; rw [haead] at ha; cases ha; exact toyAead_lawful
        · intro i
          simp only [threeReader, keyedReader, Keys.rekey, Keys.new, upd, nullCipher]
          split <;> simp
      · intro i hi
        match i, hi with
        | 0, _ => exact ⟨a', by simp, _, _, c3⟩
        | 1, _ => exact ⟨b, by simp, _, _, c2⟩
        | 2, _ => exact ⟨c, by simp, _, _, c1⟩
    · exact absurd h (by simp)
  · exact absurd h (by simp)

def endCheck : Bool :=
  match Out.new.run keyedFlight with
  | .ok o =>
    decide (o.queued.map OutMsg.seq = [0]) &&
    (match (o.marked [2 * 2 ^ 48]).sendQueued with
      | .ok (n, _) => n == 0
      | _ => false) &&
    (match o.wire with
      | [w] => decide (w.key = 1) && decide (w.content = some (0, 0, [7, 7, 7]))
      | _ => false) &&
    decide ((o.keys.heap 1).epoch = 2) && decide ((o.keys.heap 1).iv = toyIv)
  | _ => false

/-- The hypotheses of `C78_given_up_returned_partial`: one record, acknowledged. -/
example : ∃ (o o' : Out) (arrived : List WireRec), Tame Out.new keyedFlight ∧ Out.new.run keyedFlight = .ok o ∧
    o.processAck keyedAck = .ok o' ∧ o'.queued = [] ∧ Queues keyedFlight (fun _ => (8, [7, 7, 7])) ∧
    Small (fun _ => (8, [7, 7, 7])) ∧ (∀ w ∈ arrived, w ∈ o.wire ∧ w.key = 1 ∧ ∃ n, n < 2 ^ 16 ∧ w.Of n) ∧
    (∀ w ∈ o.wire, w.number ∈ o'.acks → w ∈ arrived) ∧ Receives threeReader o.keys 1 arrived.length ∧
    (o.keys.heap 1).epoch = 2 ∧ ∃ m ∈ o.queued, m.seq = 0 := by
  have h : endCheck = true := by decide +kernel
  unfold endCheck at h
  split at h
  · rename_i o ho
    simp only [Bool.and_eq_true, decide_eq_true_eq] at h
    obtain ⟨⟨⟨⟨hq, h1⟩, h2⟩, hep⟩, hiv⟩ := h
    split at h1
    · rename_i n o2 hsend
      simp only [beq_iff_eq] at h1
      subst h1
      split at h2
      · rename_i w hw
        simp only [Bool.and_eq_true, decide_eq_true_eq] at h2
        have haead : (o.keys.heap 1).aead = some toyAead := by
          simp only [keyedFlight, Out.run, Out.op, Res.bind_ok, Res.bind_eq_ok, Prod.exists] at ho
          obtain ⟨o1, ⟨n1, o2, h1, e1⟩, e3⟩ := ho
          cases e1
          cases e3
          exact (rekeyed_aead (a := toyAead) _ _ _ _ _
            (by simp [Out.queue, Out.new, Keys.new, Keys.rekey, Keys.setVersion]) h1).2
        refine ⟨o, { o2 with queued := [] }, o.wire, ?_, ho, ?_, rfl, ?_, ?_, ?_, fun w hw _ => hw, ?_, hep, ?_⟩
        · refine ⟨by simp, fun o h => ?_⟩
          cases h
          refine ⟨by simp, fun o h => ?_⟩
          cases h
          refine ⟨by simp, fun o h => ?_⟩
          cases h
          refine ⟨fun _ => ?_, fun o h => trivial⟩
          simp [OneKey, Out.queue, Out.new]
        · unfold Out.processAck
          rw [show keyedAck = [0, 8, 0, 2, 0, 0, 0, 0, 0, 0] from rfl, ackNumbers_marshal [0x0002000000000000] _ (by decide) (by decide)]
          show (o.marked [2 * 2 ^ 48]).sendQueued.bind _ = _
          rw [hsend]
          rfl
        · intro t n b hm
          simp only [keyedFlight, List.mem_cons, OutOp.queue.injEq, reduceCtorEq, List.not_mem_nil, or_false, false_or] at hm
          rw [hm.1, hm.2.2]
        · intro n; simp
        · intro w' hw'
          refine ⟨hw', ?_⟩
          rw [hw] at hw'
          rw [List.mem_singleton.mp hw']
          exact ⟨h2.1, 0, by decide, _, _, h2.2⟩
        · rw [hw]
          refine ⟨FrameReader.inv_new _, rfl, fun s => FrameReader.future_new _ _, rfl, rfl, ?_, ?_, ?_, ?_, ?_, by decide, ?_⟩
          · rw [haead]; rfl
          · rw [hiv]; rfl
          · rw [hep]; rfl
          · rw [hep]; decide
          · intro a ha; rw [haead] at ha; cases ha; exact toyAead_lawful
          · intro i
            simp only [threeReader, keyedReader, Keys.rekey, Keys.new, upd, nullCipher]
            split <;> simp
        · cases hoq : o.queued with
          | nil => rw [hoq] at hq; simp at hq
          | cons m ms => rw [hoq] at hq; simp at hq; exact ⟨m, by simp, hq.1⟩
      · exact absurd h2 (by simp)
    · exact absurd h1 (by simp)
  · exact absurd h (by simp)

end Verif.Handshake
