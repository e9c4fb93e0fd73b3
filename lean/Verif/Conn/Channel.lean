import Verif.Spec.Stack
import Verif.Conn.Delivery
import Verif.Record.Pending
import Verif.Machine.Aligned

/-
One direction of a handshake: what is written, what is under way, what has been read.
-/

namespace Verif.Conn

open Verif Verif.Crypto Verif.Messages Verif.Negotiation Verif.Handshake Verif.Machine Verif.Spec Verif.Record

/-! ### The handshake layer -/

/-- The handshake layer between messages. -/
structure _root_.Verif.Handshake.HsIn.Quiet (h : HsIn) (n : Nat) : Prop where
  tls : h.datagram = false
  nonblocking : h.nonblocking = true
  queued : h.queued = []
  header : h.frame.inBody = false
  target : h.frame.target = 4
  filled : h.frame.filled = []
  remainder : h.frame.remainder = []
  epoch : h.epoch = n

theorem quiet_new : (HsIn.new false true).Quiet 0 := ⟨rfl, rfl, rfl, rfl, rfl, rfl, rfl, rfl⟩

theorem _root_.Verif.Handshake.HsIn.Quiet.needed {h : HsIn} {n : Nat} (q : h.Quiet n) : h.frame.needed > 0 := by
  simp [FrameReader.needed, q.target, q.filled, q.remainder]

/-- A frame all of which is there. -/
theorem process_whole {d : Framing} {f : FrameReader} {h b : Bytes} (h1 : f.inBody = false) (h2 : f.target = d.headerLen)
    (h3 : f.filled = []) (h4 : f.remainder = h ++ b) (hl : h.length = d.headerLen) (hf : d.frameLen h = .ok b.length) :
    f.process d = (some (.ok (h, b)), ⟨false, h, d.headerLen, [], []⟩) := by
  obtain ⟨i, hh, t, fi, r⟩ := f
  dsimp only at h1 h2 h3 h4
  subst h1 h2 h3 h4
  have e1 : FrameReader.needed ⟨false, hh, d.headerLen, [], h ++ b⟩ = 0 := by
    simp [FrameReader.needed, ← hl]
    omega
  have e2 : FrameReader.fill ⟨false, hh, d.headerLen, [], h ++ b⟩ = ⟨false, hh, d.headerLen, h, b⟩ := by
    simp [FrameReader.fill, ← hl]
  have e3 : FrameReader.needed ⟨true, h, b.length, [], b⟩ = 0 := by simp [FrameReader.needed]
  have e4 : FrameReader.fill ⟨true, h, b.length, [], b⟩ = ⟨true, h, b.length, b, []⟩ := by simp [FrameReader.fill]
  simp [FrameReader.process, FrameReader.processN, e1, e2, hl, hf, e3, e4]

/-- A message that fits into one record is read. -/
theorem hs_reads {h : HsIn} {n : Nat} (q : h.Quiet n) {pt : Plaintext} {m : Msg} (hct : pt.contentType = 22) (he : pt.epoch = n)
    (hf : pt.fragment = m.marshal false) (hg : (Sym.msg m).good false) (hm : m.body.length < 2 ^ 24) (onAck : Bytes → Res Unit) :
    ∃ h', h.readMessage onAck [.ok pt] = (.ok (some m), h', []) ∧ h'.Quiet n := by
  obtain ⟨hg1, hg2, hg3⟩ : m.offset = 0 ∧ m.length = m.body.length % 2 ^ 32 ∧ (false = false → m.seq = 0) := hg
  have hlen : m.length = m.body.length := by rw [hg2]; exact Nat.mod_eq_of_lt (by omega)
  have hmar : m.marshal false = (m.msgType :: beBytes 3 m.length) ++ m.body := by simp [Msg.marshal]
  have hmm : (⟨(m.msgType :: beBytes 3 m.length).getD 0 0, 0, m.body, 0, m.body.length⟩ : Msg) = m := by
    obtain ⟨t, s, b, o, l⟩ := m
    dsimp only at hg1 hlen hg3 ⊢
    rw [hg1, hlen, hg3 rfl]
    rfl
  have hcheck : h.check = (.ok none, h) := by simp [HsIn.check, q.queued]
  have hrr : h.readRecord onAck (.ok pt) =
      .ok { h with recvd := h.recvd ++ [pt.seq], frame := h.frame.addChunk (m.marshal false) } := by
    simp [HsIn.readRecord, hct, he, q.epoch, hf]
  have hp := process_whole (d := hsFraming false) (f := h.frame.addChunk (m.marshal false)) (h := m.msgType :: beBytes 3 m.length)
    (b := m.body) q.header q.target q.filled (by simp only [FrameReader.addChunk]; rw [q.remainder, hmar]; rfl) (by simp [hsFraming])
    (by
      simp only [hsFraming, List.length_cons, beBytes_length, List.drop_succ_cons, List.drop_zero]
      rw [beNat_beBytes_of_lt (by omega), hlen])
  refine ⟨{ h with recvd := h.recvd ++ [pt.seq], frame := ⟨false, m.msgType :: beBytes 3 m.length, 4, [], []⟩ }, ?_,
    ⟨q.tls, q.nonblocking, q.queued, rfl, rfl, rfl, rfl, q.epoch⟩⟩
  simp only [HsIn.readMessage, hcheck, HsIn.readLoop, List.length_singleton]
  rw [if_pos q.needed, hrr]
  simp only [HsIn.processFrame, q.tls, hp, HsIn.deliver, Bool.false_eq_true, if_false, hmm]
  rfl

/-- Nothing is there yet. -/
theorem hs_waits {h : HsIn} {n : Nat} (q : h.Quiet n) (onAck : Bytes → Res Unit) :
    h.readMessage onAck [.error .wouldBlock] = (.err .wouldBlock, h, []) := by
  have hcheck : h.check = (.ok none, h) := by simp [HsIn.check, q.queued]
  simp only [HsIn.readMessage, hcheck, HsIn.readLoop, List.length_singleton]
  rw [if_pos q.needed]
  simp [HsIn.readRecord, q.nonblocking]

/-! ### What is written -/

/-- What is written to the record layer. -/
def items (A : Bytes → Aead) : List Sym → List Item
  | [] => []
  | .msg m :: l => .record 22 (m.marshal false) 0 :: items A l
  | .key n k :: l => .rekey n (A k.1) k.2 :: items A l
  | .reset _ :: l => items A l

theorem items_append (A : Bytes → Aead) (l l' : List Sym) : items A (l ++ l') = items A l ++ items A l' := by
  induction l with
  | nil => rfl
  | cons a l ih => cases a <;> simp [items, ih]

/-- The record layer can write `n` more records. -/
structure Fit (ov n : Nat) (k : Record.Keys) : Prop where
  dir : k.direction = .write
  tls : k.datagram = false
  seq : (k.heap k.cur).seq + n < 2 ^ 48
  aead : ∀ a, (k.heap k.cur).aead = some a → a.Lawful ∧ a.overhead ≤ ov ∧ 8 ≤ (k.heap k.cur).iv.length

theorem fit_new (ov v : Nat) {n : Nat} (hn : n < 2 ^ 48) : Fit ov n ((Record.Keys.new .write false).setVersion v) :=
  ⟨rfl, rfl, by simpa [Record.Keys.new, Record.Keys.setVersion, nullCipher] using hn,
    fun a h => by simp [Record.Keys.new, Record.Keys.setVersion, nullCipher] at h⟩

theorem fit_write {ov n : Nat} {k : Record.Keys} (h : Fit ov (n + 1) k) {f : Bytes} (hf : f.length + 1 + ov ≤ 2 ^ 14) (ct : UInt8) :
    ∃ rec k', Record.writeRecord k k.cur ct f 0 = .ok (rec, k') ∧ Fit ov n k' := by
  have hs : (k.heap k.cur).seq < 2 ^ 48 - 1 := by have := h.seq; omega
  have hfit : Fit ov n { k with heap := upd k.heap k.cur { k.heap k.cur with seq := (k.heap k.cur).seq + 1 } } :=
    ⟨h.dir, h.tls, by simp only [upd_same]; have := h.seq; omega, by simp only [upd_same]; exact h.aead⟩
  suffices h : ∃ rec, Record.writeRecord k k.cur ct f 0 =
      .ok (rec, { k with heap := upd k.heap k.cur { k.heap k.cur with seq := (k.heap k.cur).seq + 1 } }) by
    obtain ⟨rec, h⟩ := h
    exact ⟨rec, _, h, hfit⟩
  unfold Record.writeRecord
  dsimp only
  cases ha : (k.heap k.cur).aead with
  | none =>
    simp only [recordHeader, h.tls, Bool.false_eq_true, if_false, Res.bind_ok]
    rw [if_neg (by omega), if_neg (by omega), bumpSeq_of_lt hs, Res.bind_ok]
    dsimp only
    rw [ha]
    exact ⟨_, rfl⟩
  | some a =>
    obtain ⟨h1, h2, h3⟩ := h.aead a ha
    simp only [recordHeader, h.tls, Bool.false_eq_true, if_false, Res.bind_ok, h.dir, ne_eq, not_true, computeNonce]
    rw [if_neg (by omega)]
    simp only [Res.bind_ok]
    rw [if_neg (by rw [h1.seal_length]; simp [innerPlaintext]; omega), bumpSeq_of_lt hs, Res.bind_ok]
    dsimp only
    rw [ha]
    exact ⟨_, rfl⟩

theorem fit_rekey {ov n m : Nat} {k : Record.Keys} (h : Fit ov n k) {a : Aead} (ha : a.Lawful ∧ a.overhead ≤ ov) {iv : Bytes}
    (hiv : iv.length = 12) (hm : m < 2 ^ 48) (e : Nat) : Fit ov m (k.rekey e a iv) := by
  refine ⟨h.dir, h.tls, by simpa [Record.Keys.rekey] using hm, fun b hb => ?_⟩
  simp only [Record.Keys.rekey, upd_same, Option.some.injEq] at hb ⊢
  subst hb
  exact ⟨ha.1, ha.2, by omega⟩

/-- Short messages and good keys are written. -/
theorem sendAll_fit {A : Bytes → Aead} {ov : Nat} (hA : ∀ key, (A key).Lawful ∧ (A key).overhead ≤ ov) (l : List Sym)
    {k : Record.Keys} (hk : Fit ov l.length k) (hl : l.length < 2 ^ 48) (hg : ∀ a ∈ l, a.good false) (hs : ∀ m, .msg m ∈ l → Small ov m) :
    ∃ b k', sendAll k (items A l) = .ok (b, k') := by
  induction l generalizing k with
  | nil => exact ⟨_, _, rfl⟩
  | cons a l ih =>
    rw [List.length_cons] at hl
    cases a with
    | msg m =>
      have h1 := hs m (by simp)
      unfold Small at h1
      obtain ⟨rec, k', hw, hk'⟩ := fit_write (f := m.marshal false) hk (by simp [Msg.marshal]; omega) 22
      obtain ⟨b, k'', h2⟩ := ih hk' (by omega) (fun a ha => hg a (by simp [ha])) (fun m hm => hs m (by simp [hm]))
      exact ⟨rec ++ b, k'', by simp only [items, sendAll, hw, Res.bind_ok, h2]⟩
    | key n kk =>
      have h1 : n ≤ 3 ∧ kk.2.length = 12 := hg _ (List.mem_cons_self ..)
      exact ih (fit_rekey hk (hA _) h1.2 (by omega) n) (by omega) (fun a ha => hg a (by simp [ha])) (fun m hm => hs m (by simp [hm]))
    | reset s => exact (hg _ (List.mem_cons_self ..)).elim

/-! ### The channel -/

/-- One direction. The writer has written `I`, which left it with the keys `w`, and after that the bytes `X`; the reader has
read, and installed, `T`; `u` is under way. -/
def Chan (A : Bytes → Aead) (I T : List Sym) (X : Bytes) (w : Record.Keys) (u : Bytes) (r : Reader) : Prop :=
  ∃ v b bT wT rest, sendAll ((Record.Keys.new .write false).setVersion v) (items A I) = .ok (b, w) ∧
    sendAll ((Record.Keys.new .write false).setVersion v) (items A T) = .ok (bT, wT) ∧ b = bT ++ rest ∧ Paired wT r.keys ∧ r.Ready ∧
    r.held ++ u = rest ++ X

theorem chan_new (A : Bytes → Aead) : Chan A [] [] [] (Record.Keys.new .write false) [] (Reader.new false []) := by
  refine ⟨0x0301, [], [], _, [], rfl, rfl, rfl, ?_, ⟨FrameReader.inv_new _, rfl, rfl, fun _ h => by cases h⟩, rfl⟩
  exact ⟨rfl, rfl, rfl, rfl, rfl, rfl, fun _ => rfl, Nat.le_refl 0, fun h => (by cases h), (by decide), fun a h => (by cases h)⟩

theorem sendAll_split {k k' : Record.Keys} {l l' : List Item} {b : Bytes} (h : sendAll k (l ++ l') = .ok (b, k')) :
    ∃ b1 k1 b2, sendAll k l = .ok (b1, k1) ∧ sendAll k1 l' = .ok (b2, k') ∧ b = b1 ++ b2 := by
  rw [sendAll_append] at h
  simp only [Res.bind_eq_ok, Res.ok.injEq, Prod.mk.injEq] at h
  obtain ⟨⟨b1, k1⟩, h1, ⟨b2, k2⟩, h2, rfl, rfl⟩ := h
  exact ⟨b1, k1, b2, h1, h2, rfl⟩

theorem sendAll_join {k k1 k' : Record.Keys} {l l' : List Item} {b1 b2 : Bytes} (h1 : sendAll k l = .ok (b1, k1))
    (h2 : sendAll k1 l' = .ok (b2, k')) : sendAll k (l ++ l') = .ok (b1 ++ b2, k') := by
  rw [sendAll_append, h1]
  simp only [Res.bind_ok, h2]

/-- More is written. -/
theorem Chan.write {A : Bytes → Aead} {I T l : List Sym} {w w' : Record.Keys} {u b' : Bytes} {r : Reader} (h : Chan A I T [] w u r)
    (hs : sendAll w (items A l) = .ok (b', w')) : Chan A (I ++ l) T [] w' (u ++ b') r := by
  obtain ⟨v, b, bT, wT, rest, h1, h2, h3, h4, h5, h6⟩ := h
  refine ⟨v, _, bT, wT, rest ++ b', by rw [items_append]; exact sendAll_join h1 hs, h2, by rw [h3, List.append_assoc], h4, h5, ?_⟩
  rw [List.append_nil] at h6 ⊢
  rw [← h6, List.append_assoc]

theorem writeRecord_ne_nil {k k' : Record.Keys} {i pad : Nat} {ct : UInt8} {f b : Bytes} (h : writeRecord k i ct f pad = .ok (b, k')) :
    b ≠ [] := by
  have hh : ∀ (o : UInt8) (s l : Nat) (b : Bytes), recordHeader k o s l = .ok b → b ≠ [] := by
    intro o s l b hb
    simp only [recordHeader] at hb
    split at hb
    · simp only [Res.bind_eq_ok, Res.ok.injEq] at hb
      obtain ⟨_, _, rfl⟩ := hb
      simp
    · rw [Res.ok.injEq] at hb
      rw [← hb]
      simp
  simp only [writeRecord] at h
  split at h
  · simp only [Res.bind_eq_ok] at h
    obtain ⟨hd, h1, h2⟩ := h
    split at h2
    · cases h2
    · simp only [Res.bind_eq_ok] at h2
      obtain ⟨_, _, h3⟩ := h2
      split at h3
      · cases h3
      · simp only [Res.bind_eq_ok, Res.ok.injEq, Prod.mk.injEq] at h3
        obtain ⟨_, _, rfl, _⟩ := h3
        simp [hh _ _ _ _ h1]
  · simp only [Res.bind_eq_ok] at h
    obtain ⟨hd, h1, h2⟩ := h
    split at h2
    · cases h2
    · split at h2
      · cases h2
      · simp only [Res.bind_eq_ok, Res.ok.injEq, Prod.mk.injEq] at h2
        obtain ⟨_, _, rfl, _⟩ := h2
        simp [hh _ _ _ _ h1]

/-- Nothing but keys: the version does not matter. -/
theorem sendAll_setVersion {v : Nat} (l : List Item) {k k' : Record.Keys} (h : sendAll k l = .ok ([], k')) :
    sendAll (k.setVersion v) l = .ok ([], k'.setVersion v) := by
  induction l generalizing k with
  | nil =>
    simp only [sendAll, Res.ok.injEq, Prod.mk.injEq, true_and] at h ⊢
    rw [h]
  | cons a l ih =>
    cases a with
    | record ct f pad =>
      simp only [sendAll, Res.bind_eq_ok, Res.ok.injEq, Prod.mk.injEq] at h
      obtain ⟨⟨rec, k1⟩, h1, ⟨_, _⟩, _, h2, _⟩ := h
      exact absurd (List.append_eq_nil_iff.1 h2).1 (writeRecord_ne_nil h1)
    | rekey e a iv => exact ih (k := k.rekey e a iv) h

/-- As long as nothing has been written the version can be changed. -/
theorem Chan.version {A : Bytes → Aead} {T : List Sym} {X u : Bytes} {w : Record.Keys} {r : Reader} (h : Chan A [] T X w u r) (v : Nat) :
    Chan A [] T X (w.setVersion v) u r := by
  obtain ⟨v0, b, bT, wT, rest, h1, h2, h3, h4, h5, h6⟩ := h
  simp only [items, sendAll, Res.ok.injEq, Prod.mk.injEq] at h1
  obtain ⟨rfl, rfl⟩ := h1
  obtain ⟨rfl, rfl⟩ := List.append_eq_nil_iff.1 h3.symm
  refine ⟨v, [], [], wT.setVersion v, [], rfl, ?_, rfl, ?_, h5, h6⟩
  · exact sendAll_setVersion (k := (Record.Keys.new .write false).setVersion v0) (v := v) _ h2
  · exact ⟨h4.wdir, h4.rdir, h4.dgram, h4.aead, h4.iv, h4.epoch, h4.seq, h4.seqLe, h4.known, h4.small, h4.lawful⟩

/-- The writer's keys, and what it will write. -/
theorem Chan.sends {A : Bytes → Aead} {I T l : List Sym} {w : Record.Keys} {X u : Bytes} {r : Reader} (h : Chan A I T X w u r) {ov : Nat}
    (hA : ∀ key, (A key).Lawful ∧ (A key).overhead ≤ ov) (hl : (I ++ l).length < 2 ^ 48) (hg : ∀ a ∈ I ++ l, a.good false)
    (hs : ∀ m, .msg m ∈ I ++ l → Small ov m) : ∃ b w', sendAll w (items A l) = .ok (b, w') := by
  obtain ⟨v, b, bT, wT, rest, h1, _⟩ := h
  obtain ⟨b', k', h2⟩ := sendAll_fit hA (I ++ l) (fit_new ov v hl) hl hg hs
  rw [items_append] at h2
  obtain ⟨b1, k1, b2, h3, h4, _⟩ := sendAll_split h2
  rw [h1, Res.ok.injEq, Prod.mk.injEq] at h3
  obtain ⟨_, rfl⟩ := h3
  exact ⟨_, _, h4⟩

/-- Bytes arrive. -/
theorem Chan.arrive {A : Bytes → Aead} {I T : List Sym} {w : Record.Keys} {X u : Bytes} {r : Reader} (h : Chan A I T X w u r)
    {cs : List Bytes} {u' : Bytes} (hu : u = cs.flatten ++ u') (hc : [] ∉ cs) :
    Chan A I T X w u' { r with conn := r.conn ++ cs.map .ok } := by
  obtain ⟨v, b, bT, wT, rest, h1, h2, h3, h4, h5, h6⟩ := h
  have hd : ∀ (l : List (Except Err Bytes)), connData (l ++ cs.map .ok) = connData l ++ cs.flatten := by
    intro l
    induction l with
    | nil =>
      simp only [List.nil_append, connData]
      clear hu hc
      induction cs with
      | nil => rfl
      | cons c cs ih => simp [connData, ih]
    | cons a l ih => cases a <;> simp [connData, ih]
  refine ⟨v, b, bT, wT, rest, h1, h2, h3, h4, ⟨h5.inv, h5.cached, h5.tls, ?_⟩, ?_⟩
  · intro a ha
    rcases List.mem_append.1 ha with ha | ha
    · exact h5.whole a ha
    · obtain ⟨c, hc', rfl⟩ := List.mem_map.1 ha
      exact ⟨c, rfl, fun h => hc (h ▸ hc')⟩
  · rw [← h6, hu]
    simp [Reader.held, hd]

/-- The reader installs keys. -/
def rekeyAll (A : Bytes → Aead) : List Sym → Record.Keys → Record.Keys
  | [], k => k
  | .key n kk :: l, k => rekeyAll A l (k.rekey n (A kk.1) kk.2)
  | _ :: l, k => rekeyAll A l k

/-- The epoch after that. -/
def lastEpoch : List Sym → Nat → Nat
  | [], n => n
  | .key n _ :: l, _ => lastEpoch l n
  | _ :: l, n => lastEpoch l n

theorem rekeyAll_epoch (A : Bytes → Aead) (l : List Sym) (k : Record.Keys) :
    ((rekeyAll A l k).heap (rekeyAll A l k).cur).epoch = lastEpoch l (k.heap k.cur).epoch ∧
    (rekeyAll A l k).datagram = k.datagram := by
  induction l generalizing k with
  | nil => exact ⟨rfl, rfl⟩
  | cons a l ih =>
    cases a with
    | key n kk =>
      obtain ⟨h1, h2⟩ := ih (k.rekey n (A kk.1) kk.2)
      exact ⟨by simpa [rekeyAll, lastEpoch, Record.Keys.rekey] using h1, h2⟩
    | msg m => exact ih k
    | reset n => exact ih k

/-- Nothing but keys. -/
def KeysOnly (l : List Sym) : Prop := ∀ a ∈ l, ∃ n k, a = .key n k ∧ n ≤ 3

theorem Chan.install {A : Bytes → Aead} (hA : ∀ key, (A key).Lawful) {l : List Sym} (hl : KeysOnly l) {I T : List Sym}
    {w : Record.Keys} {X u : Bytes} {r : Reader} (h : Chan A I T X w u r) :
    Chan A I (T ++ l) X w u { r with keys := rekeyAll A l r.keys } := by
  induction l generalizing T r with
  | nil => rw [List.append_nil]; exact h
  | cons a l ih =>
    obtain ⟨n, kk, rfl, hn⟩ := hl a (by simp)
    obtain ⟨v, b, bT, wT, rest, h1, h2, h3, h4, h5, h6⟩ := h
    have : Chan A I (T ++ [.key n kk]) X w u { r with keys := r.keys.rekey n (A kk.1) kk.2 } := by
      refine ⟨v, b, bT, wT.rekey n (A kk.1) kk.2, rest, h1, ?_, h3, ?_, ⟨h5.inv, h5.cached, h5.tls, h5.whole⟩, h6⟩
      · have := sendAll_join (l' := items A [.key n kk]) h2 rfl
        rw [items_append, this, List.append_nil]
      · exact rekey_paired h4 _ _ _ (hA _) (by omega)
    have := ih (fun a ha => hl a (by simp [ha])) this
    rw [List.append_assoc] at this
    exact this

/-- The next message is read if it has arrived. -/
theorem Chan.next {A : Bytes → Aead} {I T more : List Sym} {m : Msg} {w : Record.Keys} {X u : Bytes} {r : Reader} (h : Chan A I T X w u r)
    (hI : I = T ++ .msg m :: more) : ∃ r' : Reader, (r'.keys.heap r'.keys.cur).epoch = (r.keys.heap r.keys.cur).epoch ∧
      ((∃ pt : Plaintext, nextRecord r false = (.ok pt, { r' with cached := some pt }) ∧ pt.contentType = 22 ∧
          pt.fragment = m.marshal false ∧ pt.epoch = (r.keys.heap r.keys.cur).epoch ∧ r'.cached = none ∧ Chan A I (T ++ [.msg m]) X w u r') ∨
       (nextRecord r false = (.err .wouldBlock, r') ∧ r'.cached = none ∧ Chan A I T X w u r' ∧ r.frames = [])) := by
  obtain ⟨v, b, bT, wT, rest, h1, h2, h3, h4, h5, h6⟩ := h
  have h1' := h1
  rw [hI, items_append] at h1'
  obtain ⟨b1, k1, b2, h7, h8, h9⟩ := sendAll_split h1'
  rw [h2, Res.ok.injEq, Prod.mk.injEq] at h7
  obtain ⟨rfl, rfl⟩ := h7
  simp only [items, sendAll, Res.bind_eq_ok, Res.ok.injEq, Prod.mk.injEq] at h8
  obtain ⟨⟨rec, w1⟩, hw, ⟨b3, w2⟩, hmore, h10, h11⟩ := h8
  dsimp only at hmore h10 h11
  have hwd : wT.datagram = false := by rw [h4.dgram]; exact h5.tls
  obtain ⟨hd, bd, pt, k, rfl, hlen, hfl, ho, hpt1, hpt2, hpt3, hp', -, -⟩ :=
    openRecord_writeRecord false h4 hw (by decide) (fun _ => by decide)
  rw [hwd] at hlen hfl
  have hrest : rest = hd ++ bd ++ b3 := by
    rw [h3, List.append_cancel_left_eq] at h9
    rw [h9, ← h10]
  rw [hrest, List.append_assoc (hd ++ bd)] at h6
  have hep : (k.heap k.cur).epoch = (r.keys.heap r.keys.cur).epoch := by
    obtain ⟨i, seq, hsel, -, -, -, hk, -⟩ := openRecord_ok ho
    simp only [selectCipher, h5.tls, Bool.false_eq_true, if_false, Res.ok.injEq, Prod.mk.injEq] at hsel
    rw [hk]
    simp only [← hsel.1, upd_same]
  obtain ⟨r', hr', ⟨g1, g2, g3⟩ | ⟨g1, g2, g3, g4⟩⟩ := nextRecord_bytes h5 hlen hfl ho h6
  · refine ⟨r', by rw [g2]; exact hep, .inl ⟨pt, g1, hpt1, hpt2, by rw [hpt3, h4.epoch], hr'.cached, v, b, bT ++ (hd ++ bd), w1, b3, h1, ?_, ?_,
      by rw [g2]; exact hp', hr', g3⟩⟩
    · rw [items_append]
      refine sendAll_join h2 ?_
      simp only [items, sendAll, hw, Res.bind_ok, List.append_nil]
    · rw [h3, hrest, List.append_assoc bT]
  · exact ⟨r', by rw [g2], .inr ⟨g1, hr'.cached, ⟨v, b, bT, wT, rest, h1, h2, h3, by rw [g2]; exact h4, hr', by rw [g3, h6, hrest, List.append_assoc (hd ++ bd)]⟩, g4⟩⟩

/-- All messages have been read. -/
theorem Chan.rest {A : Bytes → Aead} {I T : List Sym} {w : Record.Keys} {X u : Bytes} {r : Reader} (h : Chan A I T X w u r)
    (hI : I <+: T) : r.held ++ u = X := by
  obtain ⟨v, b, bT, wT, rest, h1, h2, h3, h4, h5, h6⟩ := h
  obtain ⟨more, rfl⟩ := hI
  rw [items_append] at h2
  obtain ⟨b1, k1, b2, h7, h8, h9⟩ := sendAll_split h2
  rw [h1, Res.ok.injEq, Prod.mk.injEq] at h7
  obtain ⟨rfl, rfl⟩ := h7
  have : rest = [] := by
    have := congrArg List.length h3
    rw [h9] at this
    simp only [List.length_append] at this
    exact List.eq_nil_of_length_eq_zero (by omega)
  rw [this] at h6
  exact h6

theorem Chan.ready {A : Bytes → Aead} {I T : List Sym} {w : Record.Keys} {X u : Bytes} {r : Reader} (h : Chan A I T X w u r) : r.Ready := by
  obtain ⟨v, b, bT, wT, rest, h1, h2, h3, h4, h5, h6⟩ := h
  exact h5

/-- Everything has been read. -/
theorem Chan.done {A : Bytes → Aead} {I T : List Sym} {w : Record.Keys} {u : Bytes} {r : Reader} (h : Chan A I T [] w u r)
    (hI : I <+: T) : r.held = [] ∧ u = [] ∧ r.frames = [] := by
  obtain ⟨g1, g2⟩ := List.append_eq_nil_iff.1 (h.rest hI)
  exact ⟨g1, g2, by rw [h.ready.frames, g1]; exact frameEvents_nil⟩

theorem Chan.waits {A : Bytes → Aead} {I T : List Sym} {w : Record.Keys} {u : Bytes} {r : Reader} (h : Chan A I T [] w u r)
    (hI : I <+: T) : ∃ r' : Reader, (r'.keys.heap r'.keys.cur).epoch = (r.keys.heap r.keys.cur).epoch ∧
      nextRecord r false = (.err .wouldBlock, r') ∧ r'.cached = none ∧ Chan A I T [] w u r' := by
  obtain ⟨g1, g2, _⟩ := h.done hI
  obtain ⟨v, b, bT, wT, rest, h1, h2, h3, h4, h5, h6⟩ := h
  obtain ⟨r', hr', e1, e2, e3⟩ := nextRecord_nothing h5 g1
  exact ⟨r', by rw [e2], e1, hr'.cached, v, b, bT, wT, rest, h1, h2, h3, by rw [e2]; exact h4, hr', by rw [e3, ← h6, g1]⟩

/-- All that was written has arrived. -/
theorem Chan.arrived {A : Bytes → Aead} {I T more : List Sym} {m : Msg} {w : Record.Keys} {X : Bytes} {r : Reader} (h : Chan A I T X w [] r)
    (hI : I = T ++ .msg m :: more) : r.frames ≠ [] := by
  intro hf
  obtain ⟨v, b, bT, wT, rest, h1, h2, h3, h4, h5, h6⟩ := h
  rw [hI, items_append] at h1
  obtain ⟨b1, k1, b2, h7, h8, h9⟩ := sendAll_split h1
  rw [h2, Res.ok.injEq, Prod.mk.injEq] at h7
  obtain ⟨rfl, rfl⟩ := h7
  simp only [items, sendAll, Res.bind_eq_ok, Res.ok.injEq, Prod.mk.injEq] at h8
  obtain ⟨⟨rec, w1⟩, hw, ⟨b3, w2⟩, hmore, h10, h11⟩ := h8
  dsimp only at hmore h10 h11
  have hwd : wT.datagram = false := by rw [h4.dgram]; exact h5.tls
  obtain ⟨hd, bd, pt, k, rfl, hlen, hfl, -⟩ := openRecord_writeRecord false h4 hw (by decide) (fun _ => by decide)
  rw [hwd] at hlen hfl
  have hrest : rest = hd ++ bd ++ b3 := by
    rw [h3, List.append_cancel_left_eq] at h9
    rw [h9, ← h10]
  rw [List.append_nil] at h6
  rw [h5.frames, h6, hrest, List.append_assoc (hd ++ bd), frameEvents_cons (recordFraming_pos _) hlen hfl] at hf
  cases hf

end Verif.Conn
