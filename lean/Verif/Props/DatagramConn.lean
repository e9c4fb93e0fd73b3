import Verif.Conn.Datagram
import Verif.Conn.Receiving
import Verif.Props.FlightDelivery
import Verif.Props.Stream

/-
C79: an established DTLS connection over a network that loses, repeats and reorders datagrams.
-/

namespace Verif.Props

open Verif Verif.Crypto Verif.Messages Verif.Negotiation Verif.Handshake Verif.Machine Verif.Spec Verif.Conn Verif.Record

/-! ### Specification -/

/-- What protects a record: the epoch in its header, the AEAD under its key, the IV. -/
structure Guard where
  epoch : Nat
  aead : Aead
  iv : Bytes

/-- How the records of one end are protected after `g` key updates, `s` being its first application traffic secret: every update
has the epoch 4 (common.go:238-245, state-machine.go:134). -/
def guardOf (W : World) (cp : Params) (fromClient : Bool) (s : Bytes) (g : Nat) : Guard :=
  ⟨if g = 0 then 3 else 4, W.A cp (generation W cp fromClient s g).1, (generation W cp fromClient s g).2⟩

/-- A datagram consisting of one record of some type and content, written by any DTLS record layer that has these keys, under
whatever number. -/
def Sealed (k : Guard) (ct : UInt8) (f datagram : Bytes) : Prop :=
  ∃ (w w' : Record.Keys) (i : Nat), w.datagram = true ∧ w.direction = .write ∧ (w.heap i).epoch = k.epoch ∧
    (w.heap i).aead = some k.aead ∧ (w.heap i).iv = k.iv ∧ Record.writeRecord w i ct f 0 = .ok (datagram, w')

/-- A datagram consisting of one record, genuine or not, with another epoch in its header: one that was under way for long,
one that overtook a key update, one in the clear. -/
def Stray (epoch : Nat) (datagram : Bytes) : Prop :=
  ∃ header body, datagram = header ++ body ∧ Whole (header, body) ∧ knownType (header.getD 0 0) = true ∧
    body.length ≤ 2 ^ 14 + 256 ∧ beNat ((header.drop 3).take 2) ≠ epoch

/-- A KeyUpdate that asks for nothing, as a DTLS handshake message with some number. -/
def keyUpdateBytes (seq : Nat) : Bytes := [24, 0, 0, 1] ++ beBytes 2 seq ++ [0, 0, 0, 0, 0, 1, 0]

/-- A NewSessionTicket as a DTLS handshake message with some number. -/
def ticketBytes (seq : Nat) (body : Bytes) : Bytes :=
  4 :: beBytes 3 body.length ++ beBytes 2 seq ++ [0, 0, 0] ++ beBytes 3 body.length ++ body

/-- What may arrive at an end that has seen `g` key updates of its peer, and the application data in it: data and warnings under
the current keys, tickets (if this is the client), the next key update, and strays; each any number of times. -/
inductive Arrives (W : World) (cp : Params) (fromClient : Bool) (s : Bytes) : Nat → List Bytes → List Bytes → Prop
  | done {g} : Arrives W cp fromClient s g [] []
  | data {g d f ds fs} : Sealed (guardOf W cp fromClient s g) 23 f d → Arrives W cp fromClient s g ds fs →
      Arrives W cp fromClient s g (d :: ds) (f :: fs)
  | stray {g d ds fs} : Stray (guardOf W cp fromClient s g).epoch d → Arrives W cp fromClient s g ds fs →
      Arrives W cp fromClient s g (d :: ds) fs
  | warning {g d code ds fs} : Sealed (guardOf W cp fromClient s g) 21 [1, code] d → code ≠ 0 → Arrives W cp fromClient s g ds fs →
      Arrives W cp fromClient s g (d :: ds) fs
  | ticket {g d seq body t ds fs} : fromClient = false → toBody W.E.parses 4 body = .ok (.newSessionTicket t) →
      Sealed (guardOf W cp fromClient s g) 22 (ticketBytes seq body) d → Arrives W cp fromClient s g ds fs →
      Arrives W cp fromClient s g (d :: ds) fs
  | update {g d seq ds fs} : Sealed (guardOf W cp fromClient s g) 22 (keyUpdateBytes seq) d → Arrives W cp fromClient s (g + 1) ds fs →
      Arrives W cp fromClient s g (d :: ds) fs

/-- An end that is between records, has seen `g` key updates of its peer and can count `n` more records. -/
structure Listening (W : World) (cp : Params) (fromClient : Bool) (s : Bytes) (g n : Nat) (c : DLive) : Prop where
  params : c.st.cp = cp
  role : c.st.isClient = !fromClient
  secret : (if fromClient then c.st.clientAp else c.st.serverAp) = updates W.E.P cp.hash (trafficLabel fromClient) g s
  rest : c.hsRest = []
  idle : c.reader.frame.inBody = false ∧ c.reader.frame.target = 13 ∧ c.reader.frame.filled = [] ∧ c.reader.frame.remainder = []
  cached : c.reader.cached = none
  datagram : c.reader.keys.datagram = true
  direction : c.reader.keys.direction = .read
  epoch : (c.reader.keys.heap c.reader.keys.cur).epoch = (guardOf W cp fromClient s g).epoch
  aead : (c.reader.keys.heap c.reader.keys.cur).aead = some (guardOf W cp fromClient s g).aead
  iv : (c.reader.keys.heap c.reader.keys.cur).iv = (guardOf W cp fromClient s g).iv
  known : (c.reader.keys.readCiphers.lookup (c.reader.keys.heap c.reader.keys.cur).epoch).isSome = true
  count : ∀ i, (c.reader.keys.heap i).seq + n + 1 < 2 ^ 48

/-- Reads with room for a byte, no timer having expired, that go round their loop at least once. -/
def OnlyReads (ks : List DCall) : Prop := ∀ k ∈ ks, ∃ now fuel n, k = .read now false (fuel + 1) (n + 1)

/-- The bytes that Read returned. -/
def returned (rs : List (DCall × Reply)) : Bytes := rs.flatMap fun r => r.2.bytes

/-! ### One datagram -/

theorem readRecord_datagram {r : Reader} {h b : Bytes} {more : List (Except Err Bytes)}
    (hi : r.frame.inBody = false ∧ r.frame.target = 13 ∧ r.frame.filled = [] ∧ r.frame.remainder = []) (hc : r.cached = none)
    (hd : r.keys.datagram = true) (hw : Whole (h, b)) (hconn : r.conn = .ok (h ++ b) :: more) :
    (∀ pt k, openRecord r.keys false h b = .ok (pt, k) →
      readRecord r false = (.ok pt, { keys := k, frame := ⟨false, h, 13, [], []⟩, conn := more, cached := none })) ∧
    (∀ e, openRecord r.keys false h b = .err e →
      readRecord r false = (.err e, { keys := r.keys, frame := ⟨false, h, 13, [], []⟩, conn := more, cached := none })) := by
  obtain ⟨i1, i2, i3, i4⟩ := hi
  obtain ⟨hl, hlen⟩ := hw
  dsimp only at hl hlen
  have hf : readFrame (recordFraming true) (.ok (h ++ b) :: more) r.frame = (.frame h b, ⟨false, h, 13, [], []⟩, more) := by
    have hblock : r.frame.process (recordFraming true) = (none, r.frame) := by
      have : r.frame.needed ≠ 0 := by simp [FrameReader.needed, i2, i3, i4]
      rw [FrameReader.process, FrameReader.processN, if_neg this]
    have hp := process_idle (recordFraming true) (r.frame.addChunk (h ++ b)) h b i1 i2 i3 (by simp [FrameReader.addChunk, i4]) hl hlen
    have hne : h ++ b ≠ [] := by
      intro h0
      rw [List.append_eq_nil_iff] at h0
      rw [h0.1] at hl; simp at hl
    rw [readFrame, hblock]
    dsimp only
    rw [if_neg hne]
    have e13 : (recordFraming true).headerLen = 13 := rfl
    rw [e13] at hp
    cases more with
    | nil => rw [readFrame, hp]
    | cons x xs => rw [readFrame, hp]
  constructor
  · intro pt k ho
    simp only [readRecord, nextRecord, hc, hd, hconn, hf, ho]
  · intro e ho
    simp only [readRecord, nextRecord, hc, hd, hconn, hf, ho]

theorem readRecord_nothing {r : Reader}
    (hi : r.frame.inBody = false ∧ r.frame.target = 13 ∧ r.frame.filled = [] ∧ r.frame.remainder = []) (hc : r.cached = none)
    (hconn : r.conn = []) : readRecord r false = (.err .wouldBlock, r) := by
  obtain ⟨i1, i2, i3, i4⟩ := hi
  have hblock : ∀ d, r.frame.process d = (none, r.frame) := by
    intro d
    have : r.frame.needed ≠ 0 := by simp [FrameReader.needed, i2, i3, i4]
    rw [FrameReader.process, FrameReader.processN, if_neg this]
  obtain ⟨k, f, cn, ca⟩ := r
  dsimp only at hc hconn hblock
  subst hc hconn
  simp only [readRecord, nextRecord, readFrame, hblock]

theorem seq_shift {h : Bytes} (hl : h.length = 13) : beNat ((h.drop 3).take 8) >>> 48 = beNat ((h.drop 3).take 2) := by
  have e : (h.drop 3).take 8 = (h.drop 3).take 2 ++ ((h.drop 3).drop 2).take 6 := by
    rw [← List.take_add]
  have l6 : (((h.drop 3).drop 2).take 6).length = 6 := by simp [hl]
  rw [e, beNat_append, l6, Nat.shiftRight_eq_div_pow]
  have hlt := beNat_lt (((h.drop 3).drop 2).take 6)
  rw [l6] at hlt
  rw [show (256 : Nat) ^ 6 = 2 ^ 48 by decide] at hlt ⊢
  rw [Nat.mul_comm, Nat.mul_add_div (by decide), Nat.div_eq_of_lt hlt, Nat.add_zero]

/-- A stray is passed over. -/
theorem openRecord_stray {k : Record.Keys} {h b : Bytes} (hd : k.datagram = true) (hw : Whole (h, b))
    (ht : knownType (h.getD 0 0) = true) (hl : b.length ≤ 2 ^ 14 + 256) (he : beNat ((h.drop 3).take 2) ≠ (k.heap k.cur).epoch) :
    openRecord k false h b = .err .wouldBlock := by
  have hann : announced h = b.length := by
    have h2 := hw.2
    simp only [recordFraming, if_true, Except.ok.injEq] at h2
    have h1 : h.length = 13 := hw.1
    simp only [announced, h1]
    exact h2
  have hsel : selectCipher k false h = .err .wouldBlock := by
    unfold selectCipher
    simp only [hd, if_true]
    rw [seq_shift hw.1]
    split
    · rfl
    · rw [if_pos he]; rfl
  unfold openRecord
  rw [if_neg (by rw [ht]; simp)]
  dsimp only
  rw [hann, if_neg (by omega), hsel]
  rfl

theorem postHandshake_dtls (W : World) (now : Int) (c : DLive) (ty : UInt8) (body mid : Bytes) (hlen : body.length < 2 ^ 24)
    (hm : mid.length = 8) (n : Nat) :
    DLive.postHandshake W now (n + 2) c (ty :: beBytes 3 body.length ++ mid ++ body) = c.process W now ⟨ty, 0, body, 0, 0⟩ := by
  have h3 : (beBytes 3 body.length).length = 3 := by simp
  have hbe : beNat (beBytes 3 body.length) = body.length := beNat_beBytes_of_lt (by omega)
  have hne : ty :: beBytes 3 body.length ++ mid ++ body ≠ [] := by simp
  have hd12 : (ty :: beBytes 3 body.length ++ mid ++ body).drop 12 = body := List.drop_left' (by simp [hm])
  have hd1 : ((ty :: beBytes 3 body.length ++ mid ++ body).drop 1).take 3 = beBytes 3 body.length := by
    simp only [List.cons_append, List.drop_succ_cons, List.drop_zero, List.append_assoc]
    exact List.take_left' h3
  have hall : (ty :: beBytes 3 body.length ++ mid ++ body).drop (12 + body.length) = [] := by
    rw [← List.drop_drop, hd12, List.drop_length]
  rw [DLive.postHandshake, if_neg hne, if_neg (by simp [hm]; omega)]
  dsimp only
  rw [hd1, hbe, hd12, if_neg (by omega), List.take_length, hall]
  have hg : (ty :: beBytes 3 body.length ++ mid ++ body).getD 0 0 = ty := rfl
  rw [hg]
  rcases hp : c.process W now ⟨ty, 0, body, 0, 0⟩ with ⟨res, c'⟩
  cases res with
  | ok u =>
    simp only
    rw [DLive.postHandshake, if_pos rfl]
  | err e => rfl
  | panic => rfl
  | diverge => rfl

theorem generation_keys (W : World) (cp : Params) (b : Bool) (s : Bytes) (g : Nat) :
    keysOf W.E.P cp (dirNext W.E.P cp b (updates W.E.P cp.hash (trafficLabel b) g s)) = generation W cp b s (g + 1) ∧
    dirNext W.E.P cp b (updates W.E.P cp.hash (trafficLabel b) g s) = updates W.E.P cp.hash (trafficLabel b) (g + 1) s := by
  have h1 : dirNext W.E.P cp b (updates W.E.P cp.hash (trafficLabel b) g s) = updates W.E.P cp.hash (trafficLabel b) (g + 1) s := by
    rw [← updates_add]; rfl
  exact ⟨by rw [h1]; rfl, h1⟩

section
variable {W : World} {cp : Params} {b : Bool} {s : Bytes}

theorem sealed_opens (hl : W.Lawful) {g n : Nat} {c : DLive} (hL : Listening W cp b s g n c) {ct : UInt8} {f d : Bytes}
    (hd : Sealed (guardOf W cp b s g) ct f d) (hct : knownType ct = true) {more : List (Except Err Bytes)}
    (hconn : c.reader.conn = .ok d :: more) :
    ∃ pt r', readRecord c.reader false = (.ok pt, r') ∧ pt.contentType = ct ∧ pt.fragment = f ∧ f.length ≤ 2 ^ 14 ∧ r'.conn = more ∧
      ∀ n', n = n' + 1 → Listening W cp b s g n' { c with reader := r' } := by
  obtain ⟨w, w', i, w1, w2, w3, w4, w5, w6⟩ := hd
  have hr : Handshake.Receives c.reader w i n := by
    refine ⟨?_, hL.cached, ?_, hL.datagram, hL.direction, ?_, ?_, ?_, ?_, ?_, hL.known, hL.count⟩
    · unfold Reader.Inv
      rw [hL.datagram]
      exact ⟨by rw [hL.idle.2.2.1]; simp, fun _ => hL.idle.2.1, fun h => by rw [hL.idle.1] at h; cases h⟩
    · intro t
      simp [FrameReader.future, hL.idle.1, hL.idle.2.2.1, hL.idle.2.2.2]
    · rw [hL.aead, w4]
    · rw [hL.iv, w5]
    · rw [hL.epoch, w3]
    · rw [w3]; show (if g = 0 then 3 else 4) < 2 ^ 16; split <;> decide
    · intro a ha
      rw [w4] at ha
      cases ha
      exact hl _ _
  obtain ⟨h, bd, seq, e1, e2, e3⟩ := verdict_written false hr w1 w2 rfl rfl rfl w6 hct
  simp only [verdict, Res.bind_eq_ok, Res.ok.injEq] at e3
  obtain ⟨⟨pt, k⟩, ho, rfl⟩ := e3
  obtain ⟨j, sq, -, hshort, -, -, hk, -⟩ := openRecord_ok ho
  rw [e1] at hconn
  refine ⟨_, _, (readRecord_datagram hL.idle hL.cached hL.datagram e2 hconn).1 _ _ ho, rfl, rfl, hshort, rfl, ?_⟩
  rintro n' rfl
  have hsame : ∀ i, (k.heap i).epoch = (c.reader.keys.heap i).epoch ∧ (k.heap i).aead = (c.reader.keys.heap i).aead ∧
      (k.heap i).iv = (c.reader.keys.heap i).iv ∧ (k.heap i).seq ≤ (c.reader.keys.heap i).seq + 1 := by
    intro i
    rw [hk]
    simp only [upd]
    split
    · rename_i e; rw [e]; exact ⟨rfl, rfl, rfl, Nat.le_refl _⟩
    · exact ⟨rfl, rfl, rfl, Nat.le_succ _⟩
  have hcur : k.cur = c.reader.keys.cur := by rw [hk]
  refine ⟨hL.params, hL.role, hL.secret, hL.rest, ⟨rfl, rfl, rfl, rfl⟩, rfl, ?_, ?_, ?_, ?_, ?_, ?_, ?_⟩
  · show k.datagram = true; rw [hk]; exact hL.datagram
  · show k.direction = .read; rw [hk]; exact hL.direction
  · show (k.heap k.cur).epoch = _; rw [(hsame _).1, hcur]; exact hL.epoch
  · show (k.heap k.cur).aead = _; rw [(hsame _).2.1, hcur]; exact hL.aead
  · show (k.heap k.cur).iv = _; rw [(hsame _).2.2.1, hcur]; exact hL.iv
  · show (k.readCiphers.lookup (k.heap k.cur).epoch).isSome = true
    rw [(hsame _).1, hcur, show k.readCiphers = c.reader.keys.readCiphers by rw [hk]]
    exact hL.known
  · intro i
    show (k.heap i).seq + n' + 1 < 2 ^ 48
    have := (hsame i).2.2.2
    have := hL.count i
    omega

/-- The same connection with another read buffer or PSK cache listens too. -/
theorem Listening.congr {g n : Nat} {c c' : DLive} (hL : Listening W cp b s g n c) (h1 : c'.st = c.st) (h2 : c'.hsRest = c.hsRest)
    (h3 : c'.reader = c.reader) : Listening W cp b s g n c' := by
  refine ⟨?_, ?_, ?_, ?_, ?_, ?_, ?_, ?_, ?_, ?_, ?_, ?_, ?_⟩
  · rw [h1]; exact hL.params
  · rw [h1]; exact hL.role
  · rw [h1]; exact hL.secret
  · rw [h2]; exact hL.rest
  · rw [h3]; exact hL.idle
  · rw [h3]; exact hL.cached
  · rw [h3]; exact hL.datagram
  · rw [h3]; exact hL.direction
  · rw [h3]; exact hL.epoch
  · rw [h3]; exact hL.aead
  · rw [h3]; exact hL.iv
  · rw [h3]; exact hL.known
  · rw [h3]; exact hL.count

/-- After a key update. -/
theorem Listening.rekeyed {g n : Nat} {c : DLive} (hL : Listening W cp b s g n c) {st : Connected} (h1 : st.cp = c.st.cp)
    (h2 : st.isClient = c.st.isClient)
    (h3 : (if b then st.clientAp else st.serverAp) = updates W.E.P cp.hash (trafficLabel b) (g + 1) s) :
    Listening W cp b s (g + 1) n { c with
      st := st
      reader := { c.reader with
        keys := c.reader.keys.rekey epochUpdate (W.A cp (generation W cp b s (g + 1)).1) (generation W cp b s (g + 1)).2 } } := by
  refine ⟨h1.trans hL.params, h2.trans hL.role, h3, hL.rest, hL.idle, hL.cached, hL.datagram, hL.direction, ?_, ?_, ?_, ?_, ?_⟩
  · simp [Record.Keys.rekey, upd, guardOf, epochUpdate]
  · simp [Record.Keys.rekey, upd, guardOf]
  · simp [Record.Keys.rekey, upd, guardOf]
  · simp [Record.Keys.rekey, upd, hL.datagram, hL.direction, List.lookup_cons]
  · intro i
    simp only [Record.Keys.rekey, upd]
    have h0 := hL.count i
    split
    · show 0 + n + 1 < 2 ^ 48; omega
    · exact h0

/-- One datagram of those that may arrive. -/
theorem consume_arrives (hl : W.Lawful) (hP : W.E.P.Sized) (hs : 0 < cp.hash.size) {g n : Nat} {c : DLive} {d : Bytes}
    {ds fs : List Bytes} (hL : Listening W cp b s g (n + 1) c) (ha : Arrives W cp b s g (d :: ds) fs)
    (hconn : c.reader.conn = (d :: ds).map .ok) (now : Int) :
    ∃ g' c' fs', Listening W cp b s g' n c' ∧ Arrives W cp b s g' ds fs' ∧ c'.reader.conn = ds.map .ok ∧ c'.out = c.out ∧
      c'.readBuffer ++ fs'.flatten = c.readBuffer ++ fs.flatten ∧ c'.nonBlocking = c.nonBlocking ∧
      (c.consume W now = (.ok (), c') ∨ c.consume W now = (.err .wouldBlock, c') ∧ c'.readBuffer = c.readBuffer) := by
  rw [List.map_cons] at hconn
  cases ha with
  | @data _ _ f _ fs hd hds =>
    obtain ⟨pt, r', h1, h2, h3, hsh, h4, h5⟩ := sealed_opens hl hL hd (by decide) hconn
    refine ⟨g, { c with reader := r', readBuffer := c.readBuffer ++ f }, fs, (h5 n rfl).congr rfl rfl rfl, hds, h4, rfl, ?_, rfl, .inl ?_⟩
    · simp
    · simp [DLive.consume, h1, DLive.handle, h2, h3]
  | stray hd hds =>
    obtain ⟨h, bd, rfl, hw, ht, hlen, he⟩ := hd
    have ho := openRecord_stray hL.datagram hw ht hlen (by rw [hL.epoch]; exact he)
    have hr := (readRecord_datagram hL.idle hL.cached hL.datagram hw hconn).2 _ ho
    refine ⟨g, { c with reader := ⟨c.reader.keys, ⟨false, h, 13, [], []⟩, ds.map .ok, none⟩ }, fs, ?_, hds, rfl, rfl, rfl, rfl, .inr ⟨by simp only [DLive.consume, hr], rfl⟩⟩
    refine ⟨hL.params, hL.role, hL.secret, hL.rest, ⟨rfl, rfl, rfl, rfl⟩, rfl, hL.datagram, hL.direction, hL.epoch, hL.aead, hL.iv,
      hL.known, fun i => ?_⟩
    have := hL.count i
    show (c.reader.keys.heap i).seq + n + 1 < 2 ^ 48
    omega
  | warning hd hc hds =>
    obtain ⟨pt, r', h1, h2, h3, hsh, h4, h5⟩ := sealed_opens hl hL hd (by decide) hconn
    refine ⟨g, { c with reader := r' }, fs, h5 n rfl, hds, h4, rfl, rfl, rfl, .inl ?_⟩
    simp only [DLive.consume, h1, DLive.handle, h2, h3]
    rw [if_neg (by decide), if_pos trivial, if_neg hc, if_pos trivial]
  | @ticket _ _ seq body t _ _ hb hbody hd hds =>
    obtain ⟨pt, r', h1, h2, h3, hsh, h4, h5⟩ := sealed_opens hl hL hd (by decide) hconn
    have hblen : body.length < 2 ^ 24 := by
      simp only [ticketBytes, List.length_cons, List.length_append] at hsh
      omega
    have hhs : ({ c with reader := r' } : DLive).handle W now 22 (ticketBytes seq body) =
        ({ c with reader := r' } : DLive).process W now ⟨4, 0, body, 0, 0⟩ := by
      unfold DLive.handle
      rw [if_pos rfl]
      have e1 : ticketBytes seq body = 4 :: beBytes 3 body.length ++ (beBytes 2 seq ++ [0, 0, 0] ++ beBytes 3 body.length) ++ body := by
        simp [ticketBytes]
      have e2 : (ticketBytes seq body).length + 1 = (body.length + 11) + 2 := by simp [ticketBytes]; omega
      rw [e2, e1]
      exact postHandshake_dtls W now _ _ _ _ hblen (by simp) _
    have hrole : c.st.isClient = true := by rw [hL.role, hb]; rfl
    obtain ⟨psk, hpsk⟩ : ∃ psk, ticketPsk W.E.P c.st now t = .ok psk := by
      simp only [ticketPsk, hkdfExpandLabel_eq W.E.P hP _ (hL.params ▸ hs : 0 < c.st.cp.hash.size), Res.bind_ok]
      exact ⟨_, rfl⟩
    have hproc : c.st.process W.E c.x now ⟨4, 0, body, 0, 0⟩ = .ok (c.st, [.storePsk psk], c.x) := by
      simp only [Connected.process, hbody, orAlert, Res.bind_ok, hrole, hpsk, Bool.not_true, Bool.false_eq_true, if_false]
    refine ⟨g, { c with
        reader := r'
        stored := c.stored ++ [(if c.st.isClient then c.serverName else hexString psk.identity, psk)] }, fs,
      (h5 n rfl).congr rfl rfl rfl, hds, h4, rfl, rfl, rfl, .inl ?_⟩
    have : c.consume W now = ({ c with reader := r' } : DLive).handle W now 22 (ticketBytes seq body) := by
      simp only [DLive.consume, h1, h2, h3]
    rw [this, hhs]
    simp only [DLive.process, hproc]
    rfl
  | @update _ _ seq _ _ hd hds =>
    obtain ⟨pt, r', h1, h2, h3, hsh, h4, h5⟩ := sealed_opens hl hL hd (by decide) hconn
    have hhs : ({ c with reader := r' } : DLive).handle W now 22 (keyUpdateBytes seq) =
        ({ c with reader := r' } : DLive).process W now ⟨24, 0, [0], 0, 0⟩ := by
      unfold DLive.handle
      rw [if_pos rfl]
      have e1 : keyUpdateBytes seq = 24 :: beBytes 3 ([0] : Bytes).length ++ (beBytes 2 seq ++ [0, 0, 0, 0, 0, 1]) ++ [0] := by
        simp [keyUpdateBytes, beBytes]
      have e2 : (keyUpdateBytes seq).length + 1 = 12 + 2 := by simp [keyUpdateBytes]
      rw [e2, e1]
      exact postHandshake_dtls W now _ 24 [0] _ (by decide) (by simp) 12
    obtain ⟨s', rest, x', he, hcp, hic, hrd, hrest⟩ := process_update hP c.x c.st (hL.params ▸ hs) now (m := ⟨24, 0, [0], 0, 0⟩)
      (keyUpdate_toBody W.E 0)
    rcases hrest with ⟨-, rfl, -⟩ | ⟨h0, -⟩
    · have hrole : (!c.st.isClient) = b := by rw [hL.role]; simp
      rw [hrole, hL.params] at hrd he
      have hsec : dirSecret b c.st = updates W.E.P cp.hash (trafficLabel b) g s := hL.secret
      rw [hsec] at hrd he
      obtain ⟨k1, k2⟩ := generation_keys W cp b s g
      rw [k1] at he
      rw [k2] at hrd
      have hL' := (h5 n rfl).rekeyed (st := s') hcp hic hrd
      refine ⟨g + 1, { c with
          x := x'
          st := s'
          reader := { r' with
            keys := r'.keys.rekey epochUpdate (W.A cp (generation W cp b s (g + 1)).1) (generation W cp b s (g + 1)).2 } }, fs,
        hL'.congr rfl rfl rfl, hds, h4, rfl, rfl, rfl, .inl ?_⟩
      have : c.consume W now = ({ c with reader := r' } : DLive).handle W now 22 (keyUpdateBytes seq) := by
        simp only [DLive.consume, h1, h2, h3]
      rw [this, hhs]
      simp only [DLive.process, he, DLive.takeAll, DLive.takeAction, hL.rest, hL.params]
      rfl
    · exact absurd h0 (by decide)

theorem consume_nothing {g n : Nat} {c : DLive} (hL : Listening W cp b s g n c) (hconn : c.reader.conn = []) (now : Int) :
    c.consume W now = (.err .wouldBlock, c) := by
  simp only [DLive.consume, readRecord_nothing hL.idle hL.cached hconn]

section
variable (hl : W.Lawful) (hP : W.E.P.Sized) (hs : 0 < cp.hash.size)
include hl hP hs

theorem readLoop_arrives (now : Int) (fuel : Nat) {g : Nat} {c : DLive} {ds fs : List Bytes} (hL : Listening W cp b s g ds.length c)
    (ha : Arrives W cp b s g ds fs) (hconn : c.reader.conn = ds.map .ok) :
    ∃ g' c' ds' fs', Listening W cp b s g' ds'.length c' ∧ Arrives W cp b s g' ds' fs' ∧ c'.reader.conn = ds'.map .ok ∧ c'.out = c.out ∧
      c'.readBuffer ++ fs'.flatten = c.readBuffer ++ fs.flatten ∧ ds'.length ≤ ds.length ∧
      ((DLive.readLoop W now fuel c = (.ok (), c') ∧ c'.readBuffer ≠ []) ∨
       (DLive.readLoop W now fuel c = (.err .wouldBlock, c') ∧ c'.readBuffer = [] ∧ (0 < fuel → ds' = [] ∨ ds'.length < ds.length))) := by
  induction fuel generalizing g c ds fs with
  | zero =>
    refine ⟨g, c, ds, fs, hL, ha, hconn, rfl, rfl, Nat.le_refl _, ?_⟩
    by_cases hb : c.readBuffer = []
    · exact .inr ⟨by rw [DLive.readLoop, if_pos hb], hb, fun h => absurd h (by omega)⟩
    · exact .inl ⟨by rw [DLive.readLoop, if_neg hb], hb⟩
  | succ fuel ih =>
    by_cases hb : c.readBuffer = []
    · cases ds with
      | nil =>
        have hc := consume_nothing (W := W) hL hconn now
        by_cases hnb : c.nonBlocking = true
        · refine ⟨g, c, [], fs, hL, ha, hconn, rfl, rfl, Nat.le_refl _, .inr ⟨?_, hb, fun _ => .inl rfl⟩⟩
          rw [DLive.readLoop, if_pos hb, hc]
          dsimp only
          rw [if_pos (.inl hnb)]
        · obtain ⟨g', c', ds', fs', i1, i2, i3, i4, i5, i6, i7⟩ := ih hL ha hconn
          have hds : ds' = [] := List.eq_nil_of_length_eq_zero (Nat.le_zero.mp i6)
          have he : DLive.readLoop W now (fuel + 1) c = DLive.readLoop W now fuel c := by
            rw [DLive.readLoop, if_pos hb, hc]
            dsimp only
            rw [if_neg (by simp [hnb])]
          refine ⟨g', c', ds', fs', i1, i2, i3, i4, i5, i6, ?_⟩
          rw [he]
          rcases i7 with i7 | ⟨i7, i8, -⟩
          · exact .inl i7
          · exact .inr ⟨i7, i8, fun _ => .inl hds⟩
      | cons d ds =>
        obtain ⟨g1, c1, fs1, j1, j2, j3, j4, j5, j6, j7⟩ := consume_arrives hl hP hs hL ha hconn now
        obtain ⟨g', c', ds', fs', i1, i2, i3, i4, i5, i6, i7⟩ := ih j1 j2 j3
        have hlt : ds'.length < (d :: ds).length := by rw [List.length_cons]; omega
        rcases j7 with j7 | ⟨j7, j8⟩
        · have he : DLive.readLoop W now (fuel + 1) c = DLive.readLoop W now fuel c1 := by
            rw [DLive.readLoop, if_pos hb, j7]
          refine ⟨g', c', ds', fs', i1, i2, i3, i4.trans j4, i5.trans j5, by omega, ?_⟩
          rw [he]
          rcases i7 with i7 | ⟨i7, i8, -⟩
          · exact .inl i7
          · exact .inr ⟨i7, i8, fun _ => .inr hlt⟩
        · by_cases hnb : c.nonBlocking = true
          · refine ⟨g1, c1, ds, fs1, j1, j2, j3, j4, j5, by simp, .inr ⟨?_, j8.trans hb, fun _ => .inr (by simp)⟩⟩
            rw [DLive.readLoop, if_pos hb, j7]
            dsimp only
            rw [if_pos (.inl hnb)]
          · have he : DLive.readLoop W now (fuel + 1) c = DLive.readLoop W now fuel c1 := by
              rw [DLive.readLoop, if_pos hb, j7]
              dsimp only
              rw [if_neg (by simp [hnb])]
            refine ⟨g', c', ds', fs', i1, i2, i3, i4.trans j4, i5.trans j5, by omega, ?_⟩
            rw [he]
            rcases i7 with i7 | ⟨i7, i8, -⟩
            · exact .inl i7
            · exact .inr ⟨i7, i8, fun _ => .inr hlt⟩
    · refine ⟨g, c, ds, fs, hL, ha, hconn, rfl, rfl, Nat.le_refl _, .inl ⟨by rw [DLive.readLoop, if_neg hb], hb⟩⟩

theorem call_arrives (now : Int) (fuel n : Nat) {g : Nat} {c : DLive} {ds fs : List Bytes} (hL : Listening W cp b s g ds.length c)
    (ha : Arrives W cp b s g ds fs) (hconn : c.reader.conn = ds.map .ok) :
    ∃ g' c' ds' fs' rep, Listening W cp b s g' ds'.length c' ∧ Arrives W cp b s g' ds' fs' ∧ c'.reader.conn = ds'.map .ok ∧
      c'.out = c.out ∧ c.readBuffer ++ fs.flatten = rep.bytes ++ (c'.readBuffer ++ fs'.flatten) ∧
      c.call W (.read now false (fuel + 1) (n + 1)) = (.ok rep, c') ∧ ds'.length ≤ ds.length ∧
      ((rep.error = none ∧ rep.bytes ≠ []) ∨
       (rep.error = some .wouldBlock ∧ rep.bytes = [] ∧ c'.readBuffer = [] ∧ (ds' = [] ∨ ds'.length < ds.length))) := by
  obtain ⟨g', c', ds', fs', i1, i2, i3, i4, i5, i6, i7⟩ := readLoop_arrives hl hP hs now (fuel + 1) hL ha hconn
  have ht : c.checkTimers false = (.ok (), c) := by simp [DLive.checkTimers]
  rcases i7 with ⟨i7, i8⟩ | ⟨i7, i8, i9⟩
  · refine ⟨g', { c' with readBuffer := c'.readBuffer.drop (n + 1) }, ds', fs', { bytes := c'.readBuffer.take (n + 1) },
      i1.congr rfl rfl rfl, i2, i3, i4, ?_, ?_, i6, .inl ⟨rfl, ?_⟩⟩
    · rw [← i5]; simp [← List.append_assoc]
    · simp [DLive.call, DLive.read, ht, i7]
    · intro h0
      have : c'.readBuffer.take (n + 1) = [] := h0
      rw [List.take_eq_nil_iff] at this
      rcases this with h | h
      · cases h
      · exact i8 h
  · refine ⟨g', c', ds', fs', { error := some .wouldBlock }, i1, i2, i3, i4, i5.symm, ?_, i6, .inr ⟨rfl, rfl, i8, i9 (by omega)⟩⟩
    simp [DLive.call, DLive.read, ht, i7]

theorem calls_arrives (ks : List DCall) (hks : OnlyReads ks) {g : Nat} {c : DLive} {ds fs : List Bytes}
    (hL : Listening W cp b s g ds.length c) (ha : Arrives W cp b s g ds fs) (hconn : c.reader.conn = ds.map .ok) :
    (DLive.calls W c ks).1.length = ks.length ∧
    (∀ r ∈ (DLive.calls W c ks).1, r.2.error = none ∨ r.2.error = some .wouldBlock) ∧
    returned (DLive.calls W c ks).1 <+: c.readBuffer ++ fs.flatten ∧
    (ds.length + (c.readBuffer ++ fs.flatten).length ≤ ks.length → returned (DLive.calls W c ks).1 = c.readBuffer ++ fs.flatten) ∧
    (DLive.calls W c ks).2.out = c.out := by
  induction ks generalizing g c ds fs with
  | nil =>
    refine ⟨rfl, by simp [DLive.calls], by simp [DLive.calls, returned], fun hz => ?_, rfl⟩
    have : (c.readBuffer ++ fs.flatten).length = 0 := by simp only [List.length_nil] at hz; omega
    rw [List.eq_nil_of_length_eq_zero this]
    rfl
  | cons k ks ih =>
    obtain ⟨now, fuel, n, rfl⟩ := hks k (by simp)
    obtain ⟨g', c', ds', fs', rep, i1, i2, i3, i4, i5, i6, i7, i8⟩ := call_arrives hl hP hs now fuel n hL ha hconn
    obtain ⟨j1, j2, j3, j4, j5⟩ := ih (fun k hk => hks k (by simp [hk])) i1 i2 i3
    have hg : (DLive.calls W c (.read now false (fuel + 1) (n + 1) :: ks)) =
        ((.read now false (fuel + 1) (n + 1), rep) :: (DLive.calls W c' ks).1, (DLive.calls W c' ks).2) := by
      rw [DLive.calls, i6]
    rw [hg]
    refine ⟨by simp [j1], ?_, ?_, fun hlen => ?_, j5.trans i4⟩
    · intro r hr
      rcases List.mem_cons.mp hr with rfl | hr
      · rcases i8 with ⟨h, -⟩ | ⟨h, -⟩
        · exact .inl h
        · exact .inr h
      · exact j2 r hr
    · show rep.bytes ++ returned _ <+: _
      rw [i5]
      exact (List.prefix_append_right_inj _).2 j3
    · show rep.bytes ++ returned _ = _
      rw [i5]
      congr 1
      rw [i5] at hlen
      simp only [List.length_append, List.length_cons] at hlen
      rcases i8 with ⟨-, h⟩ | ⟨-, h, hb, h'⟩
      · have : 0 < rep.bytes.length := List.length_pos_iff.2 h
        refine j4 ?_
        simp only [List.length_append]
        omega
      · rcases h' with rfl | h'
        · have hfs : fs' = [] := by cases i2; rfl
          rw [hb, hfs] at j3 ⊢
          simpa using j3
        · refine j4 ?_
          simp only [List.length_append]
          omega

end

end

/-! ### What is written -/

/-- An end whose records are protected as those of a peer after `g` updates. -/
structure Speaking (W : World) (cp : Params) (fromClient : Bool) (s : Bytes) (g : Nat) (c : DLive) : Prop where
  datagram : c.out.keys.datagram = true
  direction : c.out.keys.direction = .write
  epoch : (c.out.keys.heap c.out.keys.cur).epoch = (guardOf W cp fromClient s g).epoch
  aead : (c.out.keys.heap c.out.keys.cur).aead = some (guardOf W cp fromClient s g).aead
  iv : (c.out.keys.heap c.out.keys.cur).iv = (guardOf W cp fromClient s g).iv

theorem writeRecord_speaking {W : World} {cp : Params} {b : Bool} {s : Bytes} {g : Nat} {c c' : DLive} {ct : UInt8} {f : Bytes}
    (h : Speaking W cp b s g c) (hw : c.writeRecord ct f = (.ok (), c')) :
    ∃ d, c'.datagrams = c.datagrams ++ [d] ∧ Sealed (guardOf W cp b s g) ct f d ∧ Speaking W cp b s g c' := by
  unfold DLive.writeRecord DLive.sends at hw
  split at hw
  · rename_i o ho
    simp only [Out.op, Out.emit, Res.bind_eq_ok, Res.ok.injEq] at ho
    obtain ⟨⟨rec, k⟩, hrec, rfl⟩ := ho
    split at hw
    · simp at hw
    · simp only [Prod.mk.injEq, true_and] at hw
      subst hw
      obtain ⟨-, -, -, -, -, hk, -⟩ := writeRecord_ok hrec
      refine ⟨rec, by simp [DLive.datagrams], ⟨_, _, _, h.datagram, h.direction, h.epoch, h.aead, h.iv, hrec⟩, ?_⟩
      refine ⟨?_, ?_, ?_, ?_, ?_⟩
      · show k.datagram = true; rw [hk]; exact h.datagram
      · show k.direction = .write; rw [hk]; exact h.direction
      · show (k.heap k.cur).epoch = _; rw [hk]; simp only [upd, if_true]; exact h.epoch
      · show (k.heap k.cur).aead = _; rw [hk]; simp only [upd, if_true]; exact h.aead
      · show (k.heap k.cur).iv = _; rw [hk]; simp only [upd, if_true]; exact h.iv
  · simp at hw
  · simp at hw
  · simp at hw

theorem writeRecord_fails {c c' : DLive} {ct : UInt8} {f : Bytes} {r : Res Unit} (hw : c.writeRecord ct f = (r, c')) (hr : r ≠ .ok ()) :
    c' = c := by
  unfold DLive.writeRecord DLive.sends at hw
  split at hw
  · split at hw
    · exact (Prod.mk.inj hw).2.symm
    · exact absurd (Prod.mk.inj hw).1.symm hr
  · exact (Prod.mk.inj hw).2.symm
  · exact (Prod.mk.inj hw).2.symm
  · exact (Prod.mk.inj hw).2.symm

theorem writeAll_speaking {W : World} {cp : Params} {b : Bool} {s : Bytes} {g : Nat} (fs : List Bytes) (sent : Nat) {c : DLive}
    (h : Speaking W cp b s g c) {n : Nat} {e : Option Err} {c' : DLive} (hw : c.writeAll fs sent = (.ok (n, e), c')) :
    ∃ ds gs rest, gs ++ rest = fs ∧ n = sent + gs.flatten.length ∧ c'.datagrams = c.datagrams ++ ds ∧
      List.Forall₂ (fun d f => Sealed (guardOf W cp b s g) 23 f d) ds gs ∧ Speaking W cp b s g c' := by
  induction fs generalizing c sent with
  | nil =>
    simp only [DLive.writeAll, Prod.mk.injEq, Res.ok.injEq] at hw
    obtain ⟨⟨rfl, rfl⟩, rfl⟩ := hw
    exact ⟨[], [], [], rfl, rfl, by simp, .nil, h⟩
  | cons f fs ih =>
    rw [DLive.writeAll] at hw
    split at hw
    · rename_i c1 h1
      obtain ⟨d, d1, d2, d3⟩ := writeRecord_speaking h h1
      obtain ⟨ds, gs, rest, e1, e2, e3, e4, e5⟩ := ih _ d3 hw
      refine ⟨d :: ds, f :: gs, rest, by simp [e1], ?_, by rw [e3, d1]; simp, .cons d2 e4, e5⟩
      rw [e2]; simp; omega
    · rename_i e1 c1 h1
      simp only [Prod.mk.injEq, Res.ok.injEq] at hw
      obtain ⟨⟨rfl, -⟩, rfl⟩ := hw
      have := writeRecord_fails h1 (by simp)
      subst this
      exact ⟨[], [], f :: fs, rfl, rfl, by simp, .nil, h⟩
    · simp at hw
    · simp at hw

theorem fragments_flatten (n : Nat) (b : Bytes) : (fragments n b).flatten = b := by
  induction n generalizing b with
  | zero => rw [fragments]; split <;> simp_all
  | succ n ih =>
    rw [fragments]
    split
    · simp [ih]
    · split <;> simp_all

/-- Whatever Write reports as written is on the wire, in datagrams of their own. -/
theorem write_speaking {W : World} {cp : Params} {b : Bool} {s : Bytes} {g : Nat} {c c' : DLive} {data : Bytes} {rep : Reply}
    (h : Speaking W cp b s g c) (hw : c.call W (.write data) = (.ok rep, c')) :
    ∃ ds gs, gs.flatten = rep.wrote ∧ c'.datagrams = c.datagrams ++ ds ∧
      List.Forall₂ (fun d f => Sealed (guardOf W cp b s g) 23 f d) ds gs ∧ Speaking W cp b s g c' := by
  simp only [DLive.call] at hw
  split at hw
  · rename_i n e c1 h1
    simp only [Prod.mk.injEq, Res.ok.injEq] at hw
    obtain ⟨rfl, rfl⟩ := hw
    obtain ⟨ds, gs, rest, e1, e2, e3, e4, e5⟩ := writeAll_speaking _ _ h h1
    refine ⟨ds, gs, ?_, e3, e4, e5⟩
    have hb : gs.flatten ++ rest.flatten = data := by
      rw [← List.flatten_append, e1, fragments_flatten]
    show gs.flatten = data.take n
    rw [← hb, e2, Nat.zero_add, List.take_left' rfl]
  · rename_i e c1 h1
    exfalso
    have : ∀ (fs : List Bytes) (k : Nat) (c : DLive), (c.writeAll fs k).1 ≠ .err e := by
      intro fs
      induction fs with
      | nil => simp [DLive.writeAll]
      | cons f fs ih =>
        intro k c
        rw [DLive.writeAll]
        split
        · exact ih _ _
        · simp
        · simp
        · simp
    exact this _ _ _ (by rw [DLive.write] at h1; rw [h1])
  · simp at hw
  · simp at hw

theorem writes_speaking {W : World} {cp : Params} {b : Bool} {s : Bytes} {g : Nat} (bufs : List Bytes) {c : DLive}
    (h : Speaking W cp b s g c) (hret : (DLive.calls W c (bufs.map .write)).1.length = bufs.length) :
    ∃ ds gs, gs.flatten = (DLive.calls W c (bufs.map .write)).1.flatMap (fun r => r.2.wrote) ∧
      (DLive.calls W c (bufs.map .write)).2.datagrams = c.datagrams ++ ds ∧
      List.Forall₂ (fun d f => Sealed (guardOf W cp b s g) 23 f d) ds gs := by
  induction bufs generalizing c with
  | nil => exact ⟨[], [], rfl, by simp [DLive.calls], .nil⟩
  | cons x bufs ih =>
    rw [List.map_cons, DLive.calls] at hret ⊢
    split at hret
    · rename_i rep c1 h1
      dsimp only at hret ⊢
      obtain ⟨ds, gs, e1, e2, e3, e4⟩ := write_speaking h h1
      obtain ⟨ds', gs', i1, i2, i3⟩ := ih e4 (by simpa using hret)
      refine ⟨ds ++ ds', gs ++ gs', by simp [e1, i1], by rw [i2, e2]; simp, ?_⟩
      exact List.rel_append e3 i3
    · simp at hret

theorem start_listening {W : World} {st : Connected} {x : Ctx} {nb : Bool} {sn : Bytes} {ho hi o i : Machine.Keys} {b : Bool}
    {conn : List (Except Err Bytes)} (n : Nat) (hn : n + 1 < 2 ^ 48) (hr : st.isClient = !b)
    (h : i = keysOf W.E.P st.cp (if b then st.clientAp else st.serverAp)) :
    Listening W st.cp b (if b then st.clientAp else st.serverAp) 0 n (DLive.start W st x nb sn ho hi o i conn) := by
  refine ⟨rfl, hr, rfl, rfl, ⟨rfl, rfl, rfl, rfl⟩, rfl, rfl, rfl, ?_, ?_, ?_, ?_, ?_⟩
  · simp [DLive.start, Record.Keys.rekey, guardOf, epochApplication]
  · simp [DLive.start, Record.Keys.rekey, guardOf, h]; rfl
  · simp [DLive.start, Record.Keys.rekey, guardOf, h]; rfl
  · simp [DLive.start, Record.Keys.rekey, Record.Keys.new, epochApplication]
  · intro j
    simp only [DLive.start, Record.Keys.rekey, Record.Keys.new, upd]
    split
    · show 0 + n + 1 < 2 ^ 48; omega
    · split
      · show 0 + n + 1 < 2 ^ 48; omega
      · show 0 + n + 1 < 2 ^ 48; omega

theorem start_speaking {W : World} {st : Connected} {x : Ctx} {nb : Bool} {sn : Bytes} {ho hi o i : Machine.Keys} {b : Bool}
    {conn : List (Except Err Bytes)} (h : o = keysOf W.E.P st.cp (if b then st.clientAp else st.serverAp)) :
    Speaking W st.cp b (if b then st.clientAp else st.serverAp) 0 (DLive.start W st x nb sn ho hi o i conn) := by
  refine ⟨rfl, rfl, ?_, ?_, ?_⟩
  · simp [DLive.start, Record.Keys.rekey, guardOf, epochApplication]
  · simp [DLive.start, Record.Keys.rekey, guardOf, h]; rfl
  · simp [DLive.start, Record.Keys.rekey, guardOf, h]; rfl

/-! ### C79 -/

/-- Whatever is lost, repeated or reordered among the datagrams of an end, and whatever other records with other epochs are
inserted: as long as what arrives is as `Arrives` says, the Reads of its peer return the application data in it, in the order
in which it arrived, all of it if there are enough Reads, and fail no otherwise than by saying that there is nothing yet. This
includes any number of key updates that arrive before the data protected by the new keys. Missing: records under the previous
keys after the second update, key updates that ask for an answer, acknowledgements, an expired timer. -/
theorem C79_reads_partial (W : World) (hl : W.Lawful) (hP : W.E.P.Sized) (cp : Params) (hs : 0 < cp.hash.size) (fromClient : Bool)
    (s : Bytes) (g : Nat) (c : DLive) (ds fs : List Bytes) (hL : Listening W cp fromClient s g ds.length c)
    (ha : Arrives W cp fromClient s g ds fs) (ks : List DCall) (hks : OnlyReads ks) :
    ((c.arrives ds).calls W ks).1.length = ks.length ∧
    (∀ r ∈ ((c.arrives ds).calls W ks).1, r.2.error = none ∨ r.2.error = some .wouldBlock) ∧
    returned ((c.arrives ds).calls W ks).1 <+: c.readBuffer ++ fs.flatten ∧
    (ds.length + (c.readBuffer ++ fs.flatten).length ≤ ks.length →
      returned ((c.arrives ds).calls W ks).1 = c.readBuffer ++ fs.flatten) := by
  have hL' : Listening W cp fromClient s g ds.length (c.arrives ds) :=
    ⟨hL.params, hL.role, hL.secret, hL.rest, hL.idle, hL.cached, hL.datagram, hL.direction, hL.epoch, hL.aead, hL.iv, hL.known, hL.count⟩
  obtain ⟨h1, h2, h3, h4, -⟩ := calls_arrives (c := c.arrives ds) hl hP hs ks hks hL' ha rfl
  exact ⟨h1, h2, h3, h4⟩

/-- Reading sends nothing: no KeyUpdate and no ticket is ever acknowledged, though RFC 9147, 7 and 8 require it. So the peer
keeps them in its queue and sends them again whenever its timer expires. -/
theorem C79_unacknowledged_fails (W : World) (hl : W.Lawful) (hP : W.E.P.Sized) (cp : Params) (hs : 0 < cp.hash.size)
    (fromClient : Bool) (s : Bytes) (g : Nat) (c : DLive) (ds fs : List Bytes) (hL : Listening W cp fromClient s g ds.length c)
    (ha : Arrives W cp fromClient s g ds fs) (ks : List DCall) (hks : OnlyReads ks) :
    ((c.arrives ds).calls W ks).2.datagrams = c.datagrams := by
  have hL' : Listening W cp fromClient s g ds.length (c.arrives ds) :=
    ⟨hL.params, hL.role, hL.secret, hL.rest, hL.idle, hL.cached, hL.datagram, hL.direction, hL.epoch, hL.aead, hL.iv, hL.known, hL.count⟩
  obtain ⟨-, -, -, -, h⟩ := calls_arrives (c := c.arrives ds) hl hP hs ks hks hL' ha rfl
  show List.map _ _ = _
  rw [h]
  rfl

theorem arrives_data {W : World} {cp : Params} {b : Bool} {s : Bytes} {g : Nat} {ds gs : List Bytes}
    (h : List.Forall₂ (fun d f => Sealed (guardOf W cp b s g) 23 f d) ds gs) : Arrives W cp b s g ds gs := by
  induction h with
  | nil => exact .done
  | cons h _ ih => exact .data h ih

theorem forall₂_select {R : Bytes → Bytes → Prop} {ds gs : List Bytes} (h : List.Forall₂ R ds gs) (idx : List Nat)
    (hidx : ∀ i ∈ idx, i < ds.length) : List.Forall₂ R (idx.map fun i => ds.getD i []) (idx.map fun i => gs.getD i []) := by
  induction idx with
  | nil => exact .nil
  | cons i idx ih =>
    refine .cons ?_ (ih fun j hj => hidx j (by simp [hj]))
    have hi := hidx i (by simp)
    have hi' : i < gs.length := by rw [← h.length_eq]; exact hi
    have := h.get hi hi'
    simpa [List.getD_eq_getElem?_getD, List.getElem?_eq_getElem hi, List.getElem?_eq_getElem hi'] using this

/-- From a client to a server. The client's Writes put what they report into datagrams; the network delivers any selection of
these, in any order, each as often as it likes. The server's Reads return what is in the datagrams that were delivered, in the
order of delivery; they do not fail, and enough of them return everything. Missing: key updates (one: C79_update_to_server_partial). -/
theorem C79_to_server_partial (W : World) (hl : W.Lawful) (hP : W.E.P.Sized) (cl sv : Connected) (co ci so si : Machine.Keys)
    (h : Established W cl sv co ci so si) (x y : Ctx) (nb nb' : Bool) (sn sn' : Bytes) (ho hi ho' hi' : Machine.Keys)
    (conn : List (Except Err Bytes)) (bufs : List Bytes)
    (hret : ((DLive.start W cl x nb sn ho hi co ci conn).calls W (bufs.map .write)).1.length = bufs.length) :
    ∃ gs : List Bytes, gs.flatten = ((DLive.start W cl x nb sn ho hi co ci conn).calls W (bufs.map .write)).1.flatMap (fun r => r.2.wrote) ∧
      gs.length = ((DLive.start W cl x nb sn ho hi co ci conn).calls W (bufs.map .write)).2.datagrams.length ∧
      ∀ (idx : List Nat) (ks : List DCall), (∀ i ∈ idx, i < gs.length) → idx.length + 1 < 2 ^ 48 → OnlyReads ks →
        let ds := idx.map fun i => ((DLive.start W cl x nb sn ho hi co ci conn).calls W (bufs.map .write)).2.datagrams.getD i []
        let reads := ((DLive.start W sv y nb' sn' ho' hi' so si []).arrives ds).calls W ks
        let got := (idx.map fun i => gs.getD i []).flatten
        reads.1.length = ks.length ∧ (∀ r ∈ reads.1, r.2.error = none ∨ r.2.error = some .wouldBlock) ∧
        returned reads.1 <+: got ∧ (idx.length + got.length ≤ ks.length → returned reads.1 = got) := by
  obtain ⟨hz, hc, hs, e1, e2, e3, e4⟩ := h.ends hP
  have hsp : Speaking W cl.cp true cl.clientAp 0 (DLive.start W cl x nb sn ho hi co ci conn) := start_speaking (b := true) e1
  obtain ⟨ds, gs, g1, g2, g3⟩ := writes_speaking bufs hsp hret
  have g2' : ((DLive.start W cl x nb sn ho hi co ci conn).calls W (bufs.map .write)).2.datagrams = ds := by
    rw [g2]; rfl
  refine ⟨gs, g1, by rw [g2', g3.length_eq], ?_⟩
  intro idx ks hidx hlen hks
  rw [g2']
  have hsel := arrives_data (forall₂_select g3 idx (by rw [g3.length_eq]; exact hidx))
  have hL := start_listening (W := W) (st := sv) (x := y) (nb := nb') (sn := sn') (ho := ho') (hi := hi') (o := so) (i := si) (b := true)
    (conn := []) (idx.map fun i => ds.getD i []).length (by simpa using hlen) hs (by
      rw [← h.suite, if_pos rfl, ← h.client]; exact e4)
  rw [if_pos rfl, ← h.suite, ← h.client] at hL
  have := C79_reads_partial W hl hP cl.cp hz true cl.clientAp 0 _ _ _ hL hsel ks hks
  simpa [DLive.start] using this

/-- The same from a server to a client. -/
theorem C79_to_client_partial (W : World) (hl : W.Lawful) (hP : W.E.P.Sized) (cl sv : Connected) (co ci so si : Machine.Keys)
    (h : Established W cl sv co ci so si) (x y : Ctx) (nb nb' : Bool) (sn sn' : Bytes) (ho hi ho' hi' : Machine.Keys)
    (conn : List (Except Err Bytes)) (bufs : List Bytes)
    (hret : ((DLive.start W sv y nb' sn' ho' hi' so si conn).calls W (bufs.map .write)).1.length = bufs.length) :
    ∃ gs : List Bytes, gs.flatten = ((DLive.start W sv y nb' sn' ho' hi' so si conn).calls W (bufs.map .write)).1.flatMap (fun r => r.2.wrote) ∧
      gs.length = ((DLive.start W sv y nb' sn' ho' hi' so si conn).calls W (bufs.map .write)).2.datagrams.length ∧
      ∀ (idx : List Nat) (ks : List DCall), (∀ i ∈ idx, i < gs.length) → idx.length + 1 < 2 ^ 48 → OnlyReads ks →
        let ds := idx.map fun i => ((DLive.start W sv y nb' sn' ho' hi' so si conn).calls W (bufs.map .write)).2.datagrams.getD i []
        let reads := ((DLive.start W cl x nb sn ho hi co ci []).arrives ds).calls W ks
        let got := (idx.map fun i => gs.getD i []).flatten
        reads.1.length = ks.length ∧ (∀ r ∈ reads.1, r.2.error = none ∨ r.2.error = some .wouldBlock) ∧
        returned reads.1 <+: got ∧ (idx.length + got.length ≤ ks.length → returned reads.1 = got) := by
  obtain ⟨hz, hc, hs, e1, e2, e3, e4⟩ := h.ends hP
  have hsp := start_speaking (W := W) (st := sv) (x := y) (nb := nb') (sn := sn') (ho := ho') (hi := hi') (o := so) (i := si) (b := false)
    (conn := conn) (by rw [if_neg (by simp), ← h.suite, ← h.server]; exact e3)
  rw [if_neg (by simp), ← h.suite, ← h.server] at hsp
  obtain ⟨ds, gs, g1, g2, g3⟩ := writes_speaking bufs hsp hret
  have g2' : ((DLive.start W sv y nb' sn' ho' hi' so si conn).calls W (bufs.map .write)).2.datagrams = ds := by
    rw [g2]; rfl
  refine ⟨gs, g1, by rw [g2', g3.length_eq], ?_⟩
  intro idx ks hidx hlen hks
  rw [g2']
  have hsel := arrives_data (forall₂_select g3 idx (by rw [g3.length_eq]; exact hidx))
  have hL := start_listening (W := W) (st := cl) (x := x) (nb := nb) (sn := sn) (ho := ho) (hi := hi) (o := co) (i := ci) (b := false)
    (conn := []) (idx.map fun i => ds.getD i []).length (by simpa using hlen) hc e2
  have := C79_reads_partial W hl hP cl.cp hz false cl.serverAp 0 _ _ _ hL hsel ks hks
  simpa [DLive.start] using this

/-! ### Where it fails -/

/-- One record with the current epoch that the AEAD rejects, and Read fails: with an error of its own, not as if nothing had
arrived. RFC 9147, 4.5.2: such records should be silently discarded. Anyone who can send a datagram can do this. -/
theorem C79_rejected_fails (W : World) (cp : Params) (fromClient : Bool) (s : Bytes) (g n : Nat) (c : DLive)
    (hL : Listening W cp fromClient s g n c) (header body nonce : Bytes) (more : List Bytes) (hw : Whole (header, body))
    (ht : knownType (header.getD 0 0) = true) (hlen : body.length ≤ 2 ^ 14 + 256)
    (hep : beNat ((header.drop 3).take 2) = (guardOf W cp fromClient s g).epoch)
    (hn : computeNonce ⟨0, 0, (guardOf W cp fromClient s g).iv, none⟩ (beNat ((header.drop 3).take 8)) = .ok nonce)
    (hrej : (guardOf W cp fromClient s g).aead.opening nonce body header = none)
    (hempty : c.readBuffer = []) (now : Int) (fuel m : Nat) :
    (((c.arrives ((header ++ body) :: more)).read W now false (fuel + 1) (m + 1)).1 = .err .msg) := by
  have hann : announced header = body.length := by
    have h2 := hw.2
    simp only [recordFraming, if_true, Except.ok.injEq] at h2
    have h1 : header.length = 13 := hw.1
    simp only [announced, h1]
    exact h2
  have hsel : selectCipher c.reader.keys false header = .ok (c.reader.keys.cur, beNat ((header.drop 3).take 8)) := by
    unfold selectCipher
    simp only [hL.datagram, if_true]
    rw [seq_shift hw.1, hep, ← hL.epoch]
    obtain ⟨j, hj⟩ := Option.isSome_iff_exists.mp hL.known
    rw [hj]
    simp
  have hdec : decrypt c.reader.keys.direction (c.reader.keys.heap c.reader.keys.cur) (beNat ((header.drop 3).take 8)) header body = .err .msg := by
    unfold decrypt
    rw [if_neg (by rw [hL.direction]; simp)]
    split
    · rfl
    · rw [hL.aead]
      dsimp only
      have hn' : computeNonce (c.reader.keys.heap c.reader.keys.cur) (beNat ((header.drop 3).take 8)) = .ok nonce := by
        have : (c.reader.keys.heap c.reader.keys.cur).iv = (guardOf W cp fromClient s g).iv := hL.iv
        unfold computeNonce at hn ⊢
        rw [this]
        exact hn
      rw [hn']
      simp only [Res.bind_ok, hrej]
  have ho : openRecord c.reader.keys false header body = .err .msg := by
    unfold openRecord
    rw [if_neg (by rw [ht]; simp)]
    dsimp only
    have hf : (body ++ List.replicate body.length 0).take body.length = body := List.take_left' rfl
    rw [hann, if_neg (by omega), hsel]
    simp only [Res.bind_ok, hL.aead, hf, hdec]
    rfl
  have hr := (readRecord_datagram (r := (c.arrives ((header ++ body) :: more)).reader) hL.idle hL.cached hL.datagram hw rfl).2 _ ho
  have hloop : (DLive.readLoop W now (fuel + 1) (c.arrives ((header ++ body) :: more))).1 = .err .msg := by
    rw [DLive.readLoop, if_pos (show (c.arrives _).readBuffer = [] from hempty)]
    simp only [DLive.consume, hr]
    rw [if_pos (.inr (by decide))]
  rw [DLive.read, if_neg (by omega)]
  have htm : (c.arrives ((header ++ body) :: more)).checkTimers false = (.ok (), c.arrives ((header ++ body) :: more)) := by
    simp [DLive.checkTimers]
  rw [htm]
  dsimp only
  split
  · rename_i h; rw [h] at hloop; simp at hloop
  · rename_i e _ h; rw [h] at hloop; simpa using hloop
  · rename_i h; rw [h] at hloop; simp at hloop
  · rename_i h; rw [h] at hloop; simp at hloop

/-- A record written with a given epoch carries it. -/
theorem sealed_stray {k : Guard} {ct : UInt8} {f d : Bytes} {epoch : Nat} (h : Sealed k ct f d) (hs : k.epoch < 2 ^ 16)
    (hov : k.aead.Lawful) (hne : k.epoch ≠ epoch) : Stray epoch d := by
  obtain ⟨w, w', i, w1, w2, w3, w4, w5, w6⟩ := h
  obtain ⟨header, body, rfl, hb, hseq, -, hcase⟩ := writeRecord_ok w6
  rcases hcase with ⟨a, nonce, ha, -, hh, -, hbody⟩ | ⟨ha, -⟩
  · rw [w4] at ha
    cases ha
    obtain ⟨h1, h2, h3, h4, h5⟩ := recordHeader_ok hh
    rw [w1] at h1 h5
    have hlen : (f.length + (1 + 0 + k.aead.overhead)) = body.length := by
      rw [hbody, hov.seal_length]
      simp [innerPlaintext]; omega
    rw [hlen, Nat.mod_eq_of_lt (by omega)] at h5
    refine ⟨header, body, rfl, ⟨h1, h5⟩, by rw [h2]; decide, by omega, ?_⟩
    rw [← seq_shift h1, h4 w1, Nat.mod_eq_of_lt (combineSeq_lt (by omega) (by rw [w3]; exact hs) _), w1, combineSeq_eq (by omega), if_pos rfl, w3]
    rw [Nat.shiftRight_eq_div_pow, Nat.mul_comm, Nat.mul_add_div (by decide), Nat.div_eq_of_lt (by omega)]
    simpa using hne
  · rw [w4] at ha; cases ha

/-- A key update takes effect at once for the sender, acknowledged or not, and nobody sends it again unless the sender calls
Read. If its datagram is lost, Read returns none of the data written from then on, however much of it arrives. RFC 9147, 8: the
new keys must not be used before the acknowledgement. -/
theorem C79_lost_update_fails (W : World) (hl : W.Lawful) (hP : W.E.P.Sized) (cp : Params) (hs : 0 < cp.hash.size) (fromClient : Bool)
    (s : Bytes) (c : DLive) (ds : List Bytes) (hL : Listening W cp fromClient s 0 ds.length c) (hempty : c.readBuffer = [])
    (hds : ∀ d ∈ ds, ∃ g ct f, Sealed (guardOf W cp fromClient s (g + 1)) ct f d) (ks : List DCall) (hks : OnlyReads ks) :
    returned ((c.arrives ds).calls W ks).1 = [] := by
  have ha : ∀ ds : List Bytes, (∀ d ∈ ds, ∃ g ct f, Sealed (guardOf W cp fromClient s (g + 1)) ct f d) →
      Arrives W cp fromClient s 0 ds [] := by
    intro ds
    induction ds with
    | nil => exact fun _ => .done
    | cons d ds ih =>
      intro h
      obtain ⟨g, ct, f, hd⟩ := h d (by simp)
      exact .stray (sealed_stray hd (by simp [guardOf]) (hl _ _) (by simp [guardOf])) (ih fun d hd => h d (by simp [hd]))
  have := (C79_reads_partial W hl hP cp hs fromClient s 0 c ds [] hL (ha ds hds) ks hks).2.2.1
  rw [hempty] at this
  simpa using this

/-- The two ends of a DTLS connection of the toy world. -/
theorem toy_dtls (f : DLive → DLive → Bool)
    (h : Toy.linked (fun c x co ci s y so si => c.cp == s.cp && c.clientAp == s.clientAp && c.serverAp == s.serverAp &&
        f (DLive.start Toy.world c x true [97] ([1], [1]) ([2], [2]) co ci []) (DLive.start Toy.world s y true [] ([2], [2]) ([1], [1]) so si []))
      (clientRun Toy.env Toy.dtls Toy.pskClient (Toy.coins 2) (Toy.exchange Toy.dtls Toy.pskClient Toy.pskServer 2).1)
      (serverRun Toy.env Toy.dtls Toy.pskServer (Toy.exchange Toy.dtls Toy.pskClient Toy.pskServer 2).2) = true) :
    ∃ (cl sv : Connected) (co ci so si : Machine.Keys) (x y : Ctx), Established Toy.world cl sv co ci so si ∧
      f (DLive.start Toy.world cl x true [97] ([1], [1]) ([2], [2]) co ci []) (DLive.start Toy.world sv y true [] ([2], [2]) ([1], [1]) so si []) = true := by
  obtain ⟨cl, x, co, ci, sv, y, so, si, ca, sa, hc, hs, h1, h2, h3, h4, h⟩ := Toy.linked_ok h
  simp only [Bool.and_eq_true, beq_iff_eq] at h
  obtain ⟨⟨⟨h5, h6⟩, h7⟩, h8⟩ := h
  exact ⟨cl, sv, co, ci, so, si, x, y, ⟨⟨_, _, _, _, _, _, _, _, _, _, _, hc, hs, h1, h2, h3, h4⟩, h5, h6, h7⟩, h8⟩

/-- Errors of the Reads at the other end when what an end sent arrives complete, in order, and once. -/
def errorsAfter (W : World) (sender receiver : DLive) (ks : List DCall) (n : Nat) : List (Option Err) :=
  ((receiver.arrives (sender.calls W ks).2.datagrams).calls W (List.replicate n (.read 0 false 9 9))).1.map fun r => r.2.error

/-- The network loses nothing, repeats nothing, keeps the order, and nobody interferes. A client updates its keys twice, then
calls Read when its timer has expired: as no key update is ever acknowledged, both are sent again. The server has taken note of
both; the second one, sent again, has the epoch of the present keys but was protected with the previous ones: the server's Read
fails. -/
theorem C79_second_update_fails : ∃ (cl sv : Connected) (co ci so si : Machine.Keys) (x y : Ctx), Established Toy.world cl sv co ci so si ∧
    errorsAfter Toy.world (DLive.start Toy.world cl x true [97] ([1], [1]) ([2], [2]) co ci [])
      (DLive.start Toy.world sv y true [] ([2], [2]) ([1], [1]) so si []) [.update false, .update false, .read 0 true 1 1] 4 =
      [some .wouldBlock, some .wouldBlock, some .msg, some .wouldBlock] := by
  obtain ⟨cl, sv, co, ci, so, si, x, y, h, hf⟩ := toy_dtls
    (fun c s => errorsAfter Toy.world c s [.update false, .update false, .read 0 true 1 1] 4 ==
      [some .wouldBlock, some .wouldBlock, some .msg, some .wouldBlock]) (by decide +kernel)
  exact ⟨cl, sv, co, ci, so, si, x, y, h, eq_of_beq hf⟩

/-- The same without any timer: a third key update sends the first two again. -/
theorem C79_third_update_fails : ∃ (cl sv : Connected) (co ci so si : Machine.Keys) (x y : Ctx), Established Toy.world cl sv co ci so si ∧
    errorsAfter Toy.world (DLive.start Toy.world cl x true [97] ([1], [1]) ([2], [2]) co ci [])
      (DLive.start Toy.world sv y true [] ([2], [2]) ([1], [1]) so si []) [.update false, .update false, .update false, .write [1]] 5 =
      [some .wouldBlock, some .wouldBlock, some .msg, none, some .wouldBlock] := by
  obtain ⟨cl, sv, co, ci, so, si, x, y, h, hf⟩ := toy_dtls
    (fun c s => errorsAfter Toy.world c s [.update false, .update false, .update false, .write [1]] 5 ==
      [some .wouldBlock, some .wouldBlock, some .msg, none, some .wouldBlock]) (by decide +kernel)
  exact ⟨cl, sv, co, ci, so, si, x, y, h, eq_of_beq hf⟩

/-- A ticket that does not fit in one record makes the client's Read fail, once for each fragment, and is lost. -/
theorem C79_large_ticket_fails : ∃ (cl sv : Connected) (co ci so si : Machine.Keys) (x y : Ctx), Established Toy.world cl sv co ci so si ∧
    errorsAfter Toy.world (DLive.start Toy.world sv y true [] ([2], [2]) ([1], [1]) so si [])
      (DLive.start Toy.world cl x true [97] ([1], [1]) ([2], [2]) co ci []) [.ticket 5 100 10 7 [1, 2] (List.replicate 1180 8), .write [1]] 3 =
      [some .msg, some .msg, none] := by
  obtain ⟨cl, sv, co, ci, so, si, x, y, h, hf⟩ := toy_dtls
    (fun c s => errorsAfter Toy.world s c [.ticket 5 100 10 7 [1, 2] (List.replicate 1180 8), .write [1]] 3 == [some .msg, some .msg, none])
    (by decide +kernel)
  exact ⟨cl, sv, co, ci, so, si, x, y, h, eq_of_beq hf⟩

/-- What C79_reads_partial, C79_unacknowledged_fails, C79_rejected_fails and C79_lost_update_fails speak of: an end of a
connection, after the handshake, listens. -/
example : ∃ (cl sv : Connected) (co ci so si : Machine.Keys) (x y : Ctx), Established Toy.world cl sv co ci so si ∧
    Listening Toy.world cl.cp true cl.clientAp 0 1000 (DLive.start Toy.world sv y true [] ([2], [2]) ([1], [1]) so si []) ∧
    Speaking Toy.world cl.cp true cl.clientAp 0 (DLive.start Toy.world cl x true [97] ([1], [1]) ([2], [2]) co ci []) := by
  obtain ⟨cl, sv, co, ci, so, si, x, y, h, -⟩ := toy_dtls (fun _ _ => true) (by decide +kernel)
  obtain ⟨hz, hc, hs, e1, e2, e3, e4⟩ := h.ends Toy.prims_sized
  refine ⟨cl, sv, co, ci, so, si, x, y, h, ?_, start_speaking (b := true) e1⟩
  have := start_listening (W := Toy.world) (st := sv) (x := y) (nb := true) (sn := []) (ho := ([2], [2])) (hi := ([1], [1])) (o := so)
    (i := si) (b := true) (conn := []) 1000 (by decide) hs (by rw [← h.suite, if_pos rfl, ← h.client]; exact e4)
  rwa [if_pos rfl, ← h.suite, ← h.client] at this

/-- A client writes, updates its keys, and writes again; the network repeats and reorders, a record in the clear is inserted:
the server's Reads return the data in the order of arrival; a straggler of the old epoch is dropped. -/
example : ∃ (cl sv : Connected) (co ci so si : Machine.Keys) (x y : Ctx), Established Toy.world cl sv co ci so si ∧
    let sent := ((DLive.start Toy.world cl x true [97] ([1], [1]) ([2], [2]) co ci []).calls Toy.world
      [.write [1], .write [2], .update false, .write [3], .write [4]]).2.datagrams
    let clear : Bytes := [21, 254, 253, 0, 0, 0, 0, 0, 0, 0, 0, 0, 2, 2, 40]
    let arriving := [sent.getD 1 [], sent.getD 0 [], clear, sent.getD 1 [], sent.getD 4 [], sent.getD 2 [], sent.getD 0 [],
      sent.getD 4 [], sent.getD 3 []]
    returned (((DLive.start Toy.world sv y true [] ([2], [2]) ([1], [1]) so si []).arrives arriving).calls Toy.world
      (List.replicate 12 (.read 0 false 9 9))).1 = [2, 1, 2, 4, 3] := by
  obtain ⟨cl, sv, co, ci, so, si, x, y, h, hf⟩ := toy_dtls
    (fun c s =>
      let sent := (c.calls Toy.world [.write [1], .write [2], .update false, .write [3], .write [4]]).2.datagrams
      let clear : Bytes := [21, 254, 253, 0, 0, 0, 0, 0, 0, 0, 0, 0, 2, 2, 40]
      let arriving := [sent.getD 1 [], sent.getD 0 [], clear, sent.getD 1 [], sent.getD 4 [], sent.getD 2 [], sent.getD 0 [],
        sent.getD 4 [], sent.getD 3 []]
      returned ((s.arrives arriving).calls Toy.world (List.replicate 12 (.read 0 false 9 9))).1 == [2, 1, 2, 4, 3]) (by decide +kernel)
  exact ⟨cl, sv, co, ci, so, si, x, y, h, eq_of_beq hf⟩

/-- Any keys can protect any short record. -/
theorem exists_sealed (k : Guard) (hl : k.aead.Lawful) (hiv : 8 ≤ k.iv.length) (ct : UInt8) (f : Bytes)
    (hf : f.length + 1 + k.aead.overhead ≤ 2 ^ 14) : ∃ d, Sealed k ct f d := by
  let w : Record.Keys := ⟨.write, 0x0303, true, fun _ => ⟨k.epoch, 0, k.iv, some k.aead⟩, 1, 0, []⟩
  have : ∃ d w', Record.writeRecord w 0 ct f 0 = .ok (d, w') := by
    have hh : ∃ h, recordHeader w 23 (combineSeq (w.heap 0) true) (f.length + (1 + 0 + k.aead.overhead)) = .ok h := ⟨_, rfl⟩
    obtain ⟨h, hh⟩ := hh
    have hn : ∃ n, computeNonce (w.heap 0) (combineSeq (w.heap 0) true) = .ok n := by
      unfold computeNonce
      rw [if_neg (show ¬ k.iv.length < 8 by omega)]
      exact ⟨_, rfl⟩
    obtain ⟨n, hn⟩ := hn
    have hlen : ¬ (k.aead.sealing n (innerPlaintext ct f 0) h).length > 2 ^ 14 := by
      rw [hl.seal_length]; simp [innerPlaintext]; omega
    have hb : bumpSeq w.heap 0 = .ok (upd w.heap 0 { w.heap 0 with seq := 1 }) := by
      unfold bumpSeq
      rw [if_neg (show ¬ (0 : Nat) ≥ 2 ^ 48 - 1 by decide)]
    refine ⟨h ++ k.aead.sealing n (innerPlaintext ct f 0) h, { w with heap := upd w.heap 0 { w.heap 0 with seq := 1 } }, ?_⟩
    unfold Record.writeRecord
    show Res.bind (recordHeader w 23 (combineSeq (w.heap 0) true) (f.length + (1 + 0 + k.aead.overhead))) _ = _
    rw [hh, Res.bind_ok, if_neg (by simp [w])]
    have hn' : computeNonce (w.heap 0) (combineSeq (w.heap 0) w.datagram) = .ok n := hn
    rw [hn', Res.bind_ok]
    dsimp only
    rw [if_neg hlen, hb]
    rfl
  obtain ⟨d, w', h⟩ := this
  exact ⟨d, w, w', 0, rfl, rfl, rfl, rfl, rfl, h⟩

/-- What C79_reads_partial lets arrive: data twice, a record in the clear, a straggler from the future, two key updates, data
under the newest keys. -/
example (W : World) (hl : W.Lawful) (cp : Params) (b : Bool) (s : Bytes) (hov : ∀ key, (W.A cp key).overhead ≤ 255)
    (hiv : ∀ g, 8 ≤ (generation W cp b s g).2.length) : ∃ d c e u v z,
    Arrives W cp b s 0 [d, c, d, e, u, v, z] [[1, 2], [1, 2], [3]] := by
  have hx : ∀ g ct f, f.length ≤ 100 → ∃ d, Sealed (guardOf W cp b s g) ct f d := fun g ct f hf =>
    exists_sealed _ (hl _ _) (hiv g) ct f (by have := hov (generation W cp b s g).1; show f.length + 1 + (W.A cp _).overhead ≤ 2 ^ 14; omega)
  obtain ⟨d, hd⟩ := hx 0 23 [1, 2] (by decide)
  obtain ⟨e, he⟩ := hx 2 23 [7] (by decide)
  obtain ⟨u, hu⟩ := hx 0 22 (keyUpdateBytes 5) (by decide)
  obtain ⟨v, hv⟩ := hx 1 22 (keyUpdateBytes 6) (by decide)
  obtain ⟨z, hz⟩ := hx 2 23 [3] (by decide)
  refine ⟨d, [21, 254, 253, 0, 0, 0, 0, 0, 0, 0, 0, 0, 2, 2, 40], e, u, v, z, .data hd (.stray ?_ (.data hd (.stray ?_
    (.update hu (.update hv (.data hz .done))))))⟩
  · exact ⟨[21, 254, 253, 0, 0, 0, 0, 0, 0, 0, 0, 0, 2], [2, 40], rfl, ⟨rfl, rfl⟩, rfl, by decide, by simp [guardOf, beNat]⟩
  · exact sealed_stray he (by simp [guardOf]) (hl _ _) (by simp [guardOf])

end Verif.Props
