import Verif.Conn.RecordWire
import Verif.Conn.StackLive
import Verif.Record.RoundTrip
import Verif.Props.Record
import Verif.Props.CookieConnect
import Verif.Props.Stack

/-
Property C75: what is given to the transport has the record format of RFC 8446.
-/

namespace Verif.Props

open Verif Verif.Crypto Verif.Messages Verif.Negotiation Verif.Handshake Verif.Machine Verif.Spec Verif.Record Verif.Conn

/-! ### Numbers -/

theorem xor_shifted (x y p q m : Nat) (hp : p < 2 ^ m) (hq : q < 2 ^ m) :
    (2 ^ m * x + p) ^^^ (2 ^ m * y + q) = 2 ^ m * (x ^^^ y) + (p ^^^ q) := by
  refine Nat.eq_of_testBit_eq fun j => ?_
  rw [Nat.testBit_xor, Nat.testBit_two_pow_mul_add _ hp, Nat.testBit_two_pow_mul_add _ hq, Nat.testBit_two_pow_mul_add _ (Nat.xor_lt_two_pow hp hq)]
  split <;> rw [Nat.testBit_xor]

theorem beNat_zipWith_xor (a b : Bytes) (h : a.length = b.length) : beNat (List.zipWith (· ^^^ ·) a b) = beNat a ^^^ beNat b := by
  induction a generalizing b with
  | nil => cases b with
    | nil => rfl
    | cons y b => cases h
  | cons x a ih =>
    cases b with
    | nil => cases h
    | cons y b =>
      have hl : a.length = b.length := by simpa using h
      have e : ∀ n : Nat, 256 ^ n = 2 ^ (8 * n) := fun n => by rw [Nat.pow_mul]
      have ha := beNat_lt a
      have hb := beNat_lt b
      rw [List.zipWith_cons_cons, beNat_cons, beNat_cons, beNat_cons, ih b hl, List.length_zipWith, hl, Nat.min_self, UInt8.toNat_xor, e]
      rw [hl, e] at ha
      rw [e] at hb
      rw [Nat.mul_comm x.toNat, Nat.mul_comm y.toNat, Nat.mul_comm (x.toNat ^^^ y.toNat), xor_shifted _ _ _ _ _ ha hb]

theorem beNat_zeros (n : Nat) : beNat (List.replicate n 0) = 0 := by
  induction n with
  | zero => rfl
  | succ n ih => rw [List.replicate_succ, beNat_cons, ih]; simp

theorem nonce_is {c : CipherState} {s : Nat} {n : Bytes} (hs : s < 2 ^ 64) (h : computeNonce c s = .ok n) : IsNonce n c.iv s := by
  obtain ⟨h1, h2, h3⟩ := computeNonce_ok h
  refine ⟨h2, ?_⟩
  rw [h3, beNat_zipWith_xor _ _ (by simp; omega), beNat_append, beNat_zeros, beNat_beBytes_of_lt (by simpa using hs)]
  simp

theorem beBytes_split (e s : Nat) (he : e < 2 ^ 16) (hs : s < 2 ^ 48) : beBytes 8 (e * 2 ^ 48 + s) = beBytes 2 e ++ beBytes 6 s := by
  have h := beBytes_beNat (beBytes 2 e ++ beBytes 6 s)
  rw [beNat_append, beNat_beBytes_of_lt (by simpa using he), beNat_beBytes_of_lt (by simpa using hs)] at h
  simpa using h

theorem announced_five (h : Bytes) (hh : h.length = 5) : announced h = beNat (h.drop 3) := by
  obtain ⟨t, v, w, x, y, rfl⟩ : ∃ t v w x y, h = [t, v, w, x, y] := by
    match h, hh with
    | [t, v, w, x, y], _ => exact ⟨t, v, w, x, y, rfl⟩
  show x.toNat * 256 + y.toNat = beNat [x, y]
  rw [beNat_cons, beNat_cons, beNat_nil]
  simp

/-! ### Records over a stream -/

/-- Before there are keys a record is TLSPlaintext (RFC 8446, section 5.1). -/
theorem C75_plain {k k' : Record.Keys} {i pad : Nat} {ct : UInt8} {f rec : Bytes} (hd : k.datagram = false) (ha : (k.heap i).aead = none)
    (h : writeRecord k i ct f pad = .ok (rec, k')) : pad = 0 ∧ rec = tlsRecord ct k.version f ∧ f.length ≤ 2 ^ 14 := by
  obtain ⟨header, body, rfl, hb, _, _, ⟨a, _, ha', _⟩ | ⟨_, hp, rfl, hh⟩⟩ := writeRecord_ok h
  · rw [ha] at ha'; cases ha'
  · simp only [recordHeader, hd, Bool.false_eq_true, if_false, Res.ok.injEq] at hh
    exact ⟨hp, by rw [← hh]; simp [tlsRecord], hb⟩

example : writeRecord (Record.Keys.new .write false) 0 22 [1, 0, 0, 0] 0 = .ok ([22, 3, 1, 0, 4, 1, 0, 0, 0],
    { Record.Keys.new .write false with heap := upd (Record.Keys.new .write false).heap 0 { nullCipher with seq := 1 } }) := rfl

/-- With keys it is TLSCiphertext (sections 5.2 and 5.3): type application_data; encrypted is content, type and padding; the
additional data is the header; the nonce is made of the IV and the sequence number, which counts the records under the keys. -/
theorem C75_protected {k k' : Record.Keys} {i pad : Nat} {ct : UInt8} {f rec : Bytes} {a : Aead} (hd : k.datagram = false)
    (ha : (k.heap i).aead = some a) (hl : a.Lawful) (h : writeRecord k i ct f pad = .ok (rec, k')) :
    ∃ nonce header, IsNonce nonce (k.heap i).iv (k.heap i).seq ∧ rec = tlsRecord 23 k.version (a.sealing nonce (inner f ct pad) header) ∧
      header = rec.take 5 ∧ rec.length ≤ 5 + 2 ^ 14 ∧ (k'.heap i).seq = (k.heap i).seq + 1 := by
  obtain ⟨header, body, rfl, hb, hs, hk, ⟨a', nonce, ha', _, hh, hn, rfl⟩ | ⟨ha', _⟩⟩ := writeRecord_ok h
  · rw [ha] at ha'
    cases ha'
    have hi : innerPlaintext ct f pad = inner f ct pad := by simp [innerPlaintext, inner]
    have hlen : (a.sealing nonce (inner f ct pad) header).length = f.length + (1 + pad + a.overhead) := by
      rw [hl.seal_length]; simp [inner]; omega
    simp only [recordHeader, hd, Bool.false_eq_true, if_false, Res.ok.injEq] at hh
    have h5 : header.length = 5 := by rw [← hh]; simp
    rw [hi] at hb ⊢
    refine ⟨nonce, header, ?_, ?_, ?_, ?_, ?_⟩
    · rw [hd, combineSeq] at hn
      exact nonce_is (by omega) hn
    · unfold tlsRecord
      rw [hlen]
      congr 1
      rw [← hh]; simp
    · rw [← h5, List.take_left]
    · simp only [List.length_append, h5]; omega
    · rw [hk]; simp
  · rw [ha] at ha'; cases ha'

/-- The hypotheses hold; the record is shown. -/
example : Record.toyAead.Lawful ∧ (toyWriter.heap toyWriter.cur).aead = some Record.toyAead ∧
    (writeRecord toyWriter toyWriter.cur 22 [20, 0] 1).bind (fun r => .ok r.1) = .ok [23, 3, 1, 0, 5, 20, 0, 22, 0, 0xAA] :=
  ⟨toyAead_lawful, rfl, rfl⟩

/-- What is read under keys: what the record decrypts to is content, a type other than zero and padding, and the content is
not too long. -/
theorem C75_read {k k' : Record.Keys} {old : Bool} {h b : Bytes} {pt : Plaintext} {a : Aead} (hd : k.datagram = false)
    (ha : (k.heap k.cur).aead = some a) (hb : b.length = beNat (h.drop 3)) (hh : h.length = 5)
    (ho : openRecord k old h b = .ok (pt, k')) :
    ∃ nonce zeros, IsNonce nonce (k.heap k.cur).iv (k.heap k.cur).seq ∧
      a.opening nonce b h = some (inner pt.fragment pt.contentType zeros) ∧ pt.contentType ≠ 0 ∧ pt.fragment.length ≤ 2 ^ 14 ∧
      b.length ≤ 2 ^ 14 + 256 := by
  obtain ⟨i, seq, hsel, hfl, hseq, _, _, _, hsz, h2⟩ := openRecord_ok ho
  simp only [selectCipher, hd, Bool.false_eq_true, if_false, Res.ok.injEq, Prod.mk.injEq] at hsel
  obtain ⟨rfl, rfl⟩ := hsel
  have hann : announced h = b.length := by rw [hb, announced_five h hh]
  rcases h2 with ⟨a', ha', _, hdec⟩ | ⟨ha', _⟩
  · rw [ha] at ha'
    cases ha'
    rw [hann, List.take_append_of_le_length (Nat.le_refl _), List.take_length] at hdec
    unfold decrypt at hdec
    split at hdec
    · cases hdec
    · split at hdec
      · cases hdec
      · rw [ha] at hdec
        simp only [Res.bind_eq_ok] at hdec
        obtain ⟨nonce, hn, hdec⟩ := hdec
        split at hdec
        · cases hdec
        · rename_i p hp
          obtain ⟨h0, pad, rfl⟩ := stripPadding_ok hdec
          exact ⟨nonce, pad, nonce_is (by omega) hn, by rw [hp]; simp [innerPlaintext, inner], h0, hfl, hann ▸ hsz⟩
  · rw [ha] at ha'; cases ha'

/-- A record that is accepted. -/
example : let k := (toyReader []).keys
    (openRecord k false [23, 3, 3, 0, 5] [20, 0, 22, 0, 0xAA]).bind (fun r => .ok (r.1.contentType, r.1.fragment)) = .ok (22, [20, 0]) ∧
    [20, 0, 22, 0, 0xAA].length = beNat ([23, 3, 3, 0, 5].drop 3) := ⟨by decide +kernel, by decide⟩

/-- The version of a record is ignored (section 5.1) as long as there are no keys. -/
theorem C75_version_ignored (k : Record.Keys) (old : Bool) (hd : k.datagram = false) (ha : (k.heap k.cur).aead = none)
    (t v w v' w' x y : UInt8) (b : Bytes) : openRecord k old [t, v, w, x, y] b = openRecord k old [t, v', w', x, y] b := by
  simp only [openRecord, announced, List.getD_cons_zero, selectCipher, hd, Bool.false_eq_true, if_false, Res.bind_ok, ha]
  rfl

example : (openRecord (Record.Keys.new .read false) false [22, 9, 9, 0, 2] [7, 8]).bind (fun r => .ok r.1.fragment) = .ok [7, 8] := by
  decide +kernel

/-- RFC 8446, section 5: a change_cipher_spec record of one byte of value 1, received during the handshake, must be dropped. It is
an error here: a peer in the middlebox compatibility mode of appendix D.4 cannot be talked to. -/
theorem C75_change_cipher_spec_fails (k : Record.Keys) (old : Bool) (v : Nat) :
    tlsRecord 20 v [1] = 20 :: beBytes 2 v ++ [0, 1] ++ [1] ∧ openRecord k old (20 :: beBytes 2 v ++ [0, 1]) [1] = .err .msg := by
  refine ⟨by simp [tlsRecord, beBytes], ?_⟩
  simp [openRecord, knownType]

/-! ### Versions during a handshake -/

variable {E : Env} {A : Bytes → Aead} {ccfg scfg : Config}

theorem written_net (hA : ∀ key, (A key).Lawful) (ms : List Move) :
    Written ((Net.new ccfg scfg).run E A ms).client ∧ Written ((Net.new ccfg scfg).run E A ms).server ∧
      (∃ c, ((Net.new ccfg scfg).run E A ms).client.party = .client c) ∧ ∃ s, ((Net.new ccfg scfg).run E A ms).server.party = .server s :=
  written_run hA ms (written_new _ rfl) (written_new _ rfl) ⟨_, rfl⟩ ⟨_, rfl⟩

/-- All a client writes in a handshake, whatever the server and the network do, is records of version 0x0303. -/
theorem C75_client (hA : ∀ key, (A key).Lawful) (ms : List Move) (k : Coins) {e : End} (he : e = ((Net.new ccfg scfg).run E A ms).client) :
    ∃ b, (e.turn E A k).wire = e.wire ++ b ∧ TlsRecords 0x0303 b := by
  obtain ⟨h, _, ⟨c, hc⟩, _⟩ := written_net (E := E) (A := A) (ccfg := ccfg) (scfg := scfg) hA ms
  subst he
  exact (h.clientTurn hA hc k).2.2

/-- All a server writes in a handshake is records, of version 0x0303 except when it writes HelloRetryRequest. -/
theorem C75_server_partial (hA : ∀ key, (A key).Lawful) (ms : List Move) (k : Coins) {e : End} (he : e = ((Net.new ccfg scfg).run E A ms).server) :
    ∃ b, (e.turn E A k).wire = e.wire ++ b ∧ (TlsRecords 0x0303 b ∨
      (TlsRecords 0x0301 b ∧ ∃ hrr, letterOf hrr = .helloRetryRequest ∧ (e.turn E A k).asked = e.asked ++ [hrr])) := by
  obtain ⟨_, h, _, s, hs⟩ := written_net (E := E) (A := A) (ccfg := ccfg) (scfg := scfg) hA ms
  subst he
  obtain ⟨b, h1, h2⟩ := (h.serverTurn (E := E) hA hs k).2.2
  refine ⟨b, h1, ?_⟩
  rcases h2 with h2 | ⟨h2, _, h3⟩
  · exact .inl h2
  · exact .inr ⟨h2, h3⟩

/-- What both write is not nothing. -/
example : (∀ key, (Toy.aead key).Lawful) ∧
    ((((Net.new Toy.clientCfg Toy.serverCfg).run Toy.env Toy.aead []).client.turn Toy.env Toy.aead (Toy.coins 2)).wire.take 3 == [22, 3, 3]) = true ∧
    ((((Net.new Toy.clientCfg Toy.serverCfg).run Toy.env Toy.aead [.client (Toy.coins 2), .flush]).server.turn Toy.env Toy.aead
      (Toy.coins 3)).wire.take 3 == [22, 3, 3]) = true := ⟨Toy.aead_lawful, by decide +kernel, by decide +kernel⟩

/-- RFC 8446, section 5.1: the version must be 0x0303 for all records but an initial ClientHello. A HelloRetryRequest has 0x0301: the
version of the record layer is set only later (server-state-machine.go:385, record-layer.go:143). -/
theorem C75_retry_version_fails :
    (((Net.new Toy.clientCfg Toy.cookieServer).run Toy.env Toy.aead [.client (Toy.coins 2), .flush, .server (Toy.coins 3)]).server.wire.take 3
      == [22, 3, 1]) = true ∧
    (((Net.new Toy.clientCfg Toy.cookieServer).run Toy.env Toy.aead [.client (Toy.coins 2), .flush, .server (Toy.coins 3)]).server.asked.map letterOf
      == [.helloRetryRequest]) = true := ⟨by decide +kernel, by decide +kernel⟩

/-- After the handshake, whatever is called and whatever arrives, all that is written is records of version 0x0303. -/
theorem C75_established (hA : ∀ key, (A key).Lawful) (ms : List Move) {N : Net} (hN : N = (Net.new ccfg scfg).run E A ms) {st : Connected}
    (nb : Bool) (name : Bytes) (conn : List (Except Err Bytes)) (ks : List Call) :
    (N.client.party = .client (.connected st) →
      TlsRecords 0x0303 (Live.calls (Conn.oneAead E A) (N.client.live st nb name conn) ks).2.wire) ∧
    (N.server.party = .server (.connected st) →
      TlsRecords 0x0303 (Live.calls (Conn.oneAead E A) (N.server.live st nb name conn) ks).2.wire) := by
  obtain ⟨h, h', _⟩ := written_net (E := E) (A := A) (ccfg := ccfg) (scfg := scfg) hA ms
  rw [← hN] at h h'
  have go : ∀ e : End, Written e → e.party.fresh = false → TlsRecords 0x0303 (Live.calls (Conn.oneAead E A) (e.live st nb name conn) ks).2.wire :=
    fun e h hf => ((liveRecords_stable (W := Conn.oneAead E A) (fun _ key => hA key) 0x0303).calls ks
      (c := e.live st nb name conn) ⟨h.layer, h.version hf, tlsRecords_nil _⟩).2.2
  exact ⟨fun hp => go _ h (by rw [hp]; rfl), fun hp => go _ h' (by rw [hp]; rfl)⟩

/-! ### Datagrams -/

/-- The version field over datagrams. -/
def datagramVersion (v : Nat) : Nat := if v = 0x0303 then 0xfefd else 0xfeff

/-- Without keys: DTLSPlaintext (RFC 9147, section 4). -/
theorem C75_datagram_plain {k k' : Record.Keys} {i pad : Nat} {ct : UInt8} {f rec : Bytes} (hd : k.datagram = true) (ha : (k.heap i).aead = none)
    (he : (k.heap i).epoch < 2 ^ 16) (h : writeRecord k i ct f pad = .ok (rec, k')) :
    rec = dtlsRecord ct (datagramVersion k.version) (k.heap i).epoch (k.heap i).seq f ∧ (k.version = 0x0303 ∨ k.version = 0x0301) := by
  obtain ⟨header, body, rfl, hb, hs, _, ⟨a, _, ha', _⟩ | ⟨_, hp, rfl, hh⟩⟩ := writeRecord_ok h
  · rw [ha] at ha'; cases ha'
  · rw [combineSeq_eq (by omega)] at hh
    simp only [recordHeader, hd, if_true, Res.bind_eq_ok, Res.ok.injEq] at hh
    obtain ⟨v, hv, rfl⟩ := hh
    have hv' : v = datagramVersion k.version ∧ (k.version = 0x0303 ∨ k.version = 0x0301) := by
      unfold dtlsConvertVersion at hv
      unfold datagramVersion
      split at hv
      · rename_i h1
        rw [if_pos h1]
        exact ⟨by simpa using hv.symm, .inl h1⟩
      · rename_i h1
        split at hv
        · rename_i h2
          rw [if_neg h1]
          exact ⟨by simpa using hv.symm, .inr h2⟩
        · cases hv
    refine ⟨?_, hv'.2⟩
    rw [hv'.1, beBytes_split _ _ he (by omega)]
    simp [dtlsRecord]

/-- With keys, a header as in DTLS 1.2 and a nonce that contains the epoch. Missing: RFC 9147, section 4, has a shorter header, in
which the sequence number is encrypted, and a nonce without the epoch. -/
theorem C75_datagram_protected_partial {k k' : Record.Keys} {i pad : Nat} {ct : UInt8} {f rec : Bytes} {a : Aead} (hd : k.datagram = true)
    (ha : (k.heap i).aead = some a) (hl : a.Lawful) (he : (k.heap i).epoch < 2 ^ 16) (h : writeRecord k i ct f pad = .ok (rec, k')) :
    ∃ nonce header, IsNonce nonce (k.heap i).iv ((k.heap i).epoch * 2 ^ 48 + (k.heap i).seq) ∧ header = rec.take 13 ∧
      rec = dtlsRecord 23 (datagramVersion k.version) (k.heap i).epoch (k.heap i).seq (a.sealing nonce (inner f ct pad) header) := by
  obtain ⟨header, body, rfl, hb, hs, hk, ⟨a', nonce, ha', _, hh, hn, rfl⟩ | ⟨ha', _⟩⟩ := writeRecord_ok h
  · rw [ha] at ha'
    cases ha'
    have hi : innerPlaintext ct f pad = inner f ct pad := by simp [innerPlaintext, inner]
    have hlen : (a.sealing nonce (inner f ct pad) header).length = f.length + (1 + pad + a.overhead) := by
      rw [hl.seal_length]; simp [inner]; omega
    rw [hd, combineSeq_eq (by omega)] at hh hn
    simp only [if_true] at hh hn
    simp only [recordHeader, hd, if_true, Res.bind_eq_ok, Res.ok.injEq] at hh
    obtain ⟨v, hv, hh⟩ := hh
    have hv' : v = datagramVersion k.version := by
      unfold dtlsConvertVersion at hv
      unfold datagramVersion
      split at hv
      · rename_i h1
        rw [if_pos h1]
        simpa using hv.symm
      · rename_i h1
        split at hv
        · rw [if_neg h1]
          simpa using hv.symm
        · cases hv
    have h13 : header.length = 13 := by rw [← hh]; simp
    rw [beBytes_split _ _ he (by omega), hv'] at hh
    rw [hi]
    refine ⟨nonce, header, nonce_is (by omega) hn, by rw [← h13, List.take_left], ?_⟩
    unfold dtlsRecord
    rw [hlen]
    congr 1
    rw [← hh]; simp
  · rw [ha] at ha'; cases ha'

/-- Records of a layer whose version is set. -/
example : let k := (Record.Keys.new .write true).setVersion 0x0303
    ((writeRecord k k.cur 22 [1] 0).bind (fun r => .ok r.1) = .ok [22, 254, 253, 0, 0, 0, 0, 0, 0, 0, 0, 0, 1, 1]) ∧
    let k := k.rekey 3 Record.toyAead toyIv
    (k.heap k.cur).epoch < 2 ^ 16 ∧
    ((writeRecord k k.cur 22 [1] 0).bind (fun r => .ok r.1) = .ok [23, 254, 253, 0, 3, 0, 0, 0, 0, 0, 0, 0, 3, 1, 22, 0xAA]) :=
  ⟨by decide +kernel, by decide, by decide +kernel⟩

/-- After a reset, as on HelloRetryRequest, records are unprotected again, whatever keys were in use; over datagrams the numbering
goes on from the given number in epoch 0. -/
theorem C75_reset {k k' : Record.Keys} {n pad : Nat} {ct : UInt8} {f rec : Bytes}
    (h : writeRecord (k.resetClear n) (k.resetClear n).cur ct f pad = .ok (rec, k')) :
    (k.datagram = false → rec = tlsRecord ct k.version f) ∧
    (k.datagram = true → rec = dtlsRecord ct (datagramVersion k.version) 0 n f) := by
  have hh : (k.resetClear n).heap (k.resetClear n).cur = { nullCipher with seq := n } := by
    simp [Record.Keys.resetClear, upd]
  refine ⟨fun hd => (C75_plain (k := k.resetClear n) hd (by rw [hh]; rfl) h).2.1, fun hd => ?_⟩
  have := (C75_datagram_plain (k := k.resetClear n) hd (by rw [hh]; rfl) (by rw [hh]; exact Nat.two_pow_pos 16) h).1
  rw [hh] at this
  exact this

/-- A client that had keys for early data. -/
example : let k := (((Record.Keys.new .write true).setVersion 0x0303).rekey 1 Record.toyAead toyIv).resetClear 1
    (writeRecord k k.cur 22 [1] 0).bind (fun r => .ok r.1) = .ok [22, 254, 253, 0, 0, 0, 0, 0, 0, 0, 1, 0, 1, 1] := by decide +kernel

/-- Over datagrams the version of a record layer is zero until it is set, and then no record can be written: the program panics
(dtls.go:39-47). A server sets it after HelloRetryRequest (server-state-machine.go:385), so that HelloRetryRequest, and an alert or
acknowledgement before the ClientHello is accepted, crash it. -/
theorem C75_datagram_version_fails (k : Record.Keys) (hd : k.datagram = true) (hv : k.version = 0) (i pad : Nat) (ct : UInt8) (f : Bytes) :
    (Record.Keys.new .write true).version = 0 ∧ (Record.Keys.new .write true).datagram = true ∧ writeRecord k i ct f pad = .panic := by
  refine ⟨rfl, rfl, ?_⟩
  have hr : ∀ o s l, recordHeader k o s l = .panic := fun o s l => by
    simp only [recordHeader, hd, if_true, dtlsConvertVersion, hv]
    rfl
  unfold writeRecord
  dsimp only
  split <;> rw [hr] <;> rfl

end Verif.Props
