import Verif.Props.Ack
import Verif.Record.RoundTrip

/-
C77, continued: acknowledgements and the record layer. Which number a record that arrives is acknowledged under, and that a flight is
given up as received only if its records arrived.
-/

namespace Verif.Handshake

open Verif Verif.Record

/-! ### Specification -/

/-- The record layer of the receiver made `pt` of the bytes of `w` (13 bytes of header, then the rest), whatever its state, if keys of
epochs other than 0 have a cipher. -/
def ReadFrom (w : WireRec) (pt : Plaintext) : Prop :=
  ∃ (k k' : Keys) (any : Bool) (header body : Bytes), w.bytes = header ++ body ∧ header.length = 13 ∧ k.datagram = true ∧
    (∀ i, (k.heap i).epoch ≠ 0 → (k.heap i).aead ≠ none) ∧ openRecord k any header body = .ok (pt, k')

/-- Epochs are 16-bit numbers (common.go:238). -/
def ShortEpochs (ops : List OutOp) : Prop := ∀ e a iv, OutOp.rekey e a iv ∈ ops → e < 2 ^ 16

/-! ### The number in the header -/

/-- Invariants about the keys and the wire: kept by everything that happens. -/
structure Kept (P : Keys → List WireRec → Prop) (ops : List OutOp) : Prop where
  emit : ∀ o key ct f c o', P o.keys o.wire → Out.emit o key ct f c = .ok o' → P o'.keys o'.wire
  rekey : ∀ k w e a iv, P k w → OutOp.rekey e a iv ∈ ops → P (k.rekey e a iv) w
  reset : ∀ k w s, P k w → P (k.resetClear s) w
  version : ∀ k w v, P k w → P (k.setVersion v) w

theorem Kept.tail {P : Keys → List WireRec → Prop} {op : OutOp} {ops : List OutOp} (h : Kept P (op :: ops)) : Kept P ops :=
  ⟨h.emit, fun k w e a iv hp hm => h.rekey k w e a iv hp (List.mem_cons_of_mem _ hm), h.reset, h.version⟩

theorem Kept.loop {P : Keys → List WireRec → Prop} {ops : List OutOp} (hk : Kept P ops) (m : OutMsg) :
    ∀ (fuel : Nat) (o : Out) (s written n : Nat) (o' : Out), P o.keys o.wire → o.writeLoop m fuel s written = .ok (n, o') →
      P o'.keys o'.wire := by
  intro fuel
  induction fuel with
  | zero => intro o s written n o' _ h; exact absurd h (by simp [Out.writeLoop])
  | succ fuel ih =>
    intro o s written n o' hs h
    simp only [Out.writeLoop] at h
    rw [Res.bind_eq_ok] at h
    obtain ⟨⟨wrote, s1, o1⟩, h1, h⟩ := h
    have h1' : P o1.keys o1.wire := by
      unfold Out.writeFragment at h1
      split at h1
      · exact absurd h1 (by simp)
      · dsimp only at h1
        split at h1
        · cases h1; exact hs
        · rw [Res.bind_eq_ok] at h1
          obtain ⟨o2, h2, h1⟩ := h1
          cases h1
          generalize hsent : (_ ++ _ : List Sent) = sent at h2
          exact hk.emit { o with sent := sent } _ _ _ _ _ hs h2
    dsimp only at h
    split at h
    · cases h; exact h1'
    · exact ih _ _ _ _ _ h1' h

theorem Kept.messages {P : Keys → List WireRec → Prop} {ops : List OutOp} (hk : Kept P ops) :
    ∀ (ms : List OutMsg) (o : Out) (written n : Nat) (o' : Out), P o.keys o.wire → Out.writeMessages ms written o = .ok (n, o') →
      P o'.keys o'.wire := by
  intro ms
  induction ms with
  | nil => intro o w n o' hn h; cases h; exact hn
  | cons m ms ih =>
    intro o w n o' hn h
    simp only [Out.writeMessages] at h
    rw [Res.bind_eq_ok] at h
    obtain ⟨⟨n1, o1⟩, h1, h⟩ := h
    unfold Out.writeMessage at h1
    split at h1
    · exact absurd h1 (by simp)
    · exact ih _ _ _ _ (hk.loop m _ _ _ _ _ _ hn h1) h

theorem Kept.run {P : Keys → List WireRec → Prop} : ∀ (ops : List OutOp) (o o' : Out), Kept P ops → P o.keys o.wire →
    o.run ops = .ok o' → P o'.keys o'.wire := by
  intro ops
  induction ops with
  | nil => intro o o' _ hn h; cases h; exact hn
  | cons op ops ih =>
    intro o o' hk hs h
    simp only [Out.run] at h
    rw [Res.bind_eq_ok] at h
    obtain ⟨o1, h1, h⟩ := h
    refine ih o1 o' hk.tail ?_ h
    clear ih h
    cases op with
    | queue t s b => cases h1; exact hs
    | send =>
      simp only [Out.op] at h1
      rw [Res.bind_eq_ok] at h1
      obtain ⟨⟨n, o2⟩, h2, h1⟩ := h1
      cases h1
      have := hk.messages _ _ _ _ _ hs h2
      exact this
    | ack data =>
      obtain ⟨nums, n, o2, -, h2, rfl⟩ := processAck_ok h1
      have := hk.messages _ (o.marked nums) _ _ _ hs h2
      split <;> exact this
    | nextFlight => cases h1; exact hs
    | rekey e a iv => cases h1; exact hk.rekey _ _ e a iv hs (by simp)
    | resetClear s => cases h1; exact hk.reset _ _ _ hs
    | version v => cases h1; exact hk.version _ _ _ hs
    | other ct f => exact hk.emit _ _ _ _ _ _ hs h1

/-- The header of a record on the wire has its number. -/
def Headed (k : Keys) (wire : List WireRec) : Prop :=
  k.datagram = true ∧ (∀ i, (k.heap i).epoch < 2 ^ 16) ∧
  ∀ w ∈ wire, w.number < 2 ^ 64 ∧ ∃ header body, w.bytes = header ++ body ∧ header.length = 13 ∧
    beNat ((header.drop 3).take 8) = w.number

theorem headed_kept (ops : List OutOp) (h : ShortEpochs ops) : Kept Headed ops := by
  refine ⟨?_, ?_, ?_, fun k w v hp => hp⟩
  · intro o key ct f c o' ⟨hd, he, hw⟩ hem
    unfold Out.emit at hem
    rw [Res.bind_eq_ok] at hem
    obtain ⟨⟨rec, k⟩, hwr, hem⟩ := hem
    cases hem
    obtain ⟨header, body, rfl, -, hs, rfl, hcase⟩ := writeRecord_ok hwr
    have hnum : combineSeq (o.keys.heap key) true < 2 ^ 64 := by
      rw [combineSeq_eq (by omega)]
      have := he key
      simp only [if_true]
      omega
    have hh : ∀ {t l}, recordHeader o.keys t (combineSeq (o.keys.heap key) o.keys.datagram) l = .ok header →
        header.length = 13 ∧ beNat ((header.drop 3).take 8) = combineSeq (o.keys.heap key) true := by
      intro t l hh
      have := recordHeader_ok hh
      refine ⟨by rw [this.1, hd]; rfl, ?_⟩
      rw [this.2.2.2.1 hd, hd, Nat.mod_eq_of_lt hnum]
    refine ⟨hd, ?_, ?_⟩
    · intro i
      simp only [upd]
      split
      · exact he key
      · exact he i
    · intro w hwm
      rcases List.mem_append.mp hwm with hwm | hwm
      · exact hw w hwm
      · rw [List.mem_singleton] at hwm
        subst hwm
        refine ⟨hnum, header, body, rfl, ?_⟩
        rcases hcase with ⟨a, nonce, -, -, hhd, -⟩ | ⟨-, -, -, hhd⟩
        · exact hh hhd
        · exact hh hhd
  · intro k w e a iv ⟨hd, he, hw⟩ hm
    refine ⟨hd, ?_, hw⟩
    intro i
    simp only [Keys.rekey, upd]
    split
    · exact h e a iv hm
    · exact he i
  · intro k w s ⟨hd, he, hw⟩
    refine ⟨hd, ?_, hw⟩
    intro i
    simp only [Keys.resetClear, upd]
    split
    · simp [nullCipher]
    · exact he i

theorem headed_run {ops : List OutOp} {o : Out} (he : ShortEpochs ops) (h : Out.new.run ops = .ok o) : Headed o.keys o.wire :=
  Kept.run ops _ _ (headed_kept ops he) ⟨rfl, by simp [Out.new, Keys.new, nullCipher], by simp [Out.new]⟩ h

/-- A protected record that arrives is reported, and so acknowledged, under its number. -/
theorem C77_number_protected (ops : List OutOp) (o : Out) (he : ShortEpochs ops) (h : Out.new.run ops = .ok o) (w : WireRec) (hw : w ∈ o.wire)
    (pt : Plaintext) (hr : ReadFrom w pt) (hp : pt.epoch ≠ 0) : pt.seq = w.number := by
  obtain ⟨-, -, hall⟩ := headed_run he h
  obtain ⟨-, header, body, hb, hl, hn⟩ := hall w hw
  obtain ⟨k, k', any, header', body', hb', hl', hd, hk, ho⟩ := hr
  have hhh : header = header' := (List.append_inj (hb.symm.trans hb') (by omega)).1
  subst hhh
  obtain ⟨i, seq, hsel, -, -, hep, -, -, -, hc⟩ := openRecord_ok ho
  have hseq : seq = beNat ((header.drop 3).take 8) := by
    simp only [selectCipher, hd, if_true] at hsel
    split at hsel
    · simp at hsel
    · split at hsel
      · split at hsel
        · cases hsel; rfl
        · simp at hsel
      · cases hsel; rfl
  rcases hc with ⟨a, -, hs, -⟩ | ⟨hn, -⟩
  · rw [hs, hseq]; exact hn
  · exact absurd hn (hk i (by rw [← hep]; exact hp))

/-- Records in the clear are all reported, and acknowledged, as number 0, whatever number is in their header (record-layer.go:430-437
sets `seq` only when it decrypts). -/
theorem C77_clear_number_fails (k k' : Keys) (any : Bool) (header body : Bytes) (pt : Plaintext)
    (hclear : ∀ i, (k.heap i).epoch = pt.epoch → (k.heap i).aead = none) (h : openRecord k any header body = .ok (pt, k')) :
    pt.seq = 0 := by
  obtain ⟨i, seq, -, -, -, hep, -, -, -, hc⟩ := openRecord_ok h
  rcases hc with ⟨a, ha, -, -⟩ | ⟨-, -, hs, -⟩
  · rw [hclear i hep.symm] at ha; simp at ha
  · exact hs

/-- When an ACK makes one end give up its flight as received, every byte of every message of the flight was in a record that arrived
at the other end: for every history of the two ends in which the network loses, repeats and reorders what they send (every handshake
record that arrives is one that was sent, every ACK one that was sent). Missing: flights with several keys (`C23_mixed_keys_fails`) and
records in the clear (`C77_clear_number_fails`, `C77_lost_fragment_fails`). -/
theorem C77_given_up_only_if_received_partial (ops : List OutOp) (o o' : Out) (data : Bytes) (nb : Bool) (bops : List SideOp) (s : Side)
    (ht : Tame Out.new ops) (hr : Rising Out.new ops) (he : ShortEpochs ops) (ho : Out.new.run ops = .ok o)
    (h : o.processAck data = .ok o') (hq : o'.queued = []) (hb : (Side.new nb).run bops = .ok s)
    (hnet : ∀ pt, SideOp.record pt ∈ bops → pt.seq < 2 ^ 64 ∧
      (pt.contentType = 22 → pt.epoch ≠ 0 ∧ ∃ w ∈ o.wire, ReadFrom w pt))
    (hch : ∀ d, (OutOp.ack d ∈ ops ∨ d = data) → ∃ nums ∈ s.said, IsAck nums d) :
    ∀ m ∈ o.queued, ∀ p, m.Pos p → ∃ w ∈ o.wire, w.Carries m p ∧
      ∃ pt, SideOp.record pt ∈ bops ∧ pt.contentType = 22 ∧ ReadFrom w pt := by
  intro m hm p hp
  obtain ⟨w, hw, hc, ⟨pt, hpt, ht22, hseq⟩, huniq⟩ :=
    given_up_numbers ops o o' data nb bops s ht hr ho h hq hb (fun pt hpt => (hnet pt hpt).1) hch m hm p hp
  obtain ⟨hep, w', hw', hrf⟩ := (hnet pt hpt).2 ht22
  have hnum := C77_number_protected ops o he ho w' hw' pt hrf hep
  have : w' = w := huniq w' hw' (by rw [← hnum, hseq])
  subst this
  exact ⟨w', hw, hc, pt, hpt, ht22, hrf⟩

/-! ### A case that meets the hypotheses -/

/-- A flight of one message under the keys of epoch 2. -/
def keyedFlight : List OutOp := [.version 0x0303, .rekey 2 toyAead toyIv, .queue 8 0 [7, 7, 7], .send]

def keyedOps (pt : Plaintext) : List SideOp := [.out (.version 0x0303), .rekeyIn 2, .record pt, .frame, .ackTimer]

def keyedAck : Bytes := [0, 8, 0, 2, 0, 0, 0, 0, 0, 0]

/-- The keys of the receiver. -/
def keyedReader : Keys := (Keys.new .read true).rekey 2 toyAead toyIv

def keyedCheck : Bool :=
  match Out.new.run keyedFlight with
  | .ok o =>
    (o.queued.map OutMsg.seq == [0]) &&
    (match (o.marked [2 * 2 ^ 48]).sendQueued with
      | .ok (n, _) => n == 0
      | _ => false) &&
    (match o.wire with
      | [w] =>
        match openRecord keyedReader true (w.bytes.take 13) (w.bytes.drop 13) with
        | .ok (pt, _) =>
          decide (13 ≤ w.bytes.length) && pt.contentType == 22 && pt.epoch == 2 && decide (pt.seq = 2 * 2 ^ 48) &&
          (match (Side.new false).run (keyedOps pt) with
            | .ok s => s.said == [[2 * 2 ^ 48]]
            | _ => false)
        | _ => false
      | _ => false)
  | _ => false

example : ∃ o o' pt s, Tame Out.new keyedFlight ∧ Rising Out.new keyedFlight ∧ ShortEpochs keyedFlight ∧
    Out.new.run keyedFlight = .ok o ∧ o.processAck keyedAck = .ok o' ∧ o'.queued = [] ∧ o.queued ≠ [] ∧
    (Side.new false).run (keyedOps pt) = .ok s ∧
    (∀ pt', SideOp.record pt' ∈ keyedOps pt → pt'.seq < 2 ^ 64 ∧
      (pt'.contentType = 22 → pt'.epoch ≠ 0 ∧ ∃ w ∈ o.wire, ReadFrom w pt')) ∧
    (∀ d, (OutOp.ack d ∈ keyedFlight ∨ d = keyedAck) → ∃ nums ∈ s.said, IsAck nums d) := by
  have h : keyedCheck = true := by decide +kernel
  unfold keyedCheck at h
  split at h
  · rename_i o ho
    simp only [Bool.and_eq_true, beq_iff_eq] at h
    obtain ⟨⟨hq, h1⟩, h⟩ := h
    split at h1
    · rename_i n o2 hsend
      simp only [beq_iff_eq] at h1
      subst h1
      split at h
      · rename_i w hwire
        split at h
        · rename_i pt k' hpt
          simp only [Bool.and_eq_true, beq_iff_eq, decide_eq_true_eq] at h
          obtain ⟨⟨⟨⟨hl, -⟩, hep⟩, hseq⟩, h⟩ := h
          split at h
          · rename_i s hs
            refine ⟨o, { o2 with queued := [] }, pt, s, ?_, ?_, ?_, ho, ?_, rfl, ?_, hs, ?_, ?_⟩
            · refine ⟨by simp, fun o h => ?_⟩
              cases h
              refine ⟨by simp, fun o h => ?_⟩
              cases h
              refine ⟨by simp, fun o h => ?_⟩
              cases h
              refine ⟨fun _ => ?_, fun o h => trivial⟩
              simp [OneKey, Out.queue, Out.new]
            · refine ⟨trivial, fun o h => ?_⟩
              cases h
              refine ⟨?_, fun _ _ => ⟨trivial, fun _ _ => ⟨trivial, fun _ _ => trivial⟩⟩⟩
              intro i _; simp [Out.new, Keys.new, Keys.setVersion, nullCipher]
            · intro e a iv hm
              simp only [keyedFlight, List.mem_cons, reduceCtorEq, OutOp.rekey.injEq, List.not_mem_nil, or_false, false_or] at hm
              rw [hm.1]; decide
            · unfold Out.processAck
              rw [show keyedAck = [0, 8, 0, 2, 0, 0, 0, 0, 0, 0] from rfl, ackNumbers_marshal [0x0002000000000000] _ (by decide) (by decide)]
              show (o.marked [2 * 2 ^ 48]).sendQueued.bind _ = _
              rw [hsend]
              rfl
            · intro hc; rw [hc] at hq; simp at hq
            · intro pt' hm
              simp only [keyedOps, List.mem_cons, reduceCtorEq, SideOp.record.injEq, List.not_mem_nil, or_false, false_or] at hm
              subst hm
              refine ⟨by rw [hseq]; decide, fun _ => ⟨by rw [hep]; decide, w, by rw [hwire]; simp, ?_⟩⟩
              refine ⟨keyedReader, k', true, w.bytes.take 13, w.bytes.drop 13, (List.take_append_drop _ _).symm, ?_, rfl, ?_, hpt⟩
              · rw [List.length_take]; omega
              · intro i hi
                simp only [keyedReader, Keys.rekey, upd] at hi ⊢
                split at hi
                · rename_i he; rw [if_pos he]; simp
                · exact absurd rfl hi
            · intro d hd
              simp only [keyedFlight, List.mem_cons, reduceCtorEq, List.not_mem_nil, or_false, false_or] at hd
              refine ⟨[2 * 2 ^ 48], ?_, ?_⟩
              · have : s.said = [[2 * 2 ^ 48]] := by simpa using h
                rw [this]; simp
              · rw [hd]; unfold IsAck keyedAck; decide
          · exact absurd h (by simp)
        · exact absurd h (by simp)
      · exact absurd h (by simp)
    · exact absurd h1 (by simp)
  · exact absurd h (by simp)

/-! ### What goes wrong in the clear -/

/-- A record that does not carry the start of message number `n`. -/
def NotStart (n : Nat) (w : WireRec) : Prop := ∀ off b, w.content = some (n, off, b) → 0 < off

theorem writeLoop_later (m : OutMsg) : ∀ (fuel : Nat) (o : Out) (s written n : Nat) (o' : Out), 0 < s →
    o.writeLoop m fuel s written = .ok (n, o') → ∃ recs, o'.wire = o.wire ++ recs ∧ ∀ w ∈ recs, NotStart m.seq w := by
  intro fuel
  induction fuel with
  | zero => intro o s written n o' _ h; exact absurd h (by simp [Out.writeLoop])
  | succ fuel ih =>
    intro o s written n o' hs h
    simp only [Out.writeLoop] at h
    rw [Res.bind_eq_ok] at h
    obtain ⟨⟨wrote, s1, o1⟩, h1, h⟩ := h
    obtain ⟨-, hs1, new, recs, hw, -, -, hc, -⟩ := writeFragment_ok h1
    have hns : ∀ w ∈ recs, NotStart m.seq w := by
      intro w hwm off b hcont
      rw [hc w hwm] at hcont
      simp only [Option.some.injEq, Prod.mk.injEq] at hcont
      omega
    dsimp only at h
    split at h
    · cases h; exact ⟨recs, hw.wire, hns⟩
    · obtain ⟨recs2, hw2, hn2⟩ := ih _ _ _ _ _ (by omega) h
      refine ⟨recs ++ recs2, by rw [hw2, hw.wire, List.append_assoc], fun w hwm => ?_⟩
      rcases List.mem_append.mp hwm with hwm | hwm
      · exact hns w hwm
      · exact hn2 w hwm

/-- The start of the message counts as acknowledged. -/
structure StartDone (m : OutMsg) (o : Out) : Prop where
  only : ∀ x ∈ o.queued, x = m
  acked : fragmentAcked o.sent m.seq 0 (piece o.room m 0).length = true

theorem StartDone.messages {m : OutMsg} : ∀ (ms : List OutMsg) (o : Out) (written n : Nat) (o' : Out),
    (∀ x ∈ ms, x = m) → fragmentAcked o.sent m.seq 0 (piece o.room m 0).length = true →
    Out.writeMessages ms written o = .ok (n, o') → ∃ recs, o'.wire = o.wire ++ recs ∧ ∀ w ∈ recs, NotStart m.seq w := by
  intro ms
  induction ms with
  | nil => intro o w n o' _ _ h; cases h; exact ⟨[], by simp, by simp⟩
  | cons x ms ih =>
    intro o w n o' hx ha h
    have hxm := hx x (by simp)
    subst hxm
    simp only [Out.writeMessages] at h
    rw [Res.bind_eq_ok] at h
    obtain ⟨⟨n1, o1⟩, h1, h⟩ := h
    obtain ⟨new0, r0, hw0, -⟩ := writeMessages_ok [x] o 0 n1 o1 (by
      simp only [Out.writeMessages]; rw [h1]; simp [Res.bind])
    have first : ∃ recs, o1.wire = o.wire ++ recs ∧ ∀ w ∈ recs, NotStart x.seq w := by
      unfold Out.writeMessage at h1
      split at h1
      · exact absurd h1 (by simp)
      · simp only [Out.writeLoop] at h1
        rw [Res.bind_eq_ok] at h1
        obtain ⟨⟨wrote, s1, o2⟩, h2, h1⟩ := h1
        have hskip : wrote = false ∧ s1 = (piece o.room x 0).length ∧ o2 = o := by
          unfold Out.writeFragment at h2
          split at h2
          · exact absurd h2 (by simp)
          · dsimp only at h2
            rw [piece_eq, ← piece_length, if_pos ha] at h2
            simp only [Res.ok.injEq, Prod.mk.injEq] at h2
            exact ⟨h2.1.symm, by omega, h2.2.2.symm⟩
        obtain ⟨rfl, rfl, rfl⟩ := hskip
        dsimp only at h1
        split at h1
        · cases h1; exact ⟨[], by simp, by simp⟩
        · rename_i hend
          by_cases hz : (piece o2.room x 0).length = 0
          · rw [piece_length] at hz
            obtain ⟨hroom, -⟩ := writeFragment_ok h2
            rw [piece_length] at hend
            omega
          · exact writeLoop_later x _ _ _ _ _ _ (by omega) h1
    obtain ⟨recs, hw1, hn1⟩ := first
    obtain ⟨recs2, hw2, hn2⟩ := ih o1 _ _ _ (fun y hy => hx y (by simp [hy]))
      (by rw [hw0.sent, hw0.room, fragmentAcked_append_unacked _ _ hw0.unacked]; exact ha) h
    refine ⟨recs ++ recs2, by rw [hw2, hw1, List.append_assoc], fun w hwm => ?_⟩
    rcases List.mem_append.mp hwm with hwm | hwm
    · exact hn1 w hwm
    · exact hn2 w hwm

theorem fragmentAcked_marked (nums : List Nat) (sent : List Sent) (seq off len : Nat) (h : fragmentAcked sent seq off len = true) :
    fragmentAcked (markAcked nums sent) seq off len = true := by
  simp only [fragmentAcked, List.any_eq_true, Bool.and_eq_true, beq_iff_eq, decide_eq_true_eq] at h ⊢
  obtain ⟨f, hf, ⟨⟨h1, h2⟩, h3⟩, h4⟩ := h
  simp only [markAcked, List.mem_map]
  refine ⟨_, ⟨f, hf, rfl⟩, ?_⟩
  split
  · exact ⟨⟨⟨rfl, h2⟩, h3⟩, h4⟩
  · exact ⟨⟨⟨h1, h2⟩, h3⟩, h4⟩

theorem startDone_ack {m : OutMsg} {o o2 : Out} {nums : List Nat} {n : Nat} (hs' : StartDone m (o.marked nums))
    (h2 : (o.marked nums).sendQueued = .ok (n, o2)) :
    StartDone m (if n = 0 then { o2 with queued := [] } else { o2 with timer := true }) ∧
      ∃ recs, (if n = 0 then { o2 with queued := [] } else { o2 with timer := true } : Out).wire = o.wire ++ recs ∧
        ∀ w ∈ recs, NotStart m.seq w := by
  obtain ⟨_, _, hw, -⟩ := writeMessages_ok _ _ _ _ _ h2
  obtain ⟨recs, hr1, hr2⟩ := StartDone.messages _ _ _ _ _ hs'.only hs'.acked h2
  have hack : fragmentAcked o2.sent m.seq 0 (piece o2.room m 0).length = true := by
    rw [hw.sent, hw.room, fragmentAcked_append_unacked _ _ hw.unacked]; exact hs'.acked
  have hq : ∀ x ∈ o2.queued, x = m := by intro x hx; rw [hw.queued] at hx; exact hs'.only x hx
  split
  · exact ⟨⟨by simp, hack⟩, recs, hr1, hr2⟩
  · exact ⟨⟨hq, hack⟩, recs, hr1, hr2⟩

/-- Once the start of the only message of a flight counts as acknowledged, it is never sent again, however often the flight is resent
and whatever is acknowledged. -/
theorem never_again (m : OutMsg) : ∀ (ops : List OutOp) (o o' : Out), StartDone m o → (∀ op ∈ ops, op = .send ∨ ∃ d, op = .ack d) →
    o.run ops = .ok o' → ∃ recs, o'.wire = o.wire ++ recs ∧ ∀ w ∈ recs, NotStart m.seq w := by
  intro ops
  induction ops with
  | nil => intro o o' _ _ h; cases h; exact ⟨[], by simp, by simp⟩
  | cons op ops ih =>
    intro o o' hs hops h
    simp only [Out.run] at h
    rw [Res.bind_eq_ok] at h
    obtain ⟨o1, h1, h⟩ := h
    have step : StartDone m o1 ∧ ∃ recs, o1.wire = o.wire ++ recs ∧ ∀ w ∈ recs, NotStart m.seq w := by
      rcases hops op (by simp) with rfl | ⟨d, rfl⟩
      · simp only [Out.op, Res.bind_eq_ok, Res.ok.injEq] at h1
        obtain ⟨⟨n, o2⟩, h2, rfl⟩ := h1
        obtain ⟨_, _, hw, -⟩ := writeMessages_ok _ _ _ _ _ h2
        have hrec := StartDone.messages _ _ _ _ _ hs.only hs.acked h2
        refine ⟨⟨?_, ?_⟩, hrec⟩
        · intro x hx; rw [show ({ o2 with timer := true } : Out).queued = o2.queued from rfl, hw.queued] at hx; exact hs.only x hx
        · show fragmentAcked o2.sent m.seq 0 (piece o2.room m 0).length = true
          rw [hw.sent, hw.room, fragmentAcked_append_unacked _ _ hw.unacked]; exact hs.acked
      · obtain ⟨nums, n, o2, -, h2, rfl⟩ := processAck_ok h1
        exact startDone_ack ⟨hs.only, fragmentAcked_marked _ _ _ _ _ hs.acked⟩ h2
    obtain ⟨hs1, recs, hr1, hr2⟩ := step
    obtain ⟨recs2, hw2, hn2⟩ := ih _ _ hs1 (fun op hop => hops op (by simp [hop])) h
    refine ⟨recs ++ recs2, by rw [hw2, hr1, List.append_assoc], fun w hwm => ?_⟩
    rcases List.mem_append.mp hwm with hwm | hwm
    · exact hr2 w hwm
    · exact hn2 w hwm

/-- A hello in the clear that takes two records. -/
def lostMsg : OutMsg := ⟨2, 0, List.replicate 1200 7, 0⟩

def lostFlight : List OutOp := [.version 0x0303, .queue 2 0 (List.replicate 1200 7), .send]

/-- The second record arrives at the other end, is looked at, and acknowledged when the timer fires. -/
def lostOps (pt : Plaintext) : List SideOp := [.out (.version 0x0303), .record pt, .frame, .ackTimer]

def lostSender : Bool :=
  match Out.new.run lostFlight with
  | .ok o =>
    (o.wire.map (fun w => (w.number, w.content.map fun c => (c.1, c.2.1, c.2.2.length))) == [(0, some (0, 0, 1188)), (1, some (0, 1188, 12))]) &&
    (o.queued == [lostMsg]) && fragmentAcked (markAcked [0] o.sent) 0 0 1188 && (o.room == 1200) &&
    (match (o.marked [0]).sendQueued with
      | .ok (n, o2) => n == 1 && o2.queued == [lostMsg]
      | _ => false)
  | _ => false

def lostReceiver : Bool :=
  match Out.new.run lostFlight with
  | .ok o =>
    match o.wire with
    | [_, w] =>
      match openRecord (Keys.new .read true) true (w.bytes.take 13) (w.bytes.drop 13) with
      | .ok (pt, _) =>
        match (Side.new false).run (lostOps pt) with
        | .ok s => s.said == [[0]]
        | _ => false
      | _ => false
    | _ => false
  | _ => false

/-- The property fails for records in the clear. A message is sent in two records, 0 and 1; the first is lost, the second arrives and is
acknowledged as record 0. From then on the first part of the message, which never arrived, is not sent again, however often the flight
is resent and whatever is acknowledged: the handshake cannot go on. -/
theorem C77_lost_fragment_fails :
    ∃ o w0 w1 pt s data, Out.new.run lostFlight = .ok o ∧ o.wire = [w0, w1] ∧ o.queued = [lostMsg] ∧
      w0.content.map (fun c => c.2.1) = some 0 ∧ w1.content.map (fun c => c.2.1) = some 1188 ∧
      ReadFrom w1 pt ∧ (Side.new false).run (lostOps pt) = .ok s ∧ s.said = [[0]] ∧ IsAck [0] data ∧
      (∃ o1, o.processAck data = .ok o1 ∧ o1.queued = [lostMsg]) ∧
      ∀ o1, o.processAck data = .ok o1 → ∀ ops o2, (∀ op ∈ ops, op = .send ∨ ∃ d, op = .ack d) → o1.run ops = .ok o2 →
        ∀ w ∈ o2.wire, w ∈ o.wire ∨ NotStart 0 w := by
  have h1 : lostSender = true := by decide +kernel
  have h2 : lostReceiver = true := by decide +kernel
  unfold lostSender at h1
  unfold lostReceiver at h2
  split at h1
  · rename_i o ho
    rw [ho] at h2
    dsimp only at h2
    simp only [Bool.and_eq_true, beq_iff_eq] at h1
    obtain ⟨⟨⟨⟨hw, hq⟩, hack⟩, hroom⟩, hagain⟩ := h1
    split at h2
    · rename_i w0 w1 hwire
      split at h2
      · rename_i pt k' hpt
        split at h2
        · rename_i s hs
          rw [hwire] at hw
          simp only [List.map_cons, List.map_nil, List.cons.injEq, Prod.mk.injEq, and_true, Option.map_eq_some_iff] at hw
          obtain ⟨⟨-, c0, hc0, hc0'⟩, -, c1, hc1, hc1'⟩ := hw
          have hlen : w1.bytes.length ≥ 13 := by
            apply Classical.byContradiction
            intro hlt
            have hd : w1.bytes.drop 13 = [] := List.drop_eq_nil_of_le (by omega)
            obtain ⟨_, _, hrec⟩ := (headed_run (ops := lostFlight) (by
              intro e a iv hm; simp only [lostFlight, List.mem_cons, reduceCtorEq, List.not_mem_nil, or_false] at hm) ho).2.2 w1 (by rw [hwire]; simp)
            obtain ⟨b, hb, hl, -⟩ := hrec
            rw [hb, List.length_append] at hlt
            omega
          refine ⟨o, w0, w1, pt, s, [0, 8, 0, 0, 0, 0, 0, 0, 0, 0], ho, hwire, hq, by rw [hc0]; simp [hc0'], by rw [hc1]; simp [hc1'], ?_, hs,
            by simpa using h2, by unfold IsAck; decide, ?_, ?_⟩
          · refine ⟨Keys.new .read true, k', true, w1.bytes.take 13, w1.bytes.drop 13, (List.take_append_drop _ _).symm, ?_, rfl, ?_, hpt⟩
            · rw [List.length_take]; omega
            · intro i hi; exact absurd rfl hi
          · split at hagain
            · rename_i n o2 hsend
              simp only [Bool.and_eq_true, beq_iff_eq] at hagain
              obtain ⟨rfl, hq2⟩ := hagain
              refine ⟨{ o2 with timer := true }, ?_, hq2⟩
              unfold Out.processAck
              rw [ackNumbers_marshal [0] _ (by decide) (by decide)]
              show (o.marked [0]).sendQueued.bind _ = _
              rw [hsend]
              rfl
            · exact absurd hagain (by simp)
          · intro o1 hp ops o2 hops hrun w hwm
            obtain ⟨nums, n, o3, hnum, hsend, rfl⟩ := processAck_ok hp
            rw [ackNumbers_marshal [0] _ (by decide) (by decide)] at hnum
            cases hnum
            have hsd : StartDone lostMsg (o.marked [0]) := by
              refine ⟨?_, ?_⟩
              · intro x hx
                rw [show (o.marked [0]).queued = o.queued from rfl, hq] at hx
                exact List.mem_singleton.mp hx
              · show fragmentAcked (markAcked [0] o.sent) 0 0 (piece o.room lostMsg 0).length = true
                rw [piece_length, hroom, show min (lostMsg.body.length - 0) (1200 - 12) = 1188 by
                  simp only [lostMsg, List.length_replicate]; rfl]
                exact hack
            obtain ⟨hs1, recs, hr1, hr2⟩ := startDone_ack hsd hsend
            obtain ⟨recs2, hr3, hr4⟩ := never_again lostMsg ops _ _ hs1 hops hrun
            rw [hr3, hr1] at hwm
            rcases List.mem_append.mp hwm with hwm | hwm
            · rcases List.mem_append.mp hwm with hwm | hwm
              · exact .inl hwm
              · exact .inr (hr2 w hwm)
            · exact .inr (hr4 w hwm)
        · exact absurd h2 (by simp)
      · exact absurd h2 (by simp)
    · exact absurd h2 (by simp)
  · exact absurd h1 (by simp)

end Verif.Handshake
