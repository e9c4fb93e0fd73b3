import Verif.Handshake.Ack
import Verif.Props.Flight

/-
C77: acknowledgements over DTLS. What an end acknowledges is what reached it. (That a flight is given up only if it reached the peer,
and where the record layer reports wrong numbers, is in `Verif.Props.AckRecords`.) The theorems speak of the history of an end (`SideOp`: records that arrive, timers, the ends of flights), of the
record numbers in the ACKs it gives to the transport (`said`) and of the records on the wire.
-/

namespace Verif.Handshake

open Verif Verif.Record

/-! ### Specification -/

/-- The numbers of the handshake records (as the record layer reports them) that arrived since the last end of a flight, protected with the keys for reading that were
current (epoch `e`) when they arrived. -/
def arrived (e : Nat) (acc : List Nat) : List SideOp → List Nat
  | [] => acc
  | .record pt :: ops => if pt.contentType = 22 ∧ pt.epoch = e then arrived e (acc ++ [pt.seq]) ops else arrived e acc ops
  | .endOfFlight :: ops => arrived e [] ops
  | .rekeyIn n :: ops => arrived n acc ops
  | _ :: ops => arrived e acc ops

/-- The handshake record with number `n` is among what arrived. -/
def Reached (ops : List SideOp) (n : Nat) : Prop := ∃ pt, SideOp.record pt ∈ ops ∧ pt.contentType = 22 ∧ pt.seq = n

/-- `data` is the ACK with the numbers `nums`: RFC 9147 section 7, `RecordNumber record_numbers<0..2^16-1>`, each 8 bytes here. -/
def IsAck (nums : List Nat) (data : Bytes) : Prop :=
  data = beBytes 2 (8 * nums.length) ++ (nums.map (beBytes 8)).flatten

/-! ### What an end acknowledges -/

theorem check_keeps (h : HsIn) : h.check.2.recvd = h.recvd ∧ h.check.2.epoch = h.epoch := by
  unfold HsIn.check
  split
  · exact ⟨rfl, rfl⟩
  · split
    · exact ⟨rfl, rfl⟩
    · split
      · exact ⟨rfl, rfl⟩
      · split <;> exact ⟨rfl, rfl⟩

theorem received_keeps (h : HsIn) (m : Msg) : (h.received m).2.recvd = h.recvd ∧ (h.received m).2.epoch = h.epoch := by
  unfold HsIn.received
  split
  · exact ⟨rfl, rfl⟩
  · split
    · exact ⟨rfl, rfl⟩
    · exact check_keeps _

theorem receivedHandshake_keeps (s : Side) : s.receivedHandshake.hin = s.hin ∧ s.receivedHandshake.said = s.said ∧
    s.receivedHandshake.out.wire = s.out.wire := by
  unfold Side.receivedHandshake
  dsimp only
  split <;> exact ⟨rfl, rfl, rfl⟩

theorem frame_keeps (s : Side) : s.frame.2.hin.recvd = s.hin.recvd ∧ s.frame.2.hin.epoch = s.hin.epoch ∧ s.frame.2.said = s.said ∧
    s.frame.2.out.wire = s.out.wire := by
  unfold Side.frame
  split
  · exact ⟨rfl, rfl, rfl, rfl⟩
  · exact ⟨rfl, rfl, rfl, rfl⟩
  · rename_i hdr body f _
    dsimp only
    have hk := received_keeps { s.hin with frame := f } (parseFrag hdr body)
    split
    · exact ⟨hk.1, hk.2, rfl, rfl⟩
    · obtain ⟨h1, h2, h3⟩ := receivedHandshake_keeps { s with hin := { s.hin with frame := f } }
      rw [h1, h2, h3]
      exact ⟨hk.1, hk.2, rfl, rfl⟩

theorem sendAck_ok {s s' : Side} (h : s.sendAck = .ok s') :
    ∃ body o, Syntax.marshal ackTy ((s.hin.recvd.take ackCount).map UInt64.ofNat, ()) = .ok body ∧
      s.out.emit s.out.keys.cur 25 body none = .ok o ∧
      s' = { s with out := o, said := s.said ++ [s.hin.recvd.take ackCount] } := by
  unfold Side.sendAck at h
  simp only [Res.bind_eq_ok, Res.ok.injEq] at h
  obtain ⟨b, hb, o, ho, rfl⟩ := h
  exact ⟨b, o, hb, ho, rfl⟩

/-- One step: what arrived, and what is said of it. -/
theorem op_arrived {s s' : Side} {op : SideOp} (h : s.op op = .ok s') :
    (∀ ops, arrived s'.hin.epoch s'.hin.recvd ops = arrived s.hin.epoch s.hin.recvd (op :: ops)) ∧
    (s'.said = s.said ∨ s'.said = s.said ++ [s.hin.recvd.take ackCount]) := by
  cases op with
  | record pt =>
    simp only [Side.op, Side.record] at h
    split at h
    · rename_i h25
      simp only [Res.bind_eq_ok, Res.ok.injEq] at h
      obtain ⟨o, -, rfl⟩ := h
      refine ⟨fun ops => ?_, .inl rfl⟩
      simp only [arrived]
      rw [if_neg (by rw [h25]; simp)]
    · rename_i h25
      simp only [Res.bind_eq_ok, Res.ok.injEq] at h
      obtain ⟨hi, hr, rfl⟩ := h
      refine ⟨fun ops => ?_, .inl rfl⟩
      simp only [arrived]
      simp only [HsIn.readRecord, h25, if_false] at hr
      split at hr
      · simp at hr
      · split at hr
        · split at hr <;> simp at hr
        · rename_i hn h21
          have h22 : pt.contentType = 22 := by
            apply Classical.byContradiction
            intro hne
            exact hn ⟨hne, h21, h25⟩
          split at hr
          · rename_i hep
            rw [if_neg (by intro hc; exact hep hc.2)]
            split at hr
            · cases hr; rfl
            · simp at hr
          · rename_i hep
            cases hr
            rw [if_pos ⟨h22, by simpa using hep⟩]
  | frame =>
    cases h
    obtain ⟨h1, h2, h3, -⟩ := frame_keeps s
    exact ⟨fun ops => by rw [h1, h2]; rfl, .inl h3⟩
  | available =>
    cases h
    obtain ⟨h1, h2⟩ := check_keeps s.hin
    exact ⟨fun ops => by simp only [h1, h2]; rfl, .inl rfl⟩
  | endOfFlight => cases h; exact ⟨fun _ => rfl, .inl rfl⟩
  | finalFlight =>
    simp only [Side.op, Side.finalFlight] at h
    split at h
    · rename_i s1 hs
      cases h
      obtain ⟨_, _, -, -, rfl⟩ := sendAck_ok hs
      exact ⟨fun _ => rfl, .inr rfl⟩
    · cases h; exact ⟨fun _ => rfl, .inl rfl⟩
    · simp at h
    · simp at h
  | ackTimer =>
    simp only [Side.op] at h
    split at h
    · obtain ⟨_, _, -, -, rfl⟩ := sendAck_ok h
      exact ⟨fun _ => rfl, .inr rfl⟩
    · cases h; exact ⟨fun _ => rfl, .inl rfl⟩
  | rekeyIn n =>
    simp only [Side.op, Res.bind_eq_ok, Res.ok.injEq] at h
    obtain ⟨hi, hr, rfl⟩ := h
    unfold HsIn.rekeyIn at hr
    split at hr
    · simp at hr
    · cases hr; exact ⟨fun _ => rfl, .inl rfl⟩
  | out op =>
    simp only [Side.op, Res.bind_eq_ok, Res.ok.injEq] at h
    obtain ⟨o, -, rfl⟩ := h
    exact ⟨fun _ => rfl, .inl rfl⟩

theorem run_arrived : ∀ (ops : List SideOp) (s s' : Side), s.run ops = .ok s' →
    s'.hin.recvd = arrived s.hin.epoch s.hin.recvd ops ∧
    ∀ nums ∈ s'.said, nums ∈ s.said ∨ ∃ pre post, ops = pre ++ post ∧ nums = (arrived s.hin.epoch s.hin.recvd pre).take ackCount := by
  intro ops
  induction ops with
  | nil => intro s s' h; cases h; exact ⟨rfl, fun _ hn => .inl hn⟩
  | cons op ops ih =>
    intro s s' h
    simp only [Side.run, Res.bind_eq_ok] at h
    obtain ⟨s1, h1, h⟩ := h
    obtain ⟨ha, hs⟩ := op_arrived h1
    obtain ⟨hr, hsaid⟩ := ih _ _ h
    refine ⟨by rw [hr, ha], fun nums hn => ?_⟩
    rcases hsaid nums hn with hm | ⟨pre, post, rfl, rfl⟩
    · rcases hs with hs | hs
      · rw [hs] at hm; exact .inl hm
      · rw [hs, List.mem_append, List.mem_singleton] at hm
        rcases hm with hm | rfl
        · exact .inl hm
        · exact .inr ⟨[], op :: ops, rfl, rfl⟩
    · exact .inr ⟨op :: pre, post, rfl, by rw [ha]⟩

/-- Every ACK an end sends lists the first 149 of the handshake records that had arrived in the current flight when it was sent, in
the order of arrival. -/
theorem C77_truthful (nb : Bool) (ops : List SideOp) (s : Side) (h : (Side.new nb).run ops = .ok s) :
    ∀ nums ∈ s.said, ∃ pre post, ops = pre ++ post ∧ nums = (arrived 0 [] pre).take 149 := by
  intro nums hn
  rcases (run_arrived ops _ _ h).2 nums hn with hm | hm
  · simp [Side.new] at hm
  · exact hm

theorem arrived_reached : ∀ (ops : List SideOp) (e : Nat) (acc : List Nat) (n : Nat), n ∈ arrived e acc ops →
    n ∈ acc ∨ Reached ops n := by
  intro ops
  induction ops with
  | nil => intro e acc n h; exact .inl h
  | cons op ops ih =>
    intro e acc n h
    have lift : ∀ {n}, Reached ops n → Reached (op :: ops) n := fun ⟨pt, h1, h2⟩ => ⟨pt, List.mem_cons_of_mem _ h1, h2⟩
    cases op with
    | record pt =>
      simp only [arrived] at h
      split at h
      · rename_i hc
        rcases ih _ _ _ h with h | h
        · rcases List.mem_append.mp h with h | h
          · exact .inl h
          · exact .inr ⟨pt, by simp, hc.1, (List.mem_singleton.mp h).symm⟩
        · exact .inr (lift h)
      · exact (ih _ _ _ h).imp_right lift
    | endOfFlight =>
      rcases ih _ _ _ h with h | h
      · simp at h
      · exact .inr (lift h)
    | rekeyIn m => exact (ih _ _ _ h).imp_right lift
    | frame => exact (ih _ _ _ h).imp_right lift
    | available => exact (ih _ _ _ h).imp_right lift
    | finalFlight => exact (ih _ _ _ h).imp_right lift
    | ackTimer => exact (ih _ _ _ h).imp_right lift
    | out o => exact (ih _ _ _ h).imp_right lift

/-- Nothing is acknowledged that did not arrive. -/
theorem C77_only_what_arrived (nb : Bool) (ops : List SideOp) (s : Side) (h : (Side.new nb).run ops = .ok s) :
    ∀ nums ∈ s.said, ∀ n ∈ nums, Reached ops n := by
  intro nums hn n hm
  obtain ⟨pre, post, rfl, rfl⟩ := C77_truthful nb ops s h nums hn
  rcases arrived_reached pre 0 [] n (List.mem_of_mem_take hm) with h | ⟨pt, h1, h2⟩
  · simp at h
  · exact ⟨pt, List.mem_append_left _ h1, h2⟩

/-! ### The ACK on the wire -/

theorem encodeAll_u64 (o : Syntax.Opts) (ho : o.varint = false) : ∀ nums : List Nat, (∀ n ∈ nums, n < 2 ^ 64) →
    Syntax.encodeAll (fun a => Syntax.Ty.encode (.uint .w8) o a) (nums.map UInt64.ofNat) = .ok (nums.map (beBytes 8)).flatten := by
  intro nums
  induction nums with
  | nil => intro _; rfl
  | cons n nums ih =>
    intro h
    have hn := h n (by simp)
    simp only [List.map_cons, List.flatten_cons, Syntax.encodeAll]
    rw [ih (fun x hx => h x (by simp [hx]))]
    simp only [Syntax.Ty.encode, ho, Bool.false_eq_true, if_false, Res.bind]
    have : Syntax.Width.getNat (Syntax.Width.w8) (UInt64.ofNat n) = n := by
      show (UInt64.ofNat n).toNat = n
      simp [Nat.mod_eq_of_lt hn]
    rw [this]
    rfl

theorem flatten8_length (nums : List Nat) : ((nums.map (beBytes 8)).flatten).length = 8 * nums.length := by
  induction nums with
  | nil => rfl
  | cons n nums ih => simp [ih]; omega

/-- The encoding of an ACK. -/
theorem ack_marshal (nums : List Nat) (hl : 8 * nums.length < 2 ^ 16) (h : ∀ n ∈ nums, n < 2 ^ 64) :
    Syntax.marshal ackTy (nums.map UInt64.ofNat, ()) = .ok (beBytes 2 (8 * nums.length) ++ (nums.map (beBytes 8)).flatten) := by
  unfold Syntax.marshal
  rw [if_pos (by decide)]
  have he := encodeAll_u64 { headerSize := 2 } rfl nums h
  simp only [ackTy, Syntax.Ty.encode, Syntax.Fields.encode] at he ⊢
  rw [he]
  simp only [Res.bind, flatten8_length, Syntax.encodeLength]
  have hz : (8 * nums.length) >>> 16 = 0 := by rw [Nat.shiftRight_eq_div_pow]; omega
  simp [hz]
  rw [if_neg (by omega)]

theorem ack_numbers {nums : List Nat} {data : Bytes} (ha : IsAck nums data) (hl : 8 * nums.length < 2 ^ 16)
    (h : ∀ n ∈ nums, n < 2 ^ 64) : ackNumbers data = .ok nums := by
  have hm := ack_marshal nums hl h
  rw [← ha] at hm
  have hlen : data.length < 2 ^ 63 := by
    rw [ha, List.length_append, flatten8_length, beBytes_length]
    omega
  rw [ackNumbers_marshal _ _ hm hlen]
  congr 1
  rw [List.map_map]
  conv => rhs; rw [← List.map_id nums]
  apply List.map_congr_left
  intro n hn
  simp [Nat.mod_eq_of_lt (h n hn)]

/-- What is given to the transport when an end acknowledges: one record of type ack under the current keys. Its content is the list of
numbers, at most 149, and the peer reads just these from it. The content is at most 1194 bytes. Nothing else about the sending side is
changed but the key's counter. -/
theorem C77_ack_sent (s s' : Side) (h64 : ∀ n ∈ s.hin.recvd, n < 2 ^ 64) (h : s.sendAck = .ok s') :
    ∃ body rec k, IsAck (s.hin.recvd.take 149) body ∧ body.length ≤ 1194 ∧ ackNumbers body = .ok (s.hin.recvd.take 149) ∧
      writeRecord s.out.keys s.out.keys.cur 25 body 0 = .ok (rec, k) ∧
      s'.said = s.said ++ [s.hin.recvd.take 149] ∧
      s'.out = { s.out with keys := k, wire := s.out.wire ++ [⟨s.out.keys.cur, combineSeq (s.out.keys.heap s.out.keys.cur) true, none, rec⟩] } := by
  obtain ⟨body, o, hm, he, rfl⟩ := sendAck_ok h
  have hlen : (s.hin.recvd.take 149).length ≤ 149 := by rw [List.length_take]; omega
  have h64' : ∀ n ∈ s.hin.recvd.take 149, n < 2 ^ 64 := fun n hn => h64 n (List.mem_of_mem_take hn)
  have hm' := ack_marshal _ (by omega) h64'
  have hb : IsAck (s.hin.recvd.take 149) body := by
    have : Res.ok body = _ := hm.symm.trans hm'
    exact Res.ok.inj this
  unfold Out.emit at he
  rw [Res.bind_eq_ok] at he
  obtain ⟨⟨rec, k⟩, hw, he⟩ := he
  cases he
  refine ⟨body, rec, k, hb, ?_, ack_numbers hb (by omega) h64', hw, rfl, rfl⟩
  rw [hb, List.length_append, flatten8_length, beBytes_length]
  omega

/-- An ACK is sent unless the record cannot be written. -/
theorem C77_ack_not_refused (s : Side) (h64 : ∀ n ∈ s.hin.recvd, n < 2 ^ 64) :
    (∃ s', s.sendAck = .ok s') ∨ ∃ body, IsAck (s.hin.recvd.take 149) body ∧ ∀ r, writeRecord s.out.keys s.out.keys.cur 25 body 0 ≠ .ok r := by
  have hlen : (s.hin.recvd.take 149).length ≤ 149 := by rw [List.length_take]; omega
  have hm := ack_marshal (s.hin.recvd.take 149) (by omega) (fun n hn => h64 n (List.mem_of_mem_take hn))
  generalize hb : beBytes 2 (8 * (s.hin.recvd.take 149).length) ++ ((s.hin.recvd.take 149).map (beBytes 8)).flatten = body at hm
  by_cases hw : ∃ r, writeRecord s.out.keys s.out.keys.cur 25 body 0 = .ok r
  · obtain ⟨⟨rec, k⟩, hw⟩ := hw
    left
    unfold Side.sendAck
    rw [show ackCount = 149 from rfl, hm]
    simp only [Res.bind, Out.emit, hw]
    exact ⟨_, rfl⟩
  · exact .inr ⟨body, hb.symm, fun r hr => hw ⟨r, hr⟩⟩

/-! ### When -/

/-- A fragment of a message not yet delivered arms the timer that sends an ACK. -/
theorem C77_armed (s : Side) (hdr body : Bytes) (f : FrameReader)
    (h : s.hin.frame.process (hsFraming true) = (some (.ok (hdr, body)), f))
    (hseq : s.hin.msgSeq ≤ beNat ((hdr.drop 4).take 2)) : s.frame.2.ackTimer = true := by
  unfold Side.frame
  rw [h]
  dsimp only
  rw [if_neg (by show ¬ beNat ((hdr.drop 4).take 2) < s.hin.msgSeq; omega)]
  rfl

/-- When it fires an ACK is sent (or the record cannot be written, which ends the connection). -/
theorem C77_timer (s s' : Side) (ha : s.ackTimer = true) (h : s.op .ackTimer = .ok s') :
    s'.said = s.said ++ [s.hin.recvd.take 149] ∧ s'.ackTimer = false := by
  simp only [Side.op, ha, if_true] at h
  obtain ⟨_, _, -, -, rfl⟩ := sendAck_ok h
  exact ⟨rfl, rfl⟩

/-- The last flight of the handshake is acknowledged at once. -/
theorem C77_final_flight (s s' : Side) (h64 : ∀ n ∈ s.hin.recvd, n < 2 ^ 64) (h : s.op .finalFlight = .ok s') :
    s'.said = s.said ++ [s.hin.recvd.take 149] ∨
      ∃ body, IsAck (s.hin.recvd.take 149) body ∧ ∀ r, writeRecord s.out.keys s.out.keys.cur 25 body 0 ≠ .ok r := by
  rcases C77_ack_not_refused { s with ackTimer := false } h64 with ⟨s1, h1⟩ | h1
  · left
    simp only [Side.op, Side.finalFlight, h1] at h
    cases h
    obtain ⟨_, _, -, -, rfl⟩ := sendAck_ok h1
    rfl
  · exact .inr h1

/-- Before the version is set (a server sets it when it accepts a ClientHello) the timer crashes the program: whatever arrives, if
nothing was done on the sending side. -/
theorem C77_ack_too_early_fails (s : Side) (hv : s.out.keys.version = 0) (hd : s.out.keys.datagram = true)
    (h64 : ∀ n ∈ s.hin.recvd, n < 2 ^ 64) (ha : s.ackTimer = true) : s.op .ackTimer = .panic := by
  have hlen : (s.hin.recvd.take 149).length ≤ 149 := by rw [List.length_take]; omega
  have hm := ack_marshal (s.hin.recvd.take 149) (by omega) (fun n hn => h64 n (List.mem_of_mem_take hn))
  simp only [Side.op, ha, if_true]
  unfold Side.sendAck
  rw [show ackCount = 149 from rfl]
  dsimp only
  rw [hm]
  simp only [Res.bind, Out.emit, writeRecord, recordHeader, hd, hv, if_true, dtlsConvertVersion]
  cases (s.out.keys.heap s.out.keys.cur).aead <;> rfl

/-- What an end sees when the peer sends again what was accepted already: handshake records, and in them no fragment of a message
not delivered. -/
def OldNews : Side → List SideOp → Prop
  | _, [] => True
  | s, op :: ops =>
    (match op with
      | .record pt => pt.contentType = 22
      | .frame => ∀ hdr body f, s.hin.frame.process (hsFraming true) = (some (.ok (hdr, body)), f) →
          beNat ((hdr.drop 4).take 2) < s.hin.msgSeq
      | .available => True
      | .ackTimer => True
      | _ => False) ∧ ∀ s', s.op op = .ok s' → OldNews s' ops

/-- A flight that comes again is not acknowledged again: when the ACK of the last flight is lost, the peer sends the flight again and
again and never gets an answer. RFC 9147 section 5.8.1 requires that the ACK is sent again. -/
theorem C77_repeated_flight_fails : ∀ (ops : List SideOp) (s s' : Side), s.ackTimer = false → OldNews s ops → s.run ops = .ok s' →
    s'.said = s.said ∧ s'.out.wire = s.out.wire ∧ s'.ackTimer = false := by
  intro ops
  induction ops with
  | nil => intro s s' ht _ h; cases h; exact ⟨rfl, rfl, ht⟩
  | cons op ops ih =>
    intro s s' ht ho h
    simp only [Side.run, Res.bind_eq_ok] at h
    obtain ⟨s1, h1, h⟩ := h
    have hnext := ho.2 s1 h1
    have key : s1.said = s.said ∧ s1.out.wire = s.out.wire ∧ s1.ackTimer = false := by
      have ho1 := ho.1
      cases op with
      | record pt =>
        dsimp only at ho1
        simp only [Side.op, Side.record, ho1] at h1
        rw [if_neg (by decide)] at h1
        simp only [Res.bind_eq_ok, Res.ok.injEq] at h1
        obtain ⟨_, -, rfl⟩ := h1
        exact ⟨rfl, rfl, ht⟩
      | frame =>
        cases h1
        obtain ⟨-, -, h3, h4⟩ := frame_keeps s
        refine ⟨h3, h4, ?_⟩
        unfold Side.frame
        split
        · exact ht
        · exact ht
        · rename_i hdr body f hp
          dsimp only
          rw [if_pos (show (parseFrag hdr body).seq < s.hin.msgSeq from ho1 hdr body f hp)]
          exact ht
      | available => cases h1; exact ⟨rfl, rfl, ht⟩
      | ackTimer => simp only [Side.op, ht] at h1; cases h1; exact ⟨rfl, rfl, ht⟩
      | endOfFlight => exact absurd ho1 (by simp)
      | finalFlight => exact absurd ho1 (by simp)
      | rekeyIn n => exact absurd ho1 (by simp)
      | out o => exact absurd ho1 (by simp)
    obtain ⟨a, b, c⟩ := ih s1 s' key.2.2 hnext h
    exact ⟨a.trans key.1, b.trans key.2.1, c⟩

theorem arrived_prefix : ∀ (ops : List SideOp) (e : Nat) (acc : List Nat), SideOp.endOfFlight ∉ ops →
    ∃ more, arrived e acc ops = acc ++ more := by
  intro ops
  induction ops with
  | nil => intro e acc _; exact ⟨[], by simp [arrived]⟩
  | cons op ops ih =>
    intro e acc h
    rw [List.mem_cons, not_or] at h
    cases op with
    | record pt =>
      simp only [arrived]
      split
      · obtain ⟨m, hm⟩ := ih e (acc ++ [pt.seq]) h.2
        exact ⟨[pt.seq] ++ m, by rw [hm, List.append_assoc]⟩
      · exact ih _ _ h.2
    | endOfFlight => exact absurd rfl h.1
    | rekeyIn m => exact ih _ _ h.2
    | frame => exact ih _ _ h.2
    | available => exact ih _ _ h.2
    | finalFlight => exact ih _ _ h.2
    | ackTimer => exact ih _ _ h.2
    | out o => exact ih _ _ h.2

/-- Once 149 records have arrived in a flight, further ones are never acknowledged while the flight lasts: every ACK lists the same
149 numbers, the oldest. RFC 9147 section 7 asks for the most recent to be kept, and for every record to be acknowledged. -/
theorem C77_too_many_fails (nb : Bool) (ops more : List SideOp) (s s' : Side) (h : (Side.new nb).run ops = .ok s)
    (hmany : 149 ≤ (arrived 0 [] ops).length) (hno : SideOp.endOfFlight ∉ more) (h' : s.run more = .ok s') :
    ∀ nums ∈ s'.said, nums ∈ s.said ∨ nums = (arrived 0 [] ops).take 149 := by
  have h1 := (run_arrived ops _ _ h).1
  have h1' : s.hin.recvd = arrived 0 [] ops := h1
  intro nums hn
  rcases (run_arrived more _ _ h').2 nums hn with hm | ⟨pre, post, rfl, rfl⟩
  · exact .inl hm
  · right
    obtain ⟨m, hm⟩ := arrived_prefix pre s.hin.epoch s.hin.recvd (fun hc => hno (List.mem_append_left _ hc))
    rw [hm, h1', show ackCount = 149 from rfl, List.take_append_of_le_length hmany]

/-! ### A flight is given up only if it arrived -/

theorem run_acks : ∀ (ops : List OutOp) (o o' : Out), o.run ops = .ok o' →
    ∀ n ∈ o'.acks, n ∈ o.acks ∨ ∃ d nums, OutOp.ack d ∈ ops ∧ ackNumbers d = .ok nums ∧ n ∈ nums := by
  intro ops
  induction ops with
  | nil => intro o o' h n hn; cases h; exact .inl hn
  | cons op ops ih =>
    intro o o' h n hn
    simp only [Out.run, Res.bind_eq_ok] at h
    obtain ⟨o1, h1, h⟩ := h
    rcases ih _ _ h n hn with hm | ⟨d, nums, hd, hx⟩
    · have same : o1.acks = o.acks → _ := fun e => (Or.inl (e ▸ hm) : n ∈ o.acks ∨
        ∃ d nums, OutOp.ack d ∈ op :: ops ∧ ackNumbers d = .ok nums ∧ n ∈ nums)
      cases op with
      | queue t s b => cases h1; exact same rfl
      | send =>
        simp only [Out.op, Res.bind_eq_ok, Res.ok.injEq] at h1
        obtain ⟨⟨k, o2⟩, h2, rfl⟩ := h1
        obtain ⟨_, _, hw, -⟩ := writeMessages_ok _ _ _ _ _ h2
        exact same hw.acks
      | ack d =>
        obtain ⟨nums, k, o2, hnum, h2, rfl⟩ := processAck_ok h1
        obtain ⟨_, _, hw, -⟩ := writeMessages_ok _ _ _ _ _ h2
        have : n ∈ o2.acks := by
          split at hm <;> exact hm
        rw [hw.acks] at this
        rcases List.mem_append.mp this with h3 | h3
        · exact .inl h3
        · exact .inr ⟨d, nums, by simp, hnum, h3⟩
      | nextFlight => cases h1; exact same rfl
      | rekey e a iv => cases h1; exact same rfl
      | resetClear s => cases h1; exact same rfl
      | version v => cases h1; exact same rfl
      | other ct f =>
        obtain ⟨rec, rfl, -⟩ := emit_ok h1
        exact same rfl
    · exact .inr ⟨d, nums, List.mem_cons_of_mem _ hd, hx⟩

/-- When an ACK makes one end give up its flight as received, then every byte of every message of the flight is in a record on the wire
whose number the record layer of the other end reported for a record that arrived there. (What this says of the record itself is in
`Verif.Props.AckRecords`.) -/
theorem given_up_numbers (ops : List OutOp) (o o' : Out) (data : Bytes) (nb : Bool) (bops : List SideOp) (s : Side)
    (ht : Tame Out.new ops) (hr : Rising Out.new ops) (ho : Out.new.run ops = .ok o) (h : o.processAck data = .ok o')
    (hq : o'.queued = []) (hb : (Side.new nb).run bops = .ok s) (h64 : ∀ pt, SideOp.record pt ∈ bops → pt.seq < 2 ^ 64)
    (hch : ∀ d, (OutOp.ack d ∈ ops ∨ d = data) → ∃ nums ∈ s.said, IsAck nums d) :
    ∀ m ∈ o.queued, ∀ p, m.Pos p → ∃ w ∈ o.wire, w.Carries m p ∧ Reached bops w.number ∧
      ∀ w' ∈ o.wire, w'.number = w.number → w' = w := by
  intro m hm p hp
  obtain ⟨w, hw, hack, hc⟩ := C23_delivered_only_if_acked_partial ops o o' data ht ho h hq m hm p hp
  refine ⟨w, hw, hc, ?_, fun w' hw' e => C23_numbers_unique ops o hr ho w' hw' w hw e⟩
  have hrun : Out.new.run (ops ++ [.ack data]) = .ok o' := by
    have : ∀ (l : List OutOp) (a : Out), a.run (l ++ [.ack data]) = (a.run l).bind fun b => b.processAck data := by
      intro l
      induction l with
      | nil => intro a; simp only [List.nil_append, Out.run, Out.op, Res.bind]; cases a.processAck data <;> rfl
      | cons x l ih => intro a; simp only [List.cons_append, Out.run]; cases a.op x <;> simp [Res.bind, ih]
    rw [this, ho]
    exact h
  rcases run_acks _ _ _ hrun _ hack with hx | ⟨d, nums, hd, hnum, hin⟩
  · simp [Out.new] at hx
  · obtain ⟨nums', hs, hia⟩ := hch d (by
      rcases List.mem_append.mp hd with hd | hd
      · exact .inl hd
      · exact .inr (by simpa using hd))
    obtain ⟨pre, post, rfl, hnums'⟩ := C77_truthful nb bops s hb nums' hs
    have hlen : nums'.length ≤ 149 := by rw [hnums', List.length_take]; omega
    have hall := C77_only_what_arrived nb _ s hb nums' hs
    have := ack_numbers hia (by omega) (fun n hn => by
      obtain ⟨pt, h1, -, rfl⟩ := hall n hn
      exact h64 pt h1)
    rw [this] at hnum
    cases hnum
    exact hall _ hin

/-! ### The size of datagrams -/

/-- The AEADs in use add at most `k` bytes. -/
def AddsAtMost (k : Nat) (ops : List OutOp) : Prop :=
  ∀ e a iv, OutOp.rekey e a iv ∈ ops → ∀ n p h, (a.sealing n p h).length ≤ p.length + k

structure Sized (o : Out) : Prop where
  room : o.room = 1200
  dg : o.keys.datagram = true
  seals : ∀ i a, (o.keys.heap i).aead = some a → ∀ n p h, (a.sealing n p h).length ≤ p.length + 16
  fits : ∀ w ∈ o.wire, w.content ≠ none → w.bytes.length ≤ 1230

theorem sized_emit {o o' : Out} {key : Nat} {ct : UInt8} {f : Bytes} {c : Option (Nat × Nat × Bytes)} (hs : Sized o)
    (hf : c ≠ none → f.length ≤ 1200) (h : o.emit key ct f c = .ok o') : Sized o' := by
  unfold Out.emit at h
  rw [Res.bind_eq_ok] at h
  obtain ⟨⟨rec, k⟩, hw, h⟩ := h
  cases h
  obtain ⟨header, body, rfl, -, -, rfl, hcase⟩ := writeRecord_ok hw
  refine ⟨hs.room, hs.dg, ?_, ?_⟩
  · intro i a hi
    simp only [upd] at hi
    split at hi
    · exact hs.seals key a hi
    · exact hs.seals i a hi
  · intro w hwm hne
    rcases List.mem_append.mp hwm with hwm | hwm
    · exact hs.fits w hwm hne
    · rw [List.mem_singleton] at hwm
      subst hwm
      have hf' := hf hne
      have hh : ∀ {t q l}, recordHeader o.keys t q l = .ok header → header.length = 13 := by
        intro t q l hh
        rw [(recordHeader_ok hh).1, hs.dg]
        rfl
      rcases hcase with ⟨a, nonce, ha, -, hhd, -, rfl⟩ | ⟨-, -, rfl, hhd⟩
      · have h1 := hs.seals key a ha nonce (innerPlaintext ct f 0) header
        have h2 := hh hhd
        simp only [innerPlaintext, List.length_append, List.length_cons, List.replicate_zero, List.length_nil] at h1
        simp only [List.length_append]
        simp only [innerPlaintext, List.replicate_zero]
        omega
      · have h2 := hh hhd
        simp only [List.length_append]
        omega

theorem sized_loop (m : OutMsg) : ∀ (fuel : Nat) (o : Out) (s written n : Nat) (o' : Out), Sized o →
    o.writeLoop m fuel s written = .ok (n, o') → Sized o' := by
  intro fuel
  induction fuel with
  | zero => intro o s written n o' _ h; exact absurd h (by simp [Out.writeLoop])
  | succ fuel ih =>
    intro o s written n o' hs h
    simp only [Out.writeLoop] at h
    rw [Res.bind_eq_ok] at h
    obtain ⟨⟨wrote, s1, o1⟩, h1, h⟩ := h
    have h1' : Sized o1 := by
      unfold Out.writeFragment at h1
      split at h1
      · exact absurd h1 (by simp)
      · dsimp only at h1
        split at h1
        · cases h1; exact hs
        · rw [Res.bind_eq_ok] at h1
          obtain ⟨o2, h2, h1⟩ := h1
          cases h1
          generalize hsent : (_ ++ _ : List Sent) = sent at h2
          refine sized_emit (o := { o with sent := sent }) ⟨hs.room, hs.dg, hs.seals, hs.fits⟩ (fun _ => ?_) h2
          simp only [Msg.marshal, if_true, List.length_append, List.length_cons, beBytes_length, List.length_take,
            List.length_drop, hs.room]
          omega
    dsimp only at h
    split at h
    · cases h; exact h1'
    · exact ih _ _ _ _ _ h1' h

theorem sized_messages : ∀ (ms : List OutMsg) (o : Out) (written n : Nat) (o' : Out), Sized o →
    Out.writeMessages ms written o = .ok (n, o') → Sized o' := by
  intro ms
  induction ms with
  | nil => intro o w n o' hn h; cases h; exact hn
  | cons m ms ih =>
    intro o w n o' hn h
    simp only [Out.writeMessages] at h
    rw [Res.bind_eq_ok] at h
    obtain ⟨⟨n1, o1⟩, h1, h⟩ := h
    unfold Out.writeMessage at h1
    split at h1
    · exact absurd h1 (by simp)
    · exact ih _ _ _ _ (sized_loop m _ _ _ _ _ _ hn h1) h

theorem sized_run : ∀ (ops : List OutOp) (o o' : Out), Sized o → AddsAtMost 16 ops → o.run ops = .ok o' → Sized o' := by
  intro ops
  induction ops with
  | nil => intro o o' hn _ h; cases h; exact hn
  | cons op ops ih =>
    intro o o' hs ha h
    simp only [Out.run] at h
    rw [Res.bind_eq_ok] at h
    obtain ⟨o1, h1, h⟩ := h
    refine ih o1 o' ?_ (fun e a iv hm => ha e a iv (List.mem_cons_of_mem _ hm)) h
    clear ih h
    cases op with
    | queue t s b => cases h1; exact ⟨hs.room, hs.dg, hs.seals, hs.fits⟩
    | send =>
      simp only [Out.op] at h1
      rw [Res.bind_eq_ok] at h1
      obtain ⟨⟨n, o2⟩, h2, h1⟩ := h1
      cases h1
      have := sized_messages _ _ _ _ _ hs h2
      exact ⟨this.room, this.dg, this.seals, this.fits⟩
    | ack data =>
      obtain ⟨nums, n, o2, -, h2, rfl⟩ := processAck_ok h1
      have := sized_messages _ (o.marked nums) _ _ _ ⟨hs.room, hs.dg, hs.seals, hs.fits⟩ h2
      split <;> exact ⟨this.room, this.dg, this.seals, this.fits⟩
    | nextFlight => cases h1; exact ⟨hs.room, hs.dg, hs.seals, hs.fits⟩
    | rekey e a iv =>
      cases h1
      refine ⟨hs.room, hs.dg, ?_, hs.fits⟩
      intro i b hi
      simp only [Keys.rekey, upd] at hi
      split at hi
      · cases hi; exact ha e a iv (by simp)
      · exact hs.seals i b hi
    | resetClear s =>
      cases h1
      refine ⟨hs.room, hs.dg, ?_, hs.fits⟩
      intro i b hi
      simp only [Keys.resetClear, upd] at hi
      split at hi
      · simp [nullCipher] at hi
      · exact hs.seals i b hi
    | version v => cases h1; exact ⟨hs.room, hs.dg, hs.seals, hs.fits⟩
    | other ct f => exact sized_emit hs (fun hc => absurd rfl hc) h1

/-- Every record with a handshake fragment given to the transport over DTLS is at most 1230 bytes long, so it fits into a UDP datagram
on every path that carries IPv6 (1280 bytes less 48 of headers): for all messages and AEADs that add at most 16 bytes. -/
theorem C77_datagram_size (ops : List OutOp) (o : Out) (ha : AddsAtMost 16 ops) (h : Out.new.run ops = .ok o) :
    ∀ w ∈ o.wire, w.content ≠ none → w.bytes.length ≤ 1230 :=
  (sized_run ops _ _ ⟨rfl, rfl, by simp [Out.new, Keys.new, nullCipher], by simp [Out.new]⟩ ha h).fits

/-! ### Cases that meet the hypotheses -/

/-- A ClientHello-like message of three bytes, complete in one record. -/
def newsBytes : Bytes := Msg.marshal true ⟨1, 0, [7, 7, 7], 0, 3⟩

def newsRecord : Plaintext := { contentType := 22, epoch := 0, seq := 0, fragment := newsBytes }

/-- The record arrives, is looked at, and after a while acknowledged; then it comes again. -/
def newsOps : List SideOp :=
  [.out (.version 0x0303), .available, .record newsRecord, .frame, .ackTimer]

def newsCheck : Bool :=
  match (Side.new false).run newsOps with
  | .ok s => decide (s.said = [[0]] ∧ s.hin.recvd = [0] ∧ s.out.wire.length = 1) && !s.ackTimer
  | _ => false

theorem news_ran : ∃ s, (Side.new false).run newsOps = .ok s ∧ s.said = [[0]] ∧ s.hin.recvd = [0] ∧ s.ackTimer = false := by
  have h : newsCheck = true := by decide +kernel
  unfold newsCheck at h
  split at h
  · rename_i s hs
    simp only [Bool.and_eq_true, decide_eq_true_eq, Bool.not_eq_true'] at h
    exact ⟨s, hs, h.1.1, h.1.2.1, h.2⟩
  · exact absurd h (by simp)

example : arrived 0 [] newsOps = [0] := by decide +kernel

/-- The sender: the flight was sent, then the ACK arrives. -/
def ackedFlight : List OutOp := [.version 0x0303, .queue 1 0 [7, 7, 7], .send]

def ackedCheck : Bool :=
  match Out.new.run ackedFlight with
  | .ok o =>
    (o.queued.map OutMsg.seq == [0]) &&
    (match (o.marked [0]).sendQueued with
      | .ok (n, _) => n == 0
      | _ => false)
  | _ => false

example : ∃ o o' data s, Tame Out.new ackedFlight ∧ Rising Out.new ackedFlight ∧ Out.new.run ackedFlight = .ok o ∧
    o.processAck data = .ok o' ∧ o'.queued = [] ∧ o.queued ≠ [] ∧ (Side.new false).run newsOps = .ok s ∧
    (∀ pt, SideOp.record pt ∈ newsOps → pt.seq < 2 ^ 64) ∧
    (∀ d, (OutOp.ack d ∈ ackedFlight ∨ d = data) → ∃ nums ∈ s.said, IsAck nums d) := by
  obtain ⟨s, hs, hsaid, -, -⟩ := news_ran
  have h : ackedCheck = true := by decide +kernel
  unfold ackedCheck at h
  split at h
  · rename_i o ho
    simp only [Bool.and_eq_true, beq_iff_eq] at h
    obtain ⟨hq, h⟩ := h
    split at h
    · rename_i n o2 hsend
      simp only [beq_iff_eq] at h
      subst h
      refine ⟨o, { o2 with queued := [] }, [0, 8, 0, 0, 0, 0, 0, 0, 0, 0], s, ?_, ?_, ho, ?_, rfl, ?_, hs, ?_, ?_⟩
      · refine ⟨by simp, fun o h => ?_⟩
        cases h
        refine ⟨by simp, fun o h => ?_⟩
        cases h
        refine ⟨fun _ => ?_, fun o h => trivial⟩
        simp [OneKey, Out.queue, Out.new]
      · exact ⟨trivial, fun _ _ => ⟨trivial, fun _ _ => ⟨trivial, fun _ _ => trivial⟩⟩⟩
      · unfold Out.processAck
        rw [ackNumbers_marshal [0] _ (by decide) (by decide)]
        show (o.marked [0]).sendQueued.bind _ = _
        rw [hsend]
        rfl
      · intro hc; rw [hc] at hq; simp at hq
      · intro pt hpt
        simp only [newsOps, List.mem_cons, List.not_mem_nil, or_false, reduceCtorEq, false_or, SideOp.record.injEq] at hpt
        rw [hpt]; decide
      · intro d hd
        simp only [ackedFlight, List.mem_cons, List.not_mem_nil, or_false, reduceCtorEq, false_or] at hd
        exact ⟨[0], by rw [hsaid]; simp, by rw [hd]; unfold IsAck; decide⟩
    · exact absurd h (by simp)
  · exact absurd h (by simp)

/-- The first of two fragments of a ClientHello arrives at a new server, and the timer fires. -/
def earlyCheck : Bool :=
  match (Side.new false).run [.record { newsRecord with fragment := Msg.marshal true ⟨1, 0, [7, 7, 7], 0, 6⟩ }, .frame] with
  | .ok s => s.ackTimer && s.out.keys.version == 0 && s.out.keys.datagram && decide (s.hin.recvd = [0])
  | _ => false

example : earlyCheck = true := by decide +kernel

/-- The record comes again after the message was delivered: nothing is said. -/
def againCheck : Bool :=
  match (Side.new false).run (newsOps ++ [.available, .record { newsRecord with seq := 1 }, .frame, .ackTimer]) with
  | .ok s => decide (s.said = [[0]] ∧ s.hin.recvd = [0, 1] ∧ s.out.wire.length = 1) && !s.ackTimer
  | _ => false

example : againCheck = true := by decide +kernel

/-- 150 records arrive; the last is not acknowledged. -/
def floodCheck : Bool :=
  match (Side.new false).run ((.out (.version 0x0303)) ::
      (List.range 150).map (fun i => .record { newsRecord with seq := i, fragment := [] })) with
  | .ok s =>
    match s.run [.record { newsRecord with seq := 150 }, .frame, .ackTimer] with
    | .ok s' => decide (s'.said = [List.range 149])
    | _ => false
  | _ => false

example : floodCheck = true := by decide +kernel

/-- An AEAD that adds 16 bytes. -/
def wideAead : Aead where
  overhead := 16
  sealing _ p _ := p ++ List.replicate 16 0xAA
  opening _ c _ := some (c.take (c.length - 16))

/-- A flight with a long message, protected. -/
def wideFlight : List OutOp :=
  [.version 0x0303, .rekey 2 wideAead (List.replicate 12 0), .queue 11 0 (List.replicate 2000 7), .send]

theorem wide_adds : AddsAtMost 16 wideFlight := by
  intro e a iv h
  simp only [wideFlight, List.mem_cons, List.not_mem_nil, or_false, reduceCtorEq, false_or, OutOp.rekey.injEq] at h
  obtain ⟨-, rfl, -⟩ := h
  intro n p h
  simp [wideAead]

def wideCheck : Bool :=
  match Out.new.run wideFlight with
  | .ok o => o.wire.map (fun w => w.bytes.length) == [1230, 854]
  | _ => false

/-- The bound is met, and it is above the 1200 bytes (`initialMtu`) that fragments are cut for: header and tag of the record are not
taken into account. -/
theorem C77_mtu_fails : AddsAtMost 16 wideFlight ∧ ∃ o, Out.new.run wideFlight = .ok o ∧
    o.wire.map (fun w => w.bytes.length) = [1230, 854] := by
  refine ⟨wide_adds, ?_⟩
  have h : wideCheck = true := by decide +kernel
  unfold wideCheck at h
  split at h
  · rename_i o ho
    exact ⟨o, ho, by simpa using h⟩
  · exact absurd h (by simp)

end Verif.Handshake
