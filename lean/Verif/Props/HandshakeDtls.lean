import Verif.Props.HandshakeTls

/-
Property C20: reassembly of DTLS handshake messages.
-/

namespace Verif.Handshake

open Verif Verif.Record

/-! ### Specification -/

/-- The fragment of a message (type `t`, number `n`, body `B`) that carries the bytes from `x.1` on, `x.2` of them. -/
def slice (t : UInt8) (n : Nat) (B : Bytes) (x : Nat × Nat) : Msg :=
  ⟨t, n, (B.drop x.1).take x.2, x.1, B.length⟩

/-- The whole message, as ReadMessage returns it. -/
def whole (t : UInt8) (n : Nat) (B : Bytes) : Msg := ⟨t, n, B, 0, B.length⟩

/-- Every byte of a message of length `L` lies in one of the ranges (and there is one, for the empty message). -/
def Covers (L : Nat) (xs : List (Nat × Nat)) : Prop :=
  xs ≠ [] ∧ ∀ i, i < L → ∃ x ∈ xs, x.1 ≤ i ∧ i < x.1 + x.2

/-! ### Assembly of sorted slices -/

theorem copyAt_slice (B buf : Bytes) (fin : Nat) (x : Nat × Nat) (hx : x.1 + x.2 ≤ B.length) (hb : buf.length = B.length)
    (hp : buf.take fin = B.take fin) (ho : x.1 ≤ fin) :
    ∃ buf', copyAt buf x.1 ((B.drop x.1).take x.2) = .ok buf' ∧ buf'.length = B.length ∧
      buf'.take (x.1 + x.2) = B.take (x.1 + x.2) := by
  have hlen : ((B.drop x.1).take x.2).length = x.2 := by simp; omega
  have htake : buf.take x.1 = B.take x.1 := by
    have := congrArg (List.take x.1) hp
    rwa [List.take_take, List.take_take, Nat.min_eq_left ho] at this
  refine ⟨_, by rw [copyAt, if_neg (by omega)], ?_, ?_⟩
  · simp only [List.length_append, List.length_take, List.length_drop]; omega
  · rw [List.take_of_length_le (l := (B.drop x.1).take x.2) (by omega), htake]
    have h1 : (B.take x.1 ++ (B.drop x.1).take x.2).length = x.1 + x.2 := by
      rw [List.length_append, hlen, List.length_take]; omega
    rw [List.take_left' h1, List.take_add]

/-- On fragments of one message sorted by offset, the walk succeeds exactly if nothing is missing, and then it
gives the message. -/
theorem assemble_slices (t : UInt8) (n : Nat) (B : Bytes) (xs : List (Nat × Nat))
    (hx : ∀ x ∈ xs, x.1 + x.2 ≤ B.length) (hs : xs.Pairwise fun x y => x.1 ≤ y.1) (fin : Nat) (buf : Bytes)
    (hf : fin < B.length) (hb : buf.length = B.length) (hp : buf.take fin = B.take fin) :
    ((∀ i, fin ≤ i → i < B.length → ∃ x ∈ xs, x.1 ≤ i ∧ i < x.1 + x.2) →
      assemble n B.length (xs.map (slice t n B)) fin buf = .ok (some B)) ∧
    (¬ (∀ i, fin ≤ i → i < B.length → ∃ x ∈ xs, x.1 ≤ i ∧ i < x.1 + x.2) →
      assemble n B.length (xs.map (slice t n B)) fin buf = .ok none) := by
  induction xs generalizing fin buf with
  | nil =>
    refine ⟨fun h => ?_, fun _ => rfl⟩
    obtain ⟨x, hx, _⟩ := h fin (Nat.le_refl _) hf
    simp at hx
  | cons x xs ih =>
    have hx1 := hx x List.mem_cons_self
    have hlen : ((B.drop x.1).take x.2).length = x.2 := by simp; omega
    have ih' := ih (fun y hy => hx y (List.mem_cons_of_mem _ hy)) (List.pairwise_cons.mp hs).2
    have hfirst := (List.pairwise_cons.mp hs).1
    rw [List.map_cons, assemble]
    simp only [slice, hlen, hb]
    rw [if_neg (by omega), if_neg (by simp)]
    by_cases ho : x.1 > fin
    · rw [if_pos ho]
      refine ⟨fun h => ?_, fun _ => rfl⟩
      obtain ⟨y, hy, h1, h2⟩ := h fin (Nat.le_refl _) hf
      rcases List.mem_cons.mp hy with rfl | hy
      · omega
      · have := hfirst y hy; omega
    · rw [if_neg ho]
      by_cases hg : x.1 + x.2 > fin
      · rw [if_pos hg]
        obtain ⟨buf', h1, h2, h3⟩ := copyAt_slice B buf fin x hx1 hb hp (by omega)
        rw [h1, Res.bind_ok]
        by_cases he : x.1 + x.2 = B.length
        · rw [if_pos he]
          refine ⟨fun _ => ?_, fun h => absurd (fun i hi hl => ⟨x, List.mem_cons_self, by omega, by omega⟩) h⟩
          rw [he, List.take_of_length_le (by omega), List.take_of_length_le (Nat.le_refl _)] at h3
          rw [h3]
        · rw [if_neg he]
          have := ih' (x.1 + x.2) buf' (by omega) h2 h3
          have hiff : (∀ i, fin ≤ i → i < B.length → ∃ y ∈ x :: xs, y.1 ≤ i ∧ i < y.1 + y.2) ↔
              (∀ i, x.1 + x.2 ≤ i → i < B.length → ∃ y ∈ xs, y.1 ≤ i ∧ i < y.1 + y.2) := by
            constructor
            · intro h i hi hl
              obtain ⟨y, hy, h1, h2⟩ := h i (by omega) hl
              rcases List.mem_cons.mp hy with rfl | hy
              · omega
              · exact ⟨y, hy, h1, h2⟩
            · intro h i hi hl
              by_cases hlt : i < x.1 + x.2
              · exact ⟨x, List.mem_cons_self, by omega, hlt⟩
              · obtain ⟨y, hy, hh⟩ := h i (by omega) hl
                exact ⟨y, List.mem_cons_of_mem _ hy, hh⟩
          rw [hiff]
          exact this
      · rw [if_neg hg]
        have := ih' fin buf hf hb hp
        have hiff : (∀ i, fin ≤ i → i < B.length → ∃ y ∈ x :: xs, y.1 ≤ i ∧ i < y.1 + y.2) ↔
            (∀ i, fin ≤ i → i < B.length → ∃ y ∈ xs, y.1 ≤ i ∧ i < y.1 + y.2) := by
          constructor
          · intro h i hi hl
            obtain ⟨y, hy, h1, h2⟩ := h i (by omega) hl
            rcases List.mem_cons.mp hy with rfl | hy
            · omega
            · exact ⟨y, hy, h1, h2⟩
          · intro h i hi hl
            obtain ⟨y, hy, hh⟩ := h i (by omega) hl
            exact ⟨y, List.mem_cons_of_mem _ hy, hh⟩
        rw [hiff]
        exact this

/-! ### The queue while one message is coming in -/

/-- Insertion by offset. -/
def insertRange (x : Nat × Nat) : List (Nat × Nat) → List (Nat × Nat)
  | [] => [x]
  | y :: ys => if x.1 < y.1 then x :: y :: ys else y :: insertRange x ys

theorem mem_insertRange {x y : Nat × Nat} {q : List (Nat × Nat)} : y ∈ insertRange x q ↔ y = x ∨ y ∈ q := by
  induction q with
  | nil => simp [insertRange]
  | cons z q ih =>
    rw [insertRange]
    split
    · simp
    · simp only [List.mem_cons, ih]
      constructor
      · rintro (h | h | h) <;> simp [h]
      · rintro (h | h | h) <;> simp [h]

theorem insertRange_sorted (x : Nat × Nat) (q : List (Nat × Nat)) (hs : q.Pairwise fun x y => x.1 ≤ y.1) :
    (insertRange x q).Pairwise fun x y => x.1 ≤ y.1 := by
  induction q with
  | nil => simp [insertRange]
  | cons z q ih =>
    obtain ⟨h1, h2⟩ := List.pairwise_cons.mp hs
    rw [insertRange]
    split
    · rename_i hlt
      refine List.pairwise_cons.mpr ⟨fun y hy => ?_, hs⟩
      rcases List.mem_cons.mp hy with rfl | hy
      · omega
      · have := h1 y hy; omega
    · refine List.pairwise_cons.mpr ⟨fun y hy => ?_, ih h2⟩
      rcases mem_insertRange.mp hy with rfl | hy
      · omega
      · exact h1 y hy

theorem insertFrag_slice (t : UInt8) (n : Nat) (B : Bytes) (x : Nat × Nat) (q : List (Nat × Nat)) :
    insertFrag (slice t n B x) (q.map (slice t n B)) = (insertRange x q).map (slice t n B) := by
  induction q with
  | nil => rfl
  | cons y q ih =>
    rw [List.map_cons, insertFrag, insertRange]
    by_cases h : x.1 < y.1
    · rw [if_pos h, if_pos (Or.inr (show (slice t n B x).offset < (slice t n B y).offset from h))]; rfl
    · rw [if_neg h, if_neg (by simp only [slice]; omega), ih]; rfl

/-- A range that is the whole message is covering. -/
theorem slice_complete_iff (t : UInt8) (n : Nat) (B : Bytes) (x : Nat × Nat) (hx : x.1 + x.2 ≤ B.length) :
    ((slice t n B x).offset = 0 ∧ (slice t n B x).length = (slice t n B x).body.length) ↔
      x = (0, B.length) := by
  obtain ⟨o, l⟩ := x
  simp only [slice, List.length_take, List.length_drop, Prod.mk.injEq] at *
  constructor
  · rintro ⟨rfl, h⟩; omega
  · rintro ⟨rfl, rfl⟩; omega

/-- While message `n` is incomplete: the queue holds what arrived, sorted. -/
structure Waiting (t : UInt8) (n : Nat) (B : Bytes) (h : HsIn) (seen : List (Nat × Nat)) : Prop where
  turn : h.msgSeq = n
  queue : ∃ q : List (Nat × Nat), h.queued = q.map (slice t n B) ∧ (∀ x, x ∈ q ↔ x ∈ seen) ∧
    q.Pairwise fun x y => x.1 ≤ y.1
  range : ∀ x ∈ seen, x.1 + x.2 ≤ B.length
  missing : ¬ Covers B.length seen

theorem not_covers_ne_whole {L : Nat} {seen : List (Nat × Nat)} (hm : ¬ Covers L seen) :
    ∀ x ∈ seen, x ≠ (0, L) := by
  rintro x hx rfl
  refine hm ⟨List.ne_nil_of_mem hx, fun i hi => ⟨_, hx, by omega, by omega⟩⟩

/-- The check on a queue of slices none of which is the whole message. -/
theorem HsIn.check_slices (t : UInt8) (B : Bytes) (h : HsIn) (q : List (Nat × Nat))
    (hq : h.queued = q.map (slice t h.msgSeq B)) (hx : ∀ x ∈ q, x.1 + x.2 ≤ B.length)
    (hw : ∀ x ∈ q, x ≠ (0, B.length)) (hs : q.Pairwise fun x y => x.1 ≤ y.1) :
    (Covers B.length q → h.check = (.ok (some (whole t h.msgSeq B)), h.noteDelivered h.msgSeq)) ∧
    (¬ Covers B.length q → h.check = (.ok none, h)) := by
  cases q with
  | nil =>
    refine ⟨fun h => absurd rfl h.1, fun _ => ?_⟩
    unfold HsIn.check; rw [hq]; rfl
  | cons x q =>
    have hcompl := mt (slice_complete_iff t h.msgSeq B x (hx x List.mem_cons_self)).mp (hw x List.mem_cons_self)
    have hpos : 0 < B.length := by
      rcases Nat.eq_zero_or_pos B.length with h0 | h0
      · have h1 := hx x List.mem_cons_self
        exact absurd (Prod.ext (by omega) (by omega : x.2 = B.length)) (hw x List.mem_cons_self)
      · exact h0
    have ha := assemble_slices t h.msgSeq B (x :: q) hx hs 0 (List.replicate B.length 0) hpos (by simp) (by simp)
    have hiff : Covers B.length (x :: q) ↔
        ∀ i, 0 ≤ i → i < B.length → ∃ y ∈ x :: q, y.1 ≤ i ∧ i < y.1 + y.2 := by
      constructor
      · intro hc i _ hl; exact hc.2 i hl
      · intro hc; exact ⟨by simp, fun i hl => hc i (Nat.zero_le _) hl⟩
    rw [← hiff] at ha
    have hcheck : h.check = match assemble h.msgSeq B.length ((x :: q).map (slice t h.msgSeq B)) 0
        (List.replicate B.length 0) with
      | .ok none => (.ok none, h)
      | .ok (some buf) => (.ok (some ⟨t, h.msgSeq, buf, 0, B.length⟩), h.noteDelivered h.msgSeq)
      | .err e => (.err e, h)
      | .panic => (.panic, h)
      | .diverge => (.diverge, h) := by
      unfold HsIn.check
      rw [hq, List.map_cons]
      dsimp only
      rw [if_neg (by simp [slice]), if_neg hcompl]
      rfl
    rw [hcheck]
    constructor
    · intro hc; rw [ha.1 hc]; rfl
    · intro hc; rw [ha.2 hc]

theorem covers_congr {L : Nat} {xs ys : List (Nat × Nat)} (h : ∀ x, x ∈ xs ↔ x ∈ ys) :
    Covers L xs ↔ Covers L ys := by
  have hne : ∀ {xs ys : List (Nat × Nat)}, (∀ x, x ∈ xs ↔ x ∈ ys) → Covers L xs → Covers L ys := by
    intro xs ys h ⟨h1, h2⟩
    refine ⟨?_, fun i hi => ?_⟩
    · obtain ⟨x, hx⟩ := List.exists_mem_of_ne_nil _ h1
      exact List.ne_nil_of_mem ((h x).mp hx)
    · obtain ⟨x, hx, hh⟩ := h2 i hi
      exact ⟨x, (h x).mp hx, hh⟩
  exact ⟨hne h, hne fun x => (h x).symm⟩

/-- Nothing is available while the message is incomplete. -/
theorem HsIn.check_waiting {t : UInt8} {n : Nat} {B : Bytes} {h : HsIn} {seen : List (Nat × Nat)}
    (hw : Waiting t n B h seen) : h.check = (.ok none, h) := by
  obtain ⟨rfl, ⟨q, hq, hm, hs⟩, hr, hmiss⟩ := hw
  have hmq : ¬ Covers B.length q := mt (covers_congr hm).mp hmiss
  exact (HsIn.check_slices t B h q hq (fun x hx => hr x ((hm x).mp hx)) (not_covers_ne_whole hmq) hs).2 hmq

/-- A further fragment arrives. -/
theorem HsIn.received_waiting {t : UInt8} {n : Nat} {B : Bytes} {h : HsIn} {seen : List (Nat × Nat)}
    (hw : Waiting t n B h seen) (x : Nat × Nat) (hx : x.1 + x.2 ≤ B.length) :
    (Covers B.length (seen ++ [x]) → (h.received (slice t n B x)).1 = .ok (some (whole t n B)) ∧
      (h.received (slice t n B x)).2.msgSeq = n + 1 ∧
      ∀ f ∈ (h.received (slice t n B x)).2.queued, f.seq = n) ∧
    (¬ Covers B.length (seen ++ [x]) → (h.received (slice t n B x)).1 = .ok none ∧
      Waiting t n B (h.received (slice t n B x)).2 (seen ++ [x])) := by
  obtain ⟨rfl, ⟨q, hq, hm, hs⟩, hr, hmiss⟩ := hw
  have hseq : ∀ f ∈ h.queued, f.seq = h.msgSeq := by
    intro f hf
    rw [hq] at hf
    obtain ⟨y, _, rfl⟩ := List.mem_map.mp hf
    rfl
  have hlt : ¬ (slice t h.msgSeq B x).seq < h.msgSeq := by simp [slice]
  by_cases hwhole : x = (0, B.length)
  · have hc : Covers B.length (seen ++ [x]) :=
      ⟨by simp, fun i hi => ⟨x, by simp, by rw [hwhole]; simp, by rw [hwhole]; simpa using hi⟩⟩
    refine ⟨fun _ => ?_, fun hn => absurd hc hn⟩
    have hrec : h.received (slice t h.msgSeq B x) =
        (.ok (some (slice t h.msgSeq B x)), h.noteDelivered h.msgSeq) := by
      unfold HsIn.received
      rw [if_neg hlt, if_pos ⟨rfl, (slice_complete_iff t h.msgSeq B x hx).mpr hwhole⟩]
      rfl
    rw [hrec]
    refine ⟨?_, rfl, fun f hf => ?_⟩
    · rw [hwhole]; simp [slice, whole]
    · simp only [HsIn.noteDelivered] at hf
      exact hseq f (List.mem_of_mem_drop hf)
  · have hrec : h.received (slice t h.msgSeq B x) =
        { h with queued := (insertRange x q).map (slice t h.msgSeq B) }.check := by
      unfold HsIn.received
      rw [if_neg hlt, if_neg (fun hh => hwhole ((slice_complete_iff t h.msgSeq B x hx).mp hh.2)), hq,
        insertFrag_slice]
    have hmq : ¬ Covers B.length q := mt (covers_congr hm).mp hmiss
    have hck := HsIn.check_slices t B { h with queued := (insertRange x q).map (slice t h.msgSeq B) }
      (insertRange x q) rfl
      (fun y hy => by
        rcases mem_insertRange.mp hy with rfl | hy
        · exact hx
        · exact hr y ((hm y).mp hy))
      (fun y hy => by
        rcases mem_insertRange.mp hy with rfl | hy
        · exact hwhole
        · exact not_covers_ne_whole hmq y hy)
      (insertRange_sorted x q hs)
    have hmem : ∀ y, y ∈ insertRange x q ↔ y ∈ seen ++ [x] := by
      intro y
      rw [mem_insertRange, List.mem_append, List.mem_singleton, hm]
      exact Or.comm
    rw [covers_congr hmem] at hck
    rw [hrec]
    constructor
    · intro hc
      rw [hck.1 hc]
      refine ⟨rfl, rfl, fun f hf => ?_⟩
      simp only [HsIn.noteDelivered] at hf
      obtain ⟨y, _, rfl⟩ := List.mem_map.mp (List.mem_of_mem_drop hf)
      rfl
    · intro hc
      rw [hck.2 hc]
      refine ⟨rfl, rfl, ⟨insertRange x q, rfl, hmem, insertRange_sorted x q hs⟩, fun y hy => ?_, hc⟩
      rcases List.mem_append.mp hy with hy | hy
      · exact hr y hy
      · rw [List.mem_singleton.mp hy]; exact hx

/-! ### One fragment per record -/

/-- Frame reader between DTLS fragments. -/
def Idle (f : FrameReader) : Prop := f.inBody = false ∧ f.target = 12 ∧ f.filled = [] ∧ f.remainder = []

theorem process_idle (d : Framing) (f : FrameReader) (hdr body : Bytes) (hb : f.inBody = false)
    (ht : f.target = d.headerLen) (hf : f.filled = []) (hr : f.remainder = hdr ++ body)
    (hl : hdr.length = d.headerLen) (hlen : d.frameLen hdr = .ok body.length) :
    f.process d = (some (.ok (hdr, body)), ⟨false, hdr, d.headerLen, [], []⟩) := by
  obtain ⟨ib, hh, tg, fl, rm⟩ := f
  dsimp only at hb ht hf hr
  subst hb ht hf hr
  have hn1 : FrameReader.needed ⟨false, hh, d.headerLen, [], hdr ++ body⟩ = 0 :=
    (FrameReader.needed_eq_zero (by simp)).mpr (by simp; omega)
  have hn2 : FrameReader.needed ⟨true, hdr, body.length, [], body⟩ = 0 :=
    (FrameReader.needed_eq_zero (by simp)).mpr (by simp)
  have hf1 : FrameReader.fill ⟨false, hh, d.headerLen, [], hdr ++ body⟩ = ⟨false, hh, d.headerLen, hdr, body⟩ := by
    have : min d.headerLen (hdr ++ body).length = hdr.length := by rw [List.length_append]; omega
    simp only [FrameReader.fill, List.length_nil, Nat.sub_zero, this, List.nil_append]
    rw [List.take_left' rfl, List.drop_left' rfl]
  have hf2 : FrameReader.fill ⟨true, hdr, body.length, [], body⟩ = ⟨true, hdr, body.length, body, []⟩ := by
    simp [FrameReader.fill]
  rw [FrameReader.process, FrameReader.processN, if_pos hn1, hf1]
  dsimp only
  rw [if_neg (by omega), if_neg (by simp), hlen]
  dsimp only
  rw [FrameReader.processN, if_pos hn2, hf2]
  dsimp only
  rw [if_neg (by omega)]
  rfl

/-- A fragment whose fields fit the wire format. -/
structure Msg.Fits (m : Msg) : Prop where
  seq : m.seq < 2 ^ 16
  offset : m.offset < 2 ^ 24
  length : m.length < 2 ^ 24
  body : m.body.length < 2 ^ 24

/-- The header written by Marshal for DTLS. -/
def dtlsHeader (m : Msg) : Bytes :=
  m.msgType :: (beBytes 3 m.length ++ (beBytes 2 m.seq ++ (beBytes 3 m.offset ++ beBytes 3 m.body.length)))

theorem marshal_dtls (m : Msg) : m.marshal true = dtlsHeader m ++ m.body := by
  simp [Msg.marshal, dtlsHeader]

theorem dtlsHeader_length (m : Msg) : (dtlsHeader m).length = 12 := by simp [dtlsHeader]

theorem dtlsHeader_frameLen (m : Msg) (hm : m.Fits) : (hsFraming true).frameLen (dtlsHeader m) = .ok m.body.length := by
  simp only [hsFraming, Except.ok.injEq, dtlsHeader_length]
  have : (dtlsHeader m).drop 9 = beBytes 3 m.body.length := by
    simp only [dtlsHeader, List.drop_succ_cons]
    rw [← List.append_assoc, ← List.append_assoc]
    exact List.drop_left' (by simp)
  rw [this]
  exact beNat_beBytes_of_lt hm.body

theorem parseFrag_header (m : Msg) (hm : m.Fits) : parseFrag (dtlsHeader m) m.body = m := by
  have h1 : ((dtlsHeader m).drop 1).take 3 = beBytes 3 m.length := by
    simp only [dtlsHeader, List.drop_succ_cons, List.drop_zero]
    exact List.take_left' (by simp)
  have h2 : ((dtlsHeader m).drop 4).take 2 = beBytes 2 m.seq := by
    simp only [dtlsHeader, List.drop_succ_cons]
    rw [List.drop_left' (by simp)]
    exact List.take_left' (by simp)
  have h3 : ((dtlsHeader m).drop 6).take 3 = beBytes 3 m.offset := by
    simp only [dtlsHeader, List.drop_succ_cons]
    rw [← List.append_assoc, List.drop_left' (by simp)]
    exact List.take_left' (by simp)
  unfold parseFrag
  rw [h1, h2, h3, beNat_beBytes_of_lt (n := 3) hm.length, beNat_beBytes_of_lt (n := 2) hm.seq,
    beNat_beBytes_of_lt (n := 3) hm.offset]
  rfl

/-- A ReadMessage call that finds nothing in the queue and then gets a record with one fragment hands it on. -/
theorem HsIn.readMessage_frag (onAck : Bytes → Res Unit) (h : HsIn) (m : Msg) (hm : m.Fits) (num : Nat) (rest : Feed)
    (hd : h.datagram = true) (hi : Idle h.frame) (hc : h.check = (.ok none, h)) :
    ∃ h1 : HsIn, h1.datagram = true ∧ h1.msgSeq = h.msgSeq ∧ h1.queued = h.queued ∧ h1.epoch = h.epoch ∧
      h1.nonblocking = h.nonblocking ∧ Idle h1.frame ∧
      h.readMessage onAck (.ok ⟨22, h.epoch, num, m.marshal true⟩ :: rest) =
        ((h1.received m).1, (h1.received m).2, rest) := by
  obtain ⟨hi1, hi2, hi3, hi4⟩ := hi
  refine ⟨{ h with recvd := h.recvd ++ [num], frame := ⟨false, dtlsHeader m, 12, [], []⟩ }, hd, rfl, rfl, rfl, rfl,
    ⟨rfl, rfl, rfl, rfl⟩, ?_⟩
  have hneed : h.frame.needed > 0 := by
    simp [FrameReader.needed, hi2, hi3, hi4]
  have hp := process_idle (hsFraming true) (h.frame.addChunk (m.marshal true)) (dtlsHeader m) m.body hi1 hi2 hi3
    (by simp [FrameReader.addChunk, hi4, marshal_dtls]) (dtlsHeader_length m) (dtlsHeader_frameLen m hm)
  unfold HsIn.readMessage
  rw [hc]
  dsimp only
  rw [HsIn.readLoop.eq_def]
  dsimp only
  rw [if_pos hneed, HsIn.readRecord_accept onAck h ⟨22, h.epoch, num, m.marshal true⟩ rfl rfl]
  dsimp only
  have hpf : HsIn.processFrame { h with recvd := h.recvd ++ [num], frame := h.frame.addChunk (m.marshal true) } =
      (some (({ h with recvd := h.recvd ++ [num], frame := ⟨false, dtlsHeader m, 12, [], []⟩ } : HsIn).received m).1,
        (({ h with recvd := h.recvd ++ [num], frame := ⟨false, dtlsHeader m, 12, [], []⟩ } : HsIn).received m).2) := by
    unfold HsIn.processFrame
    dsimp only
    rw [hd, hp]
    dsimp only
    unfold HsIn.deliver
    rw [if_pos rfl, parseFrag_header m hm]
    rfl
  rw [hpf]

/-- After delivery, fragments of the delivered message are ignored. -/
structure Done (n : Nat) (h : HsIn) : Prop where
  turn : h.msgSeq = n + 1
  queue : ∀ f ∈ h.queued, f.seq = n

theorem HsIn.check_done {n : Nat} {h : HsIn} (hd : Done n h) : h.check = (.ok none, h) := by
  unfold HsIn.check
  cases hq : h.queued with
  | nil => rfl
  | cons f q =>
    have := hd.queue f (by rw [hq]; exact List.mem_cons_self)
    have := hd.turn
    dsimp only
    rw [if_pos (by omega)]

theorem HsIn.calls_done (onAck : Bytes → Res Unit) (t : UInt8) (n : Nat) (B : Bytes) (hn : n < 2 ^ 16)
    (hB : B.length < 2 ^ 24) (xs : List ((Nat × Nat) × Nat)) (hx : ∀ x ∈ xs, x.1.1 + x.1.2 ≤ B.length) (h : HsIn)
    (hd : h.datagram = true) (hi : Idle h.frame) (hdone : Done n h) :
    (h.calls onAck xs.length (xs.map fun x => .ok ⟨22, h.epoch, x.2, (slice t n B x.1).marshal true⟩)).1 =
      List.replicate xs.length (.ok none) := by
  induction xs generalizing h with
  | nil => rfl
  | cons x xs ih =>
    have hx1 := hx x List.mem_cons_self
    have hfit : (slice t n B x.1).Fits :=
      ⟨hn, by simp only [slice]; omega, hB, by simp only [slice, List.length_take, List.length_drop]; omega⟩
    obtain ⟨h1, g1, g2, g3, g4, g5, g6, g7⟩ := HsIn.readMessage_frag onAck h (slice t n B x.1) hfit x.2
      (xs.map fun x => .ok ⟨22, h.epoch, x.2, (slice t n B x.1).marshal true⟩) hd hi (HsIn.check_done hdone)
    have hrec : h1.received (slice t n B x.1) = (.ok none, h1) := by
      unfold HsIn.received
      have := hdone.turn
      rw [if_pos (by simp only [slice]; omega)]
    rw [hrec] at g7
    rw [List.map_cons, List.length_cons, HsIn.calls]
    dsimp only
    rw [g7]
    dsimp only
    have := ih (fun y hy => hx y (List.mem_cons_of_mem _ hy)) h1 g1 g6
      ⟨g2.trans hdone.turn, by rw [g3]; exact hdone.queue⟩
    rw [g4] at this
    rw [this]
    rfl

theorem messages_cons_none (rs : List (Res (Option Msg))) : messages (.ok none :: rs) = messages rs := rfl

theorem messages_replicate_none (k : Nat) : messages (List.replicate k (.ok none)) = [] := by
  induction k with
  | zero => rfl
  | succ k ih => rw [List.replicate_succ, messages_cons_none, ih]

theorem covers_mono {L : Nat} {xs ys : List (Nat × Nat)} (h : Covers L xs) : Covers L (xs ++ ys) := by
  refine ⟨by simp [h.1], fun i hi => ?_⟩
  obtain ⟨x, hx, hh⟩ := h.2 i hi
  exact ⟨x, List.mem_append_left _ hx, hh⟩

theorem HsIn.calls_waiting (onAck : Bytes → Res Unit) (t : UInt8) (n : Nat) (B : Bytes) (hn : n < 2 ^ 16)
    (hB : B.length < 2 ^ 24) (xs : List ((Nat × Nat) × Nat)) (hx : ∀ x ∈ xs, x.1.1 + x.1.2 ≤ B.length) (h : HsIn)
    (seen : List (Nat × Nat)) (hd : h.datagram = true) (hi : Idle h.frame) (hw : Waiting t n B h seen) :
    (∀ r ∈ (h.calls onAck xs.length
      (xs.map fun x => .ok ⟨22, h.epoch, x.2, (slice t n B x.1).marshal true⟩)).1, ∃ m, r = .ok m) ∧
    (Covers B.length (seen ++ xs.map Prod.fst) → messages (h.calls onAck xs.length
      (xs.map fun x => .ok ⟨22, h.epoch, x.2, (slice t n B x.1).marshal true⟩)).1 = [whole t n B]) ∧
    (¬ Covers B.length (seen ++ xs.map Prod.fst) → messages (h.calls onAck xs.length
      (xs.map fun x => .ok ⟨22, h.epoch, x.2, (slice t n B x.1).marshal true⟩)).1 = []) := by
  induction xs generalizing h seen with
  | nil =>
    refine ⟨by simp [HsIn.calls], fun hc => ?_, fun _ => rfl⟩
    rw [List.map_nil, List.append_nil] at hc
    exact absurd hc hw.missing
  | cons x xs ih =>
    have hx1 := hx x List.mem_cons_self
    have hxs := fun y hy => hx y (List.mem_cons_of_mem _ hy)
    have hfit : (slice t n B x.1).Fits :=
      ⟨hn, by simp only [slice]; omega, hB, by simp only [slice, List.length_take, List.length_drop]; omega⟩
    obtain ⟨h1, g1, g2, g3, g4, g5, g6, g7⟩ := HsIn.readMessage_frag onAck h (slice t n B x.1) hfit x.2
      (xs.map fun x => .ok ⟨22, h.epoch, x.2, (slice t n B x.1).marshal true⟩) hd hi (HsIn.check_waiting hw)
    have hw1 : Waiting t n B h1 seen := ⟨g2.trans hw.turn, by rw [g3]; exact hw.queue, hw.range, hw.missing⟩
    have hrec := HsIn.received_waiting hw1 x.1 hx1
    have hpar := HsIn.received_params h1 (slice t n B x.1)
    have hassoc : seen ++ (x :: xs).map Prod.fst = (seen ++ [x.1]) ++ xs.map Prod.fst := by simp
    rw [hassoc]
    rw [List.map_cons, List.length_cons, HsIn.calls]
    dsimp only
    rw [g7]
    dsimp only
    by_cases hc : Covers B.length (seen ++ [x.1])
    · obtain ⟨r1, r2, r3⟩ := hrec.1 hc
      have hdone := HsIn.calls_done onAck t n B hn hB xs hxs (h1.received (slice t n B x.1)).2 (hpar.1.trans g1)
        (by rw [hpar.2.2.2.1]; exact g6) ⟨r2, r3⟩
      rw [hpar.2.2.1, g4] at hdone
      rw [hdone, r1]
      refine ⟨fun r hr => ?_, fun _ => ?_, fun hn => absurd (covers_mono hc) hn⟩
      · rcases List.mem_cons.mp hr with rfl | hr
        · exact ⟨_, rfl⟩
        · exact ⟨_, (List.mem_replicate.mp hr).2⟩
      · have := messages_replicate_none xs.length
        simp only [messages, List.filterMap_cons] at this ⊢
        rw [this]
    · obtain ⟨r1, r2⟩ := hrec.2 hc
      have := ih hxs (h1.received (slice t n B x.1)).2 (seen ++ [x.1]) (hpar.1.trans g1)
        (by rw [hpar.2.2.2.1]; exact g6) r2
      rw [hpar.2.2.1, g4] at this
      rw [r1, messages_cons_none]
      refine ⟨fun r hr => ?_, this.2⟩
      rcases List.mem_cons.mp hr with rfl | hr
      · exact ⟨_, rfl⟩
      · exact this.1 r hr

/-- C20, partial. A DTLS layer between messages (nothing queued, whole fragments read so far) is sent fragments of its
next message, one to a record, in any order, with any duplication and overlap. Then every ReadMessage call succeeds,
and among the results is the message as it was sent, exactly once, if its bytes have all arrived, and no message
otherwise. Missing: fragments of several messages, see `C20_next_message_fails` and `C20_interleaved_fails`. -/
theorem C20_one_message_partial (onAck : Bytes → Res Unit) (t : UInt8) (B : Bytes) (hB : B.length < 2 ^ 24)
    (h : HsIn) (hn : h.msgSeq < 2 ^ 16) (hd : h.datagram = true) (hi : Idle h.frame) (hq : h.queued = [])
    (xs : List ((Nat × Nat) × Nat)) (hx : ∀ x ∈ xs, x.1.1 + x.1.2 ≤ B.length) :
    let feed : Feed := xs.map fun x => .ok ⟨22, h.epoch, x.2, (slice t h.msgSeq B x.1).marshal true⟩
    let results := (h.calls onAck xs.length feed).1
    (∀ r ∈ results, ∃ m, r = .ok m) ∧
    (Covers B.length (xs.map Prod.fst) → messages results = [whole t h.msgSeq B]) ∧
    (¬ Covers B.length (xs.map Prod.fst) → messages results = []) := by
  have := HsIn.calls_waiting onAck t h.msgSeq B hn hB xs hx h [] hd hi
    ⟨rfl, ⟨[], by rw [hq]; rfl, by simp, List.Pairwise.nil⟩, by simp, fun hc => hc.1 rfl⟩
  simpa using this

/-- The hypotheses are met by a new layer; overlapping fragments in the wrong order. -/
example : Idle (HsIn.new true false).frame ∧ Covers 5 [(3, 2), (2, 3), (0, 3)] ∧
    ((HsIn.new true false).calls (fun _ => .ok ()) 3 ([((3, 2), 7), ((2, 3), 8), ((0, 3), 9)].map fun x =>
      .ok ⟨22, 0, x.2, (slice 1 0 [10, 11, 12, 13, 14] x.1).marshal true⟩)).1 =
      [.ok none, .ok none, .ok (some (whole 1 0 [10, 11, 12, 13, 14]))] := by
  refine ⟨by unfold Idle; decide, ⟨by simp, fun i hi => ?_⟩, by decide⟩
  by_cases h : i < 3
  · exact ⟨(0, 3), by simp, by simp, by simpa using h⟩
  · exact ⟨(3, 2), by simp, by simp; omega, by simp; omega⟩

/-- C20 fails for a second message: a fragment of the first one is left in the queue (noteMessageDelivered,
handshake-layer.go:248-258) and its bytes are taken for bytes of the next one. Two messages of 4 bytes, in fragments,
honestly delivered in order: the second one comes out wrong. -/
theorem C20_next_message_fails :
    ((HsIn.new true false).calls (fun _ => .ok ()) 3
      [fragRecord (slice 1 0 [10, 11, 12, 13] (0, 2)), fragRecord (slice 1 0 [10, 11, 12, 13] (2, 2)),
       fragRecord (slice 1 1 [20, 21, 22, 23] (0, 2)), fragRecord (slice 1 1 [20, 21, 22, 23] (2, 2))]).1 =
      [.ok none, .ok (some (whole 1 0 [10, 11, 12, 13])), .ok (some (whole 1 1 [20, 21, 12, 13]))] := by
  decide

/-- C20 fails when fragments of two messages are interleaved: they are queued by offset rather than by message
(handshake-layer.go:280-287). All bytes of the first message have arrived, and it is not delivered. -/
theorem C20_interleaved_fails :
    messages ((HsIn.new true true).calls (fun _ => .ok ()) 5
      [fragRecord (slice 1 0 [10, 11, 12, 13] (2, 2)), fragRecord (slice 1 1 [20, 21, 22, 23] (0, 2)),
       fragRecord (slice 1 0 [10, 11, 12, 13] (0, 2))]).1 = [] := by
  decide

/-! ### Unfragmented messages in any order -/

/-- Entries in order of message number. -/
def SeqSorted (q : List Msg) : Prop := q.Pairwise fun a b => a.seq ≤ b.seq

theorem drop_stopIndex (seq : Nat) (q : List Msg) (hs : SeqSorted q) :
    (q.drop (stopIndex seq q) = q.filter fun f => seq < f.seq) ∨
    ((∀ f ∈ q, f.seq ≤ seq) ∧ ∃ f, q.drop (stopIndex seq q) = [f]) := by
  fun_induction stopIndex seq q with
  | case1 => left; rfl
  | case2 m =>
    by_cases h : m.seq ≤ seq
    · right; exact ⟨by simpa using h, m, rfl⟩
    · left
      rw [List.drop_zero, List.filter_cons_of_pos (by simpa using h)]; rfl
  | case3 m m' ms h =>
    left
    have h1 := (List.pairwise_cons.mp hs).1
    symm
    rw [List.drop_zero, List.filter_eq_self]
    intro f hf
    rcases List.mem_cons.mp hf with rfl | hf
    · simpa using h
    · have := h1 f hf; simp; omega
  | case4 m m' ms h ih =>
    have h2 := (List.pairwise_cons.mp hs).2
    rcases ih h2 with ih | ⟨ih1, ih2⟩
    · left
      rw [List.drop_succ_cons, ih, List.filter_cons_of_neg (l := m' :: ms) (by simpa using h)]
    · right
      refine ⟨fun f hf => ?_, by rw [List.drop_succ_cons]; exact ih2⟩
      rcases List.mem_cons.mp hf with rfl | hf
      · omega
      · exact ih1 f hf

theorem insertFrag_sorted (m : Msg) (q : List Msg) (hs : SeqSorted q) (hm : m.offset = 0) :
    (∀ f ∈ q, f.offset = 0) → SeqSorted (insertFrag m q) := by
  intro h0
  induction q with
  | nil => simp [insertFrag, SeqSorted]
  | cons f q ih =>
    obtain ⟨h1, h2⟩ := List.pairwise_cons.mp hs
    have hf0 := h0 f List.mem_cons_self
    rw [insertFrag]
    split
    · rename_i hlt
      refine List.pairwise_cons.mpr ⟨fun g hg => ?_, hs⟩
      rcases List.mem_cons.mp hg with rfl | hg
      · omega
      · have := h1 g hg; omega
    · refine List.pairwise_cons.mpr ⟨fun g hg => ?_, ih h2 fun g hg => h0 g (List.mem_cons_of_mem _ hg)⟩
      rcases mem_insertFrag.mp hg with rfl | hg
      · omega
      · exact h1 g hg

/-- The peer's messages by number: unfragmented and encodable. -/
structure WholeMsgs (msg : Nat → Msg) : Prop where
  seq : ∀ s, (msg s).seq = s
  offset : ∀ s, (msg s).offset = 0
  length : ∀ s, (msg s).length = (msg s).body.length
  fits : ∀ s, s < 2 ^ 16 → (msg s).Fits

/-- The layer while whole messages with the numbers `seen` have arrived. -/
structure Gathering (msg : Nat → Msg) (h : HsIn) (seen : List Nat) : Prop where
  entries : ∀ f ∈ h.queued, f = msg f.seq ∧ f.seq ∈ seen
  sorted : SeqSorted h.queued
  kept : ∀ s ∈ seen, h.msgSeq ≤ s → msg s ∈ h.queued
  shape : (∀ f ∈ h.queued, h.msgSeq ≤ f.seq) ∨
    ∃ f q, h.queued = f :: q ∧ f.seq < h.msgSeq ∧ ∀ g ∈ q, h.msgSeq < g.seq

theorem Gathering.delivered {msg : Nat → Msg} {h : HsIn} {seen : List Nat} (hwm : WholeMsgs msg)
    (hg : Gathering msg h seen) (seen' : List Nat)
    (h' : ∀ s ∈ seen, s ∈ seen') (h'' : ∀ s ∈ seen', s ∈ seen ∨ s = h.msgSeq) :
    Gathering msg (h.noteDelivered h.msgSeq) seen' := by
  have hent : ∀ f ∈ h.queued, f = msg f.seq ∧ f.seq ∈ seen' := fun f hf =>
    ⟨(hg.entries f hf).1, h' _ (hg.entries f hf).2⟩
  have hsub : (h.queued.drop (stopIndex h.msgSeq h.queued)).Sublist h.queued := List.drop_sublist _ _
  rcases drop_stopIndex h.msgSeq h.queued hg.sorted with hd | ⟨hd1, f, hd2⟩
  · refine ⟨fun f hf => hent f (hsub.subset hf), List.Pairwise.sublist hsub hg.sorted, fun s hs hle => ?_,
      Or.inl fun f hf => ?_⟩
    · simp only [HsIn.noteDelivered] at hle ⊢
      rw [hd, List.mem_filter]
      rcases h'' s hs with hs | rfl
      · have hmem := hg.kept s hs (by omega)
        refine ⟨hmem, ?_⟩
        rw [hwm.seq]; simp; omega
      · omega
    · simp only [HsIn.noteDelivered] at hf ⊢
      rw [hd, List.mem_filter] at hf
      have := hf.2
      simp at this
      omega
  · have hfm : f ∈ h.queued := hsub.subset (by rw [hd2]; exact List.mem_singleton_self f)
    refine ⟨fun f hf => hent f (hsub.subset hf), List.Pairwise.sublist hsub hg.sorted, fun s hs hle => ?_,
      Or.inr ⟨f, [], hd2, ?_, by simp⟩⟩
    · simp only [HsIn.noteDelivered] at hle
      rcases h'' s hs with hs | rfl
      · have hmem := hg.kept s hs (by omega)
        have := hd1 _ hmem
        rw [hwm.seq] at this
        omega
      · omega
    · have := hd1 f hfm
      simp only [HsIn.noteDelivered]; omega

/-- What the check at the start of ReadMessage finds. -/
theorem HsIn.check_gathering {msg : Nat → Msg} {h : HsIn} {seen : List Nat} (hwm : WholeMsgs msg)
    (hg : Gathering msg h seen) :
    (h.msgSeq ∈ seen ∧ h.check = (.ok (some (msg h.msgSeq)), h.noteDelivered h.msgSeq)) ∨
    (h.msgSeq ∉ seen ∧ h.check = (.ok none, h)) := by
  unfold HsIn.check
  cases hq : h.queued with
  | nil =>
    right
    refine ⟨fun hs => ?_, rfl⟩
    have := hg.kept _ hs (Nat.le_refl _)
    rw [hq] at this; simp at this
  | cons f q =>
    have hfm : f ∈ h.queued := by rw [hq]; exact List.mem_cons_self
    have hfe := hg.entries f hfm
    dsimp only
    by_cases hseq : f.seq = h.msgSeq
    · left
      refine ⟨hseq ▸ hfe.2, ?_⟩
      rw [if_neg (by simpa using hseq), if_pos ?_, ← hseq, ← hfe.1]
      rw [hfe.1]
      exact ⟨hwm.offset _, hwm.length _⟩
    · right
      refine ⟨fun hs => ?_, by rw [if_pos hseq]⟩
      have hmem := hg.kept _ hs (Nat.le_refl _)
      rw [hq] at hmem
      rcases hg.shape with hsh | ⟨g, q', hq', _, hall⟩
      · have h1 := hsh f hfm
        have hsort := hg.sorted
        rw [hq] at hsort
        rcases List.mem_cons.mp hmem with he | he
        · rw [← he, hwm.seq] at hseq; exact hseq rfl
        · have := (List.pairwise_cons.mp hsort).1 _ he
          rw [hwm.seq] at this
          omega
      · rw [hq] at hq'
        simp only [List.cons.injEq] at hq'
        obtain ⟨rfl, rfl⟩ := hq'
        rcases List.mem_cons.mp hmem with he | he
        · rw [← he, hwm.seq] at hseq; exact hseq rfl
        · have := hall _ he
          rw [hwm.seq] at this
          omega

/-- A further whole message arrives while none is available. -/
theorem HsIn.received_gathering {msg : Nat → Msg} {h : HsIn} {seen : List Nat} (hwm : WholeMsgs msg)
    (hg : Gathering msg h seen) (hns : h.msgSeq ∉ seen) (s : Nat) :
    (s = h.msgSeq ∧ h.received (msg s) = (.ok (some (msg s)), h.noteDelivered s) ∧
      Gathering msg (h.noteDelivered s) (seen ++ [s])) ∨
    (s ≠ h.msgSeq ∧ (h.received (msg s)).1 = .ok none ∧ (h.received (msg s)).2.msgSeq = h.msgSeq ∧
      Gathering msg (h.received (msg s)).2 (seen ++ [s])) := by
  unfold HsIn.received
  rw [hwm.seq]
  by_cases hlt : s < h.msgSeq
  · right
    rw [if_pos hlt]
    refine ⟨by omega, rfl, rfl, fun f hf => ?_, hg.sorted, fun x hx hle => ?_, hg.shape⟩
    · exact ⟨(hg.entries f hf).1, List.mem_append_left _ (hg.entries f hf).2⟩
    · rcases List.mem_append.mp hx with hx | hx
      · exact hg.kept x hx hle
      · rw [List.mem_singleton] at hx
        subst hx
        have hle' : h.msgSeq ≤ x := hle
        omega
  · rw [if_neg hlt]
    by_cases he : s = h.msgSeq
    · left
      rw [if_pos ⟨he, hwm.offset _, hwm.length _⟩]
      refine ⟨he, rfl, ?_⟩
      rw [he]
      refine hg.delivered hwm _ (fun x hx => List.mem_append_left _ hx) fun x hx => ?_
      rcases List.mem_append.mp hx with hx | hx
      · exact Or.inl hx
      · exact Or.inr (List.mem_singleton.mp hx)
    · right
      rw [if_neg fun hh => he hh.1]
      have hoff : ∀ f ∈ h.queued, f.offset = 0 := by
        intro f hf
        rw [(hg.entries f hf).1]; exact hwm.offset _
      have hg' : Gathering msg { h with queued := insertFrag (msg s) h.queued } (seen ++ [s]) := by
        refine ⟨fun f hf => ?_, insertFrag_sorted _ _ hg.sorted (hwm.offset s) hoff, fun x hx hle => ?_, ?_⟩
        · rcases mem_insertFrag.mp hf with rfl | hf
          · rw [hwm.seq]; exact ⟨rfl, by simp⟩
          · exact ⟨(hg.entries f hf).1, List.mem_append_left _ (hg.entries f hf).2⟩
        · apply mem_insertFrag.mpr
          rcases List.mem_append.mp hx with hx | hx
          · exact Or.inr (hg.kept x hx hle)
          · exact Or.inl (by rw [List.mem_singleton.mp hx])
        · rcases hg.shape with hsh | ⟨g, q, hq, h1, h2⟩
          · left
            intro f hf
            rcases mem_insertFrag.mp hf with rfl | hf
            · rw [hwm.seq]; dsimp only; omega
            · exact hsh f hf
          · right
            refine ⟨g, insertFrag (msg s) q, ?_, h1, ?_⟩
            · dsimp only
              rw [hq, insertFrag, if_neg]
              rw [hwm.seq, hwm.offset, hoff g (by rw [hq]; exact List.mem_cons_self)]
              omega
            · intro f hf
              rcases mem_insertFrag.mp hf with rfl | hf
              · rw [hwm.seq]; dsimp only; omega
              · exact h2 f hf
      have hns' : h.msgSeq ∉ seen ++ [s] := by
        rw [List.mem_append, List.mem_singleton]
        rintro (hx | hx)
        · exact hns hx
        · exact he hx.symm
      rcases HsIn.check_gathering hwm hg' with ⟨hin, _⟩ | ⟨_, hc⟩
      · exact absurd hin hns'
      · rw [hc]; exact ⟨he, rfl, rfl, hg'⟩

theorem messages_cons_some (m : Msg) (rs : List (Res (Option Msg))) :
    messages (.ok (some m) :: rs) = m :: messages rs := rfl

theorem messages_cons_err (e : Err) (rs : List (Res (Option Msg))) : messages (.err e :: rs) = messages rs := rfl

theorem HsIn.readMessage_empty (onAck : Bytes → Res Unit) (h : HsIn) (hi : Idle h.frame)
    (hc : h.check = (.ok none, h)) : h.readMessage onAck [] = (.err .wouldBlock, h, []) := by
  obtain ⟨hi1, hi2, hi3, hi4⟩ := hi
  have hneed : h.frame.needed > 0 := by simp [FrameReader.needed, hi2, hi3, hi4]
  unfold HsIn.readMessage
  rw [hc]
  dsimp only
  rw [HsIn.readLoop.eq_def]
  dsimp only
  rw [if_pos hneed]

/-- Records with one whole message each; `x.1` is the message number, `x.2` the record number. -/
def wholeFeed (msg : Nat → Msg) (epoch : Nat) (xs : List (Nat × Nat)) : Feed :=
  xs.map fun x => .ok ⟨22, epoch, x.2, (msg x.1).marshal true⟩

theorem HsIn.calls_gathering (onAck : Bytes → Res Unit) (msg : Nat → Msg) (hwm : WholeMsgs msg) (k : Nat)
    (xs : List (Nat × Nat)) (hx : ∀ x ∈ xs, x.1 < 2 ^ 16) (h : HsIn) (seen : List Nat) (hd : h.datagram = true)
    (hi : Idle h.frame) (hg : Gathering msg h seen) :
    ∃ c, messages (h.calls onAck k (wholeFeed msg h.epoch xs)).1 = (List.range' h.msgSeq c).map msg ∧
      (∀ r ∈ (h.calls onAck k (wholeFeed msg h.epoch xs)).1, r = .err .wouldBlock ∨ ∃ m, r = .ok m) ∧
      (∀ i, i < c → h.msgSeq + i ∈ seen ++ xs.map Prod.fst) ∧
      ((h.calls onAck k (wholeFeed msg h.epoch xs)).1.getLast? = some (.err .wouldBlock) →
        h.msgSeq + c ∉ seen ++ xs.map Prod.fst) := by
  induction k generalizing xs h seen with
  | zero => exact ⟨0, rfl, by simp [HsIn.calls], by simp, by simp [HsIn.calls]⟩
  | succ k ih =>
    rw [HsIn.calls]
    dsimp only
    -- a message delivered, then the rest
    have hone : ∀ (h' : HsIn) (seen' : List Nat) (xs' : List (Nat × Nat)), h'.datagram = true → Idle h'.frame →
        h'.epoch = h.epoch → h'.msgSeq = h.msgSeq + 1 → Gathering msg h' seen' → (∀ x ∈ xs', x.1 < 2 ^ 16) →
        seen' ++ xs'.map Prod.fst = seen ++ xs.map Prod.fst → h.msgSeq ∈ seen ++ xs.map Prod.fst →
        h.readMessage onAck (wholeFeed msg h.epoch xs) = (.ok (some (msg h.msgSeq)), h', wholeFeed msg h.epoch xs') →
        ∃ c, messages ((h.readMessage onAck (wholeFeed msg h.epoch xs)).1 ::
            (HsIn.calls onAck k (h.readMessage onAck (wholeFeed msg h.epoch xs)).2.2
              (h.readMessage onAck (wholeFeed msg h.epoch xs)).2.1).1) = (List.range' h.msgSeq c).map msg ∧
          (∀ r ∈ ((h.readMessage onAck (wholeFeed msg h.epoch xs)).1 ::
            (HsIn.calls onAck k (h.readMessage onAck (wholeFeed msg h.epoch xs)).2.2
              (h.readMessage onAck (wholeFeed msg h.epoch xs)).2.1).1), r = .err .wouldBlock ∨ ∃ m, r = .ok m) ∧
          (∀ i, i < c → h.msgSeq + i ∈ seen ++ xs.map Prod.fst) ∧
          (((h.readMessage onAck (wholeFeed msg h.epoch xs)).1 ::
            (HsIn.calls onAck k (h.readMessage onAck (wholeFeed msg h.epoch xs)).2.2
              (h.readMessage onAck (wholeFeed msg h.epoch xs)).2.1).1).getLast? = some (.err .wouldBlock) →
            h.msgSeq + c ∉ seen ++ xs.map Prod.fst) := by
      intro h' seen' xs' d1 d2 d3 d4 d5 d6 d7 d8 hr
      rw [hr]
      obtain ⟨c, c1, c2, c3, c4⟩ := ih xs' d6 h' seen' d1 d2 d5
      rw [d3] at c1 c2 c4
      rw [d4] at c1 c3 c4
      rw [d7] at c3 c4
      refine ⟨c + 1, ?_, ?_, ?_, ?_⟩
      · rw [messages_cons_some, List.range'_succ, List.map_cons]
        exact congrArg _ c1
      · intro r hr
        rcases List.mem_cons.mp hr with rfl | hr
        · exact Or.inr ⟨_, rfl⟩
        · exact c2 r hr
      · intro i hi
        cases i with
        | zero => exact d8
        | succ i => rw [show h.msgSeq + (i + 1) = h.msgSeq + 1 + i by omega]; exact c3 i (by omega)
      · intro hl
        rw [show h.msgSeq + (c + 1) = h.msgSeq + 1 + c by omega]
        refine c4 ?_
        dsimp only at hl
        cases hcl : (HsIn.calls onAck k (wholeFeed msg h.epoch xs') h').1 with
        | nil => rw [hcl] at hl; simp at hl
        | cons a l => rw [hcl, List.getLast?_cons_cons] at hl; exact hl
    rcases HsIn.check_gathering hwm hg with ⟨hin, hc⟩ | ⟨hns, hc⟩
    · refine hone (h.noteDelivered h.msgSeq) seen xs hd hi rfl rfl (hg.delivered hwm _ (fun _ hx => hx) fun _ hx => Or.inl hx)
        hx rfl (List.mem_append_left _ hin) ?_
      unfold HsIn.readMessage
      rw [hc]
    · cases xs with
      | nil =>
        rw [show wholeFeed msg h.epoch [] = [] from rfl, HsIn.readMessage_empty onAck h hi hc]
        obtain ⟨c, c1, c2, c3, c4⟩ := ih [] hx h seen hd hi hg
        rw [show wholeFeed msg h.epoch [] = [] from rfl] at c1 c2 c4
        have hc0 : c = 0 := by
          rcases Nat.eq_zero_or_pos c with h0 | h0
          · exact h0
          · have := c3 0 h0
            simp only [List.map_nil, List.append_nil, Nat.add_zero] at this
            exact absurd this hns
        subst hc0
        refine ⟨0, ?_, ?_, by simp, fun _ => by simpa using hns⟩
        · rw [messages_cons_err]; exact c1
        · intro r hr
          rcases List.mem_cons.mp hr with rfl | hr
          · exact Or.inl rfl
          · exact c2 r hr
      | cons x xs =>
        obtain ⟨h1, g1, g2, g3, g4, g5, g6, g7⟩ := HsIn.readMessage_frag onAck h (msg x.1)
          (hwm.fits _ (hx x List.mem_cons_self)) x.2 (wholeFeed msg h.epoch xs) hd hi hc
        have hg1 : Gathering msg h1 seen :=
          ⟨by rw [g3]; exact hg.entries, by rw [g3]; exact hg.sorted, by rw [g3, g2]; exact hg.kept,
            by rw [g3, g2]; exact hg.shape⟩
        have hxs := fun y hy => hx y (List.mem_cons_of_mem _ hy)
        have hassoc : (seen ++ [x.1]) ++ xs.map Prod.fst = seen ++ (x :: xs).map Prod.fst := by simp
        have hfeed : wholeFeed msg h.epoch (x :: xs) =
            .ok ⟨22, h.epoch, x.2, (msg x.1).marshal true⟩ :: wholeFeed msg h.epoch xs := rfl
        rcases HsIn.received_gathering hwm hg1 (by rw [g2]; exact hns) x.1 with ⟨he, hr, hg2⟩ | ⟨he, hr, hseq, hg2⟩
        · refine hone (h1.noteDelivered x.1) (seen ++ [x.1]) xs g1 g6 g4 (by simp [HsIn.noteDelivered, he, g2]) hg2 hxs
            hassoc (by rw [← g2, ← he]; simp) ?_
          rw [hfeed, g7, hr]
          rw [g2] at he
          simp only [he]
        · rw [hfeed, g7]
          dsimp only
          have hpar := HsIn.received_params h1 (msg x.1)
          obtain ⟨c, c1, c2, c3, c4⟩ := ih xs hxs (h1.received (msg x.1)).2 (seen ++ [x.1]) (hpar.1.trans g1)
            (by rw [hpar.2.2.2.1]; exact g6) hg2
          rw [hpar.2.2.1, g4, hseq, g2] at c1 c4
          rw [hpar.2.2.1, g4] at c2
          rw [hseq, g2, hassoc] at c3
          rw [hassoc] at c4
          rw [hr]
          refine ⟨c, by rw [messages_cons_none]; exact c1, ?_, c3, ?_⟩
          · intro r hr
            rcases List.mem_cons.mp hr with rfl | hr
            · exact Or.inr ⟨_, rfl⟩
            · exact c2 r hr
          · intro hl
            refine c4 ?_
            cases hcl : (HsIn.calls onAck k (wholeFeed msg h.epoch xs) (h1.received (msg x.1)).2).1 with
            | nil => rw [hcl] at hl; simp at hl
            | cons a l => rw [hcl, List.getLast?_cons_cons] at hl; exact hl

/-- C20, partial: several messages, none of them fragmented. They arrive in any order, any number of times. Then
ReadMessage returns messages as they were sent, in order of their numbers; it never fails; and once it has to wait
for records, it has returned every message up to the first one that never arrived. -/
theorem C20_whole_messages_partial (onAck : Bytes → Res Unit) (msg : Nat → Msg) (hwm : WholeMsgs msg)
    (h : HsIn) (hd : h.datagram = true) (hi : Idle h.frame) (hq : h.queued = []) (xs : List (Nat × Nat))
    (hx : ∀ x ∈ xs, x.1 < 2 ^ 16) (k : Nat) :
    let results := (h.calls onAck k (wholeFeed msg h.epoch xs)).1
    (∀ r ∈ results, r = .err .wouldBlock ∨ ∃ m, r = .ok m) ∧
    ∃ c, messages results = (List.range' h.msgSeq c).map msg ∧
      (∀ i, i < c → h.msgSeq + i ∈ xs.map Prod.fst) ∧
      (results.getLast? = some (.err .wouldBlock) → h.msgSeq + c ∉ xs.map Prod.fst) := by
  obtain ⟨c, c1, c2, c3, c4⟩ := HsIn.calls_gathering onAck msg hwm k xs hx h [] hd hi
    ⟨by simp [hq], by simp [hq, SeqSorted], by simp, by simp [hq]⟩
  exact ⟨c2, c, c1, by simpa using c3, by simpa using c4⟩

/-- Messages 2, 1, 1, 0, 4 arrive: 0, 1 and 2 are returned, 4 is not. -/
example :
    let msg : Nat → Msg := fun s => whole 1 s [UInt8.ofNat s, 7]
    WholeMsgs msg ∧
    ((HsIn.new true false).calls (fun _ => .ok ()) 8 (wholeFeed msg 0 [(2, 0), (1, 1), (1, 2), (0, 3), (4, 4)])).1 =
      [.ok none, .ok none, .ok none, .ok (some (msg 0)), .ok (some (msg 1)), .ok (some (msg 2)), .ok none,
       .err .wouldBlock] := by
  refine ⟨⟨fun s => rfl, fun s => rfl, fun s => rfl, fun s hs => ⟨hs, ?_, ?_, ?_⟩⟩, by decide⟩ <;> simp [whole]

end Verif.Handshake
