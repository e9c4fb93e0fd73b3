import Verif.Props.Record

/-
Properties C15–C18: record limits, robustness, peeking, DTLS epochs.
-/

namespace Verif.Record

open Verif

/-! ### C15 -/

/-- Operations on a reading record layer. -/
inductive ROp where
  | peek
  | read (anyEpoch : Bool)
  | rekey (epoch : Nat) (a : Aead) (iv : Bytes)

/-- Run operations, collecting the results of the reads. -/
def runReads : Reader → List ROp → List (Res Plaintext) × Reader
  | r, [] => ([], r)
  | r, .peek :: ops => runReads (peekType r).2 ops
  | r, .read any :: ops =>
    ((readRecord r any).1 :: (runReads (readRecord r any).2 ops).1, (runReads (readRecord r any).2 ops).2)
  | r, .rekey e a iv :: ops => runReads { r with keys := r.keys.rekey e a iv } ops

theorem nextRecord_limit (r : Reader) (any : Bool) (hi : r.Inv)
    (hc : ∀ pt, r.cached = some pt → pt.fragment.length ≤ 2 ^ 14) :
    (nextRecord r any).2.Inv ∧
    (∀ pt, (nextRecord r any).1 = .ok pt → pt.fragment.length ≤ 2 ^ 14) ∧
    (∀ pt, (nextRecord r any).2.cached = some pt → pt.fragment.length ≤ 2 ^ 14) := by
  cases hcc : r.cached with
  | some pt =>
    have e : nextRecord r any = (.ok pt, r) := by simp [nextRecord, hcc]
    rw [e]
    refine ⟨hi, ?_, hc⟩
    intro pt' h
    simp only [Res.ok.injEq] at h
    exact h ▸ hc pt hcc
  | none =>
    obtain ⟨h1, h2, h3, h4⟩ := nextRecord_spec r any hi hcc
    refine ⟨h1, ?_⟩
    rcases h4 with ⟨h, b, fs, -, -, e3⟩ | ⟨e, e0, ek, ec, e4⟩
    · rcases e3 with ⟨pt, k, ho, e6, e7, e8⟩ | ⟨e5, e6, e7, e8⟩
      · obtain ⟨i, seq, -, hl, -⟩ := openRecord_ok ho
        rw [e6, e8]
        constructor
        · intro pt' h; simp only [Res.ok.injEq] at h; exact h ▸ hl
        · intro pt' h; simp only [Option.some.injEq] at h; exact h ▸ hl
      · rw [e6, e8]
        refine ⟨?_, by simp⟩
        intro pt h
        rw [Res.bind_eq_ok] at h
        obtain ⟨x, hx, -⟩ := h
        exact absurd hx (e5 x)
    · rw [e0, ec]
      simp

/-- C15, reading. No read of any schedule of peeks, reads and key changes returns more than 2^14 bytes. -/
theorem C15_read_limit (datagram : Bool) (conn : List (Except Err Bytes)) (ops : List ROp) (pt : Plaintext)
    (h : .ok pt ∈ (runReads (Reader.new datagram conn) ops).1) : pt.fragment.length ≤ 2 ^ 14 := by
  have key : ∀ (ops : List ROp) (r : Reader), r.Inv →
      (∀ pt, r.cached = some pt → pt.fragment.length ≤ 2 ^ 14) →
      ∀ pt, .ok pt ∈ (runReads r ops).1 → pt.fragment.length ≤ 2 ^ 14 := by
    intro ops
    induction ops with
    | nil => intro r _ _ pt h; simp [runReads] at h
    | cons op ops ih =>
      intro r hi hc pt h
      cases op with
      | peek =>
        obtain ⟨h1, -, h3⟩ := nextRecord_limit r false hi hc
        exact ih _ h1 h3 pt h
      | read any =>
        obtain ⟨h1, h2, -⟩ := nextRecord_limit r any hi hc
        simp only [runReads, List.mem_cons] at h
        rcases h with h | h
        · exact h2 pt h.symm
        · exact ih (readRecord r any).2 h1 (by simp [readRecord]) pt h
      | rekey e a iv => exact ih { r with keys := r.keys.rekey e a iv } hi hc pt h
  exact key ops (Reader.new datagram conn) (FrameReader.inv_new (recordFraming datagram)) (by simp [Reader.new]) pt h

/-- C15, reading. A record announcing more than 2^14+256 bytes is refused, and the keys have no part in it: the
outcome is the same for every cipher, so nothing is decrypted. -/
theorem C15_oversize_refused (any : Bool) (h b : Bytes) (hl : announced h > 2 ^ 14 + 256) (k : Keys) :
    openRecord k any h b = .err .msg := by
  unfold openRecord
  split
  · rfl
  · simp only
    rw [if_pos hl]

/-- C15, writing. A record that goes out has a header announcing exactly its body, which is at most 2^14 bytes. -/
theorem C15_write_limit (k k' : Keys) (i : Nat) (ct : UInt8) (f : Bytes) (pad : Nat) (rec : Bytes)
    (hlaw : ∀ a, (k.heap i).aead = some a → a.Lawful) (h : writeRecord k i ct f pad = .ok (rec, k')) :
    ∃ header body, rec = header ++ body ∧ header.length = (if k.datagram then 13 else 5) ∧
      body.length ≤ 2 ^ 14 ∧ announced header = body.length := by
  obtain ⟨hd, b, rfl, hb, -, -, hc⟩ := writeRecord_ok h
  refine ⟨hd, b, rfl, ?_, hb, ?_⟩
  · rcases hc with ⟨a, n, -, -, hh, -⟩ | ⟨-, -, -, hh⟩ <;> exact (recordHeader_ok hh).1
  · rcases hc with ⟨a, n, ha, -, hh, -, rfl⟩ | ⟨-, -, rfl, hh⟩
    · rw [(recordHeader_ok hh).2.2.1]
      have := (hlaw a ha).seal_length n (innerPlaintext ct f pad) hd
      have hin : (innerPlaintext ct f pad).length = f.length + 1 + pad := by
        simp [innerPlaintext]; omega
      rw [Nat.mod_eq_of_lt] <;> omega
    · rw [(recordHeader_ok hh).2.2.1]
      exact Nat.mod_eq_of_lt (by omega)

/-- C15, acceptance: every fragment that leaves room for the content type, the padding and the AEAD tag is sent;
unencrypted, every fragment of up to 2^14 bytes. Missing: encrypted fragments in the last
`1 + pad + overhead` bytes below 2^14 (see `C15_full_fragment_fails`). -/
theorem C15_write_accepts_partial (k : Keys) (ct : UInt8) (f : Bytes) (pad : Nat)
    (hdir : k.direction = .write) (hv : k.datagram = true → k.version = 0x0303 ∨ k.version = 0x0301)
    (hs : (k.heap k.cur).seq < 2 ^ 48 - 1)
    (hlaw : ∀ a, (k.heap k.cur).aead = some a → a.Lawful ∧ 8 ≤ (k.heap k.cur).iv.length ∧
      f.length + 1 + pad + a.overhead ≤ 2 ^ 14)
    (hnull : (k.heap k.cur).aead = none → pad = 0 ∧ f.length ≤ 2 ^ 14) :
    ∃ x, writeRecord k k.cur ct f pad = .ok x := by
  have hhdr : ∀ o s l, ∃ h, recordHeader k o s l = .ok h := by
    intro o s l
    unfold recordHeader
    cases hd : k.datagram with
    | false => exact ⟨_, rfl⟩
    | true =>
      rcases hv hd with h | h <;> simp [h, dtlsConvertVersion]
  unfold writeRecord
  dsimp only
  cases ha : (k.heap k.cur).aead with
  | none =>
    obtain ⟨hp, hl⟩ := hnull ha
    obtain ⟨h, hh⟩ := hhdr ct (combineSeq (k.heap k.cur) k.datagram) f.length
    simp only [hh, Res.bind_ok]
    rw [if_neg (by omega), if_neg (by omega), bumpSeq_of_lt hs]
    exact ⟨_, rfl⟩
  | some a =>
    obtain ⟨hl, hiv, hroom⟩ := hlaw a ha
    obtain ⟨h, hh⟩ := hhdr 23 (combineSeq (k.heap k.cur) k.datagram) (f.length + (1 + pad + a.overhead))
    simp only [hh, Res.bind_ok]
    rw [if_neg (by simp [hdir])]
    have hn : computeNonce (k.heap k.cur) (combineSeq (k.heap k.cur) k.datagram) = .ok (List.zipWith (· ^^^ ·)
        (k.heap k.cur).iv (List.replicate ((k.heap k.cur).iv.length - 8) 0 ++
          beBytes 8 (combineSeq (k.heap k.cur) k.datagram))) := by
      unfold computeNonce; rw [if_neg (by omega)]
    rw [hn]
    simp only [Res.bind_ok]
    have hin : (innerPlaintext ct f pad).length = f.length + 1 + pad := by
      simp [innerPlaintext]; omega
    rw [if_neg (by rw [hl.seal_length]; omega), bumpSeq_of_lt hs]
    exact ⟨_, rfl⟩

/-- C15 is violated: under every AEAD, a fragment of exactly 2^14 bytes (which the limit allows) is refused. -/
theorem C15_full_fragment_fails (k : Keys) (a : Aead) (ct : UInt8) (f : Bytes) (pad : Nat) (ha : a.Lawful)
    (hk : (k.heap k.cur).aead = some a) (hf : f.length = 2 ^ 14) :
    ∀ x, writeRecord k k.cur ct f pad ≠ .ok x := by
  rintro ⟨rec, k'⟩ h
  obtain ⟨hd, b, -, hb, -, -, hc⟩ := writeRecord_ok h
  rcases hc with ⟨a', n, ha', -, -, -, rfl⟩ | ⟨ha', -⟩
  · rw [hk] at ha'
    simp only [Option.some.injEq] at ha'
    subst ha'
    rw [ha.seal_length] at hb
    simp [innerPlaintext] at hb
    omega
  · rw [hk] at ha'; simp at ha'

example : ∃ x, writeRecord toyWriter toyWriter.cur 23 [1, 2, 3] 7 = .ok x :=
  C15_write_accepts_partial toyWriter 23 [1, 2, 3] 7 rfl (by decide) (by decide)
    (by intro a h; simp only [toyWriter, Keys.rekey, upd_same, Option.some.injEq] at h
        subst h; exact ⟨toyAead_lawful, by decide, by decide⟩)
    (by intro h; simp [toyWriter, Keys.rekey] at h)

/-! ### C16 -/

/-- Conditions under which a reader cannot crash: it is a reader; IVs are at least eight bytes long; the peer's AEAD
never authenticates an all-zero plaintext; the current cipher is encrypting if any known one is; fewer than
2^48-1 records were read per key, with `n` to spare. -/
structure Keys.Sound (k : Keys) (n : Nat) : Prop where
  dir : k.direction = .read
  iv : ∀ a, (k.heap k.cur).aead = some a → 8 ≤ (k.heap k.cur).iv.length
  nonzero : ∀ a, (k.heap k.cur).aead = some a →
    ∀ nonce c h p, a.opening nonce c h = some p → ∃ b ∈ p, b ≠ 0
  current : ∀ e i, (e, i) ∈ k.readCiphers → (k.heap i).aead.isSome → (k.heap k.cur).aead.isSome
  seq : ∀ i, (k.heap i).seq + n ≤ 2 ^ 48 - 1

theorem openRecord_safe (k : Keys) (n : Nat) (hk : k.Sound (n + 1)) (any : Bool) (h b : Bytes) :
    (openRecord k any h b).Safe := by
  unfold openRecord
  split
  · trivial
  · dsimp only
    split
    · trivial
    · refine Res.safe_bind ?_ ?_
      · unfold selectCipher
        split
        · dsimp only
          split
          · trivial
          · split
            · split <;> trivial
            · trivial
        · trivial
      · rintro ⟨i, seq⟩ hsel
        have hcur : (k.heap i).aead.isSome → (k.heap k.cur).aead.isSome := by
          unfold selectCipher at hsel
          split at hsel
          · dsimp only at hsel
            split at hsel
            · simp at hsel
            · rename_i j hj
              split at hsel
              · split at hsel
                · simp only [Res.ok.injEq, Prod.mk.injEq] at hsel
                  rw [← hsel.1]
                  obtain ⟨l₁, l₂, hl, -⟩ := List.lookup_eq_some_iff.1 hj
                  exact hk.current (beNat ((h.drop 3).take 8) >>> 48) j (by rw [hl]; simp)
                · simp at hsel
              · simp only [Res.ok.injEq, Prod.mk.injEq] at hsel
                rw [← hsel.1]; exact id
          · simp only [Res.ok.injEq, Prod.mk.injEq] at hsel
            rw [← hsel.1]; exact id
        refine Res.safe_bind ?_ ?_
        · dsimp only
          split
          · rename_i a ha
            refine Res.safe_bind ?_ fun _ _ => trivial
            have hs := hcur (by rw [ha]; rfl)
            unfold decrypt
            rw [if_neg (by simp [hk.dir])]
            split
            · trivial
            · cases hca : (k.heap k.cur).aead with
              | none => rw [hca] at hs; simp at hs
              | some a' =>
                dsimp only
                refine Res.safe_bind ?_ ?_
                · unfold computeNonce
                  rw [if_neg (by have := hk.iv a' hca; omega)]
                  trivial
                · intro nonce _
                  split
                  · trivial
                  · rename_i p hp
                    exact stripPadding_safe (hk.nonzero a' hca _ _ _ _ hp)
          · trivial
        · rintro ⟨ct, s, f⟩ -
          dsimp only
          split
          · trivial
          · refine Res.safe_bind ?_ fun _ _ => trivial
            unfold bumpSeq
            rw [if_neg (by have := hk.seq i; omega)]
            trivial

theorem Keys.Sound.mono {k : Keys} {n m : Nat} (h : k.Sound n) (hm : m ≤ n) : k.Sound m :=
  ⟨h.1, h.2, h.3, h.4, fun i => by have := h.5 i; omega⟩

theorem openRecord_sound {k k' : Keys} {n : Nat} (hk : k.Sound (n + 1)) {any : Bool} {h b : Bytes} {pt : Plaintext}
    (ho : openRecord k any h b = .ok (pt, k')) : k'.Sound n := by
  obtain ⟨i, seq, -, -, -, -, rfl, -⟩ := openRecord_ok ho
  have haead : ∀ j, (upd k.heap i { k.heap i with seq := (k.heap i).seq + 1 } j).aead = (k.heap j).aead := by
    intro j; simp only [upd]; split
    · rename_i hj; rw [hj]
    · rfl
  have hiv : ∀ j, (upd k.heap i { k.heap i with seq := (k.heap i).seq + 1 } j).iv = (k.heap j).iv := by
    intro j; simp only [upd]; split
    · rename_i hj; rw [hj]
    · rfl
  refine ⟨hk.dir, ?_, ?_, ?_, ?_⟩
  · intro a; simp only [haead, hiv]; exact hk.iv a
  · intro a; simp only [haead]; exact hk.nonzero a
  · intro e j; simp only [haead]; exact hk.current e j
  · intro j
    simp only [upd]
    have := hk.seq j
    split
    · rename_i hj; rw [hj] at this; simp only; omega
    · omega

/-- C16 for readers satisfying `Keys.Sound`: any schedule of `n` peeks and reads on any transport input returns
records or errors. Missing: authenticated all-zero plaintexts (see `C16_zero_plaintext_fails`). -/
theorem C16_reads_safe_partial (r : Reader) (hi : r.Inv) (ops : List ROp) (hk : r.keys.Sound ops.length)
    (hno : ∀ e a iv, .rekey e a iv ∉ ops) :
    ∀ x ∈ (runReads r ops).1, x.Safe := by
  have step : ∀ (r : Reader) (n : Nat) (any : Bool), r.Inv → r.keys.Sound (n + 1) →
      (nextRecord r any).1.Safe ∧ (nextRecord r any).2.Inv ∧ (nextRecord r any).2.keys.Sound n := by
    intro r n any hi hk
    cases hc : r.cached with
    | some pt =>
      have e : nextRecord r any = (.ok pt, r) := by simp [nextRecord, hc]
      rw [e]; exact ⟨trivial, hi, hk.mono (by omega)⟩
    | none =>
      obtain ⟨h1, -, -, h4⟩ := nextRecord_spec r any hi hc
      refine ⟨?_, h1, ?_⟩
      · rcases h4 with ⟨h, b, fs, -, -, e3⟩ | ⟨e, e0, -⟩
        · rcases e3 with ⟨pt, k, ho, e6, -⟩ | ⟨-, e6, -⟩
          · rw [e6]; trivial
          · rw [e6]; exact Res.safe_bind (openRecord_safe _ n hk _ _ _) fun _ _ => trivial
        · rw [e0]; trivial
      · rcases h4 with ⟨h, b, fs, -, -, e3⟩ | ⟨e, -, ek, -⟩
        · rcases e3 with ⟨pt, k, ho, -, e7, -⟩ | ⟨-, -, e7, -⟩
          · rw [e7]; exact openRecord_sound hk ho
          · rw [e7]; exact hk.mono (by omega)
        · rw [ek]; exact hk.mono (by omega)
  induction ops generalizing r with
  | nil => simp [runReads]
  | cons op ops ih =>
    cases op with
    | rekey e a iv => exact absurd (by simp) (hno e a iv)
    | peek =>
      obtain ⟨-, h2, h3⟩ := step r ops.length false hi hk
      exact ih (peekType r).2 h2 h3 (fun e a iv h => hno e a iv (by simp [h]))
    | read any =>
      obtain ⟨h1, h2, h3⟩ := step r ops.length any hi hk
      intro x hx
      simp only [runReads, List.mem_cons] at hx
      rcases hx with rfl | hx
      · exact h1
      · exact ih (readRecord r any).2 h2 h3 (fun e a iv h => hno e a iv (by simp [h])) x hx

/-- C16 is violated: an authenticated record whose plaintext is all zeros (here: empty) crashes the reader
(record-layer.go:288). Any peer that knows the traffic key can send it. -/
theorem C16_zero_plaintext_fails :
    (readRecord (toyReader [.ok [23, 3, 3, 0, 1, 0xAA]]) false).1 = .panic := by decide

example : (toyReader [.ok [23, 3, 3, 0, 3, 9, 23, 0xAA]]).keys.direction = .read ∧
    (readRecord (toyReader [.ok [23, 3, 3, 0, 3, 9, 23, 0xAA]]) false).1 = .ok ⟨23, 3, 0, [9]⟩ := by decide

/-- The hypotheses of `C16_reads_safe_partial` can be met (a fresh unencrypted reader; a keyed reader whose AEAD
only opens records with a content type). -/
example : (Keys.new .read true).Sound 1000 ∧ ((Keys.new .read false).rekey 3 oneAead toyIv).Sound 1000 := by
  constructor
  · refine ⟨rfl, ?_, ?_, ?_, ?_⟩ <;> simp [Keys.new, nullCipher]
  · refine ⟨rfl, ?_, ?_, ?_, ?_⟩
    · intro a _; simp [Keys.rekey, toyIv]
    · intro a ha nonce c h p hp
      simp only [Keys.rekey, upd_same, Option.some.injEq] at ha
      subst ha
      simp only [oneAead] at hp
      split at hp
      · simp only [Option.some.injEq] at hp; subst hp; exact ⟨1, by simp, by decide⟩
      · simp at hp
    · intro e i h; simp [Keys.rekey, Keys.new] at h
    · intro i
      simp only [Keys.rekey, upd, Keys.new]
      split <;> simp [nullCipher]

/-! ### C17 -/

/-- The records a reader will hand out, computed from the frames of the byte stream alone: no peeking, no
buffering, no chunking involved. Frames that are refused are skipped. -/
def recordsOf (k : Keys) : List FrameEvent → List Plaintext
  | [] => []
  | .error _ :: fs => recordsOf k fs
  | .ok (h, b) :: fs =>
    match openRecord k false h b with
    | .ok (pt, k') => pt :: recordsOf k' fs
    | _ => recordsOf k fs

/-- Records still to come: one that was peeked at but not yet read, then those of the remaining stream. -/
def Reader.coming (r : Reader) : List Plaintext := r.cached.toList ++ recordsOf r.keys r.frames

/-- The successful results. -/
def oks : List (Res Plaintext) → List Plaintext
  | [] => []
  | .ok pt :: rs => pt :: oks rs
  | _ :: rs => oks rs

/-- A peek or read schedule without key changes; in DTLS also without reads of other epochs. -/
def plainOps (datagram : Bool) (ops : List ROp) : Prop :=
  ∀ op ∈ ops, op = .peek ∨ op = .read false ∨ (datagram = false ∧ op = .read true)

/-- In TLS the two read calls do the same. -/
theorem nextRecord_any (r : Reader) (h : r.keys.datagram = false) : nextRecord r true = nextRecord r false := by
  have : ∀ hd b, openRecord r.keys true hd b = openRecord r.keys false hd b := by
    intro hd b
    have : selectCipher r.keys true hd = selectCipher r.keys false hd := by simp [selectCipher, h]
    simp [openRecord, this]
  simp [nextRecord, this]

theorem nextRecord_datagram (r : Reader) (hi : r.Inv) : (nextRecord r false).2.keys.datagram = r.keys.datagram := by
  cases hc : r.cached with
  | some pt => simp [nextRecord, hc]
  | none => exact (nextRecord_spec r false hi hc).2.2.1

theorem nextRecord_coming (r : Reader) (hi : r.Inv) :
    (nextRecord r false).2.Inv ∧ (nextRecord r false).2.coming = r.coming ∧
    (nextRecord r false).2.cached.toList = (match (nextRecord r false).1 with | .ok pt => [pt] | _ => []) := by
  cases hc : r.cached with
  | some pt =>
    have e : nextRecord r false = (.ok pt, r) := by simp [nextRecord, hc]
    rw [e]; exact ⟨hi, rfl, by simp [hc]⟩
  | none =>
    obtain ⟨h1, -, -, h4⟩ := nextRecord_spec r false hi hc
    refine ⟨h1, ?_, ?_⟩
    · unfold Reader.coming
      rw [hc]
      rcases h4 with ⟨h, b, fs, e1, e2, e3⟩ | ⟨e, e0, ek, ec, e4⟩
      · rw [e1, e2]
        rcases e3 with ⟨pt, k, ho, e6, e7, e8⟩ | ⟨e5, e6, e7, e8⟩
        · rw [e7, e8]
          simp [recordsOf, ho]
        · rw [e7, e8]
          simp only [recordsOf]
          cases ho : openRecord r.keys false h b with
          | ok x => exact absurd ho (e5 x)
          | err e => rfl
          | panic => rfl
          | diverge => rfl
      · rw [ek, ec]
        rcases e4 with ⟨fs, e4, e5⟩ | ⟨e4, -⟩
        · rw [e4, e5]; rfl
        · rw [e4]
    · rcases h4 with ⟨h, b, fs, e1, e2, e3⟩ | ⟨e, e0, ek, ec, e4⟩
      · rcases e3 with ⟨pt, k, ho, e6, e7, e8⟩ | ⟨e5, e6, e7, e8⟩
        · rw [e6, e8]; rfl
        · rw [e6, e8]
          cases ho : openRecord r.keys false h b with
          | ok x => exact absurd ho (e5 x)
          | err e => rfl
          | panic => rfl
          | diverge => rfl
      · rw [e0, ec]; rfl

/-- C17. Whatever the interleaving of peeks and reads, the records read so far followed by those still to come are
the records of the stream: nothing is lost, duplicated or reordered by peeking. Missing: schedules that mix peeks with
`ReadRecordAnyEpoch` in DTLS, for which it is false (`C17_peek_any_epoch_fails`). -/
theorem C17_peek_transparent_partial (r : Reader) (hi : r.Inv) (ops : List ROp) (hops : plainOps r.keys.datagram ops) :
    oks (runReads r ops).1 ++ (runReads r ops).2.coming = r.coming := by
  induction ops generalizing r with
  | nil => simp [runReads, oks]
  | cons op ops ih =>
    obtain ⟨h1, h2, h3⟩ := nextRecord_coming r hi
    have hdg := nextRecord_datagram r hi
    have hops' : plainOps r.keys.datagram ops := fun op h => hops op (by simp [h])
    have hread : oks (runReads r (.read false :: ops)).1 ++ (runReads r (.read false :: ops)).2.coming = r.coming := by
      have hdg' : (readRecord r false).2.keys.datagram = r.keys.datagram := hdg
      have := ih (readRecord r false).2 h1 (by rw [hdg']; exact hops')
      have hc : (nextRecord r false).2.coming =
          (nextRecord r false).2.cached.toList ++ (readRecord r false).2.coming := by
        simp [Reader.coming, readRecord, Reader.frames]
      rw [h2, h3] at hc
      simp only [runReads]
      rw [hc, ← this]
      have e1 : (readRecord r false).1 = (nextRecord r false).1 := rfl
      rw [e1]
      cases (nextRecord r false).1 <;> simp [oks]
    rcases hops op (by simp) with rfl | rfl | ⟨hd, rfl⟩
    · have hdg' : (peekType r).2.keys.datagram = r.keys.datagram := hdg
      have := ih (peekType r).2 h1 (by rw [hdg']; exact hops')
      rw [show (peekType r).2.coming = r.coming from h2] at this
      exact this
    · exact hread
    · have e : readRecord r true = readRecord r false := by
        simp only [readRecord, nextRecord_any r hd]
      simp only [runReads, e] at hread ⊢
      exact hread

/-- C17. Two schedules over the same stream read the same records as far as both got. -/
theorem C17_schedules_agree_partial (r : Reader) (hi : r.Inv) (ops ops' : List ROp)
    (h : plainOps r.keys.datagram ops) (h' : plainOps r.keys.datagram ops') :
    oks (runReads r ops).1 <+: oks (runReads r ops').1 ∨ oks (runReads r ops').1 <+: oks (runReads r ops).1 := by
  have e := C17_peek_transparent_partial r hi ops h
  have e' := C17_peek_transparent_partial r hi ops' h'
  exact List.prefix_or_prefix_of_prefix ⟨_, e⟩ ⟨_, e'⟩

/-- C17 is violated in DTLS: a record of an older epoch that `ReadRecordAnyEpoch` would return is lost if
`PeekRecordType` is called first. -/
theorem C17_peek_any_epoch_fails :
    let r := { Reader.new true [.ok [22, 0xfe, 0xfd, 0, 0, 0, 0, 0, 0, 0, 0, 0, 1, 9]] with
      keys := (Keys.new .read true).rekey 2 toyAead toyIv }
    (oks (runReads r [.read true]).1).length = 1 ∧ oks (runReads r [.peek, .read true]).1 = [] := by decide

/-- C17. The type a peek reports is the type of the record returned next. -/
theorem C17_peek_reports_next (r : Reader) (hi : r.Inv) (t : UInt8) (h : (peekType r).1 = .ok t) (any : Bool) :
    ∃ pt, (readRecord (peekType r).2 any).1 = .ok pt ∧ pt.contentType = t := by
  simp only [peekType, Res.bind_eq_ok, Res.ok.injEq] at h
  obtain ⟨pt, h1, h2⟩ := h
  obtain ⟨-, -, h3⟩ := nextRecord_coming r hi
  rw [h1] at h3
  have : (nextRecord r false).2.cached = some pt := by
    cases hc : (nextRecord r false).2.cached with
    | none => rw [hc] at h3; simp at h3
    | some x => rw [hc] at h3; simp at h3; rw [h3]
  refine ⟨pt, ?_, h2⟩
  rw [show (peekType r).2 = (nextRecord r false).2 from rfl, readRecord_cached this]

/-- Peek, peek, read, peek, read: both records arrive once, in order. -/
example : oks (runReads (Reader.new false [.ok [22, 3, 1, 0, 1], .ok [9, 21, 3], .ok [1, 0, 0]])
      [.peek, .peek, .read false, .peek, .read false]).1 = [⟨22, 0, 0, [9]⟩, ⟨21, 0, 0, []⟩] := by decide

/-! ### C18 -/

/-- The epoch field of a DTLS record header. -/
def headerEpoch (h : Bytes) : Nat := beNat ((h.drop 3).take 8) / 2 ^ 48

/-- C18. A DTLS record whose epoch has no keys is refused with an error, whatever its body. -/
theorem C18_unknown_epoch_refused (k : Keys) (any : Bool) (h b : Bytes) (hd : k.datagram = true)
    (hu : k.readCiphers.lookup (headerEpoch h) = none) : ∃ e, openRecord k any h b = .err e := by
  unfold headerEpoch at hu
  have hsel : selectCipher k any h = .err .wouldBlock := by
    simp [selectCipher, hd, Nat.shiftRight_eq_div_pow, hu]
  unfold openRecord
  split
  · exact ⟨_, rfl⟩
  · dsimp only
    split
    · exact ⟨_, rfl⟩
    · rw [hsel]; exact ⟨_, rfl⟩

/-- C18. Such a record is discarded without a trace: the read reports an error, the keys (with their sequence
numbers) are as before, nothing is cached, and the stream continues behind the record (or is untouched, if the
transport failed first). -/
theorem C18_unknown_epoch_discarded (r : Reader) (hi : r.Inv) (hc : r.cached = none) (any : Bool) (h b : Bytes)
    (fs : List FrameEvent) (hf : r.frames = .ok (h, b) :: fs) (hd : r.keys.datagram = true)
    (hu : r.keys.readCiphers.lookup (headerEpoch h) = none) :
    (∃ e, (readRecord r any).1 = .err e) ∧ (readRecord r any).2.keys = r.keys ∧ (readRecord r any).2.cached = none ∧
    ((readRecord r any).2.frames = fs ∨ (readRecord r any).2.frames = r.frames) := by
  obtain ⟨e, he⟩ := C18_unknown_epoch_refused r.keys any h b hd hu
  have hfr : (readRecord r any).2.frames = (nextRecord r any).2.frames := rfl
  have hke : (readRecord r any).2.keys = (nextRecord r any).2.keys := rfl
  have hre : (readRecord r any).1 = (nextRecord r any).1 := rfl
  have hca : (readRecord r any).2.cached = none := rfl
  rw [hfr, hke, hre, hca]
  obtain ⟨-, -, -, h4⟩ := nextRecord_spec r any hi hc
  rcases h4 with ⟨h', b', fs', e1, e2, e3⟩ | ⟨e', e0, ek, -, e4⟩
  · rw [hf] at e1
    simp only [List.cons.injEq, Except.ok.injEq, Prod.mk.injEq] at e1
    obtain ⟨⟨rfl, rfl⟩, rfl⟩ := e1
    rcases e3 with ⟨pt, k, ho, -⟩ | ⟨-, e6, e7, -⟩
    · rw [he] at ho; simp at ho
    · exact ⟨⟨e, by rw [e6, he]; rfl⟩, e7, rfl, Or.inl e2⟩
  · refine ⟨⟨e', e0⟩, ek, rfl, ?_⟩
    rcases e4 with ⟨fs', e4, -⟩ | ⟨e4, -⟩
    · rw [hf] at e4; simp at e4
    · exact Or.inr e4

example : (readRecord { Reader.new true [.ok [22, 0xfe, 0xfd, 0, 7, 0, 0, 0, 0, 0, 0, 0, 1, 9]] with
    keys := (Keys.new .read true).rekey 2 toyAead toyIv } true).1 = .err .wouldBlock := by decide

/-- C18. ReadRecord and PeekRecordType never accept a record of an epoch other than the current one. -/
theorem C18_other_epoch_not_read (k k' : Keys) (h b : Bytes) (pt : Plaintext) (hd : k.datagram = true)
    (ho : openRecord k false h b = .ok (pt, k')) :
    headerEpoch h = (k.heap k.cur).epoch ∧ pt.epoch = headerEpoch h := by
  obtain ⟨i, seq, hsel, -, -, hep, -⟩ := openRecord_ok ho
  simp only [selectCipher, hd, if_true, Nat.shiftRight_eq_div_pow] at hsel
  split at hsel
  · simp at hsel
  · split at hsel
    · simp at hsel
    · rename_i he
      simp only [Res.ok.injEq, Prod.mk.injEq] at hsel
      obtain ⟨rfl, rfl⟩ := hsel
      have : headerEpoch h = (k.heap k.cur).epoch := by unfold headerEpoch; omega
      exact ⟨this, by rw [hep, this]⟩

/-- C18. A record of the current epoch is processed with the keys of that epoch: what is accepted was opened by the
current AEAD under the nonce of the number in the header (or is unencrypted, if the epoch is). Missing: records of
older epochs, which `ReadRecordAnyEpoch` decrypts with the wrong keys (see `C18_old_epoch_fails`). -/
theorem C18_current_epoch_keys_partial (k k' : Keys) (any : Bool) (h b : Bytes) (pt : Plaintext) (hd : k.datagram = true)
    (hcur : headerEpoch h = (k.heap k.cur).epoch) (ho : openRecord k any h b = .ok (pt, k')) :
    ((k.heap k.cur).aead = none ∧ pt.contentType = h.getD 0 0) ∨
    ∃ a nonce c pad, (k.heap k.cur).aead = some a ∧ computeNonce (k.heap k.cur) (beNat ((h.drop 3).take 8)) = .ok nonce ∧
      a.opening nonce c h = some (innerPlaintext pt.contentType pt.fragment pad) := by
  obtain ⟨i, seq, hsel, -, -, -, -, -, -, hc⟩ := openRecord_ok ho
  simp only [selectCipher, hd, if_true, Nat.shiftRight_eq_div_pow] at hsel
  have hsel' : i = k.cur ∧ seq = beNat ((h.drop 3).take 8) := by
    split at hsel
    · simp at hsel
    · split at hsel
      · rename_i hne; unfold headerEpoch at hcur; exact absurd hcur hne
      · simp only [Res.ok.injEq, Prod.mk.injEq] at hsel
        exact ⟨hsel.1.symm, hsel.2.symm⟩
  obtain ⟨rfl, rfl⟩ := hsel'
  rcases hc with ⟨a, ha, -, hdec⟩ | ⟨ha, hct, -⟩
  · right
    unfold decrypt at hdec
    split at hdec
    · simp at hdec
    · split at hdec
      · simp at hdec
      · rw [ha] at hdec
        simp only [Res.bind_eq_ok] at hdec
        obtain ⟨nonce, hn, hdec⟩ := hdec
        split at hdec
        · simp at hdec
        · rename_i p hp
          obtain ⟨-, pad, rfl⟩ := stripPadding_ok hdec
          exact ⟨a, nonce, _, pad, ha, hn, hp⟩
  · exact Or.inl ⟨ha, hct⟩

/-- Another toy AEAD, with a different tag: keys of a different epoch. -/
def toyAead2 : Aead where
  overhead := 1
  sealing _ p _ := p ++ [0xBB]
  opening _ c _ := if c.getLast? = some 0xBB then some c.dropLast else none

/-- C18 is violated: a record sealed under the keys of epoch 2, read after the switch to epoch 3, is looked up under
epoch 2 but decrypted with the keys of epoch 3 (record-layer.go:268-280 use `r.cipher`), hence lost; and a record
marked epoch 2 but sealed under the keys of epoch 3 is accepted as an epoch-2 record. -/
theorem C18_old_epoch_fails :
    let keys := ((Keys.new .read true).rekey 2 toyAead toyIv).rekey 3 toyAead2 toyIv
    let header : Bytes := [23, 0xfe, 0xfd, 0, 2, 0, 0, 0, 0, 0, 0, 0, 3]
    (openRecord keys true header [9, 22, 0xAA]).isOk = false ∧
    (openRecord keys true header [9, 22, 0xBB]).bind (fun x => .ok x.1) = .ok ⟨22, 2, 0x2000000000000, [9]⟩ := by
  decide

example : (openRecord (((Keys.new .read true).rekey 2 toyAead toyIv).rekey 3 toyAead2 toyIv) false
    [23, 0xfe, 0xfd, 0, 3, 0, 0, 0, 0, 0, 0, 0, 3] [9, 22, 0xBB]).bind (fun x => .ok x.1) =
      .ok ⟨22, 3, 0x3000000000000, [9]⟩ := by decide

/-- C18. Over datagrams DiscardReadKey succeeds exactly for epochs that have keys (for others the program panics); afterwards every
record of that epoch is refused, and a record of any other epoch is judged as before. -/
theorem C18_discard (k : Keys) (e : Nat) (hd : k.datagram = true) :
    ((k.readCiphers.lookup e = none → k.discardReadKey e = .panic) ∧
      (k.readCiphers.lookup e ≠ none → ∃ k', k.discardReadKey e = .ok k')) ∧
    ∀ k', k.discardReadKey e = .ok k' → ∀ any h b,
      (headerEpoch h = e → ∃ x, openRecord k' any h b = .err x) ∧
      (headerEpoch h ≠ e → (openRecord k' any h b).bind (fun r => .ok r.1) = (openRecord k any h b).bind (fun r => .ok r.1)) := by
  have hl : ∀ (l : List (Nat × Nat)), (l.filter (fun x => x.1 != e)).lookup e = none ∧
      ∀ n, n ≠ e → (l.filter (fun x => x.1 != e)).lookup n = l.lookup n := by
    intro l
    induction l with
    | nil => exact ⟨rfl, fun _ _ => rfl⟩
    | cons x l ih =>
      obtain ⟨m, i⟩ := x
      by_cases hm : m = e
      · subst hm
        rw [List.filter_cons_of_neg (by simp)]
        refine ⟨ih.1, fun n hn => ?_⟩
        rw [ih.2 n hn, List.lookup_cons, beq_false_of_ne hn]
      · rw [List.filter_cons_of_pos (by simpa using hm)]
        refine ⟨?_, fun n hn => ?_⟩
        · rw [List.lookup_cons, beq_false_of_ne (Ne.symm hm)]
          exact ih.1
        · rw [List.lookup_cons, List.lookup_cons, ih.2 n hn]
  have hb : ∀ {α : Type} {f g : α → Res (Plaintext × Keys)},
      (∀ x, (f x).bind (fun r => Res.ok r.1) = (g x).bind (fun r => .ok r.1)) →
      ∀ x : Res α, (x.bind f).bind (fun r => Res.ok r.1) = (x.bind g).bind (fun r => .ok r.1) := by
    intro α f g h x
    cases x with
    | ok v => exact h v
    | err _ => rfl
    | panic => rfl
    | diverge => rfl
  unfold Keys.discardReadKey
  rw [if_neg (by rw [hd]; simp)]
  refine ⟨⟨fun h => by rw [h]; rfl, fun h => ?_⟩, ?_⟩
  · rw [if_pos (Option.isSome_iff_ne_none.2 h)]
    exact ⟨_, rfl⟩
  · intro k' hk' any h b
    split at hk'
    · cases hk'
      refine ⟨fun he => C18_unknown_epoch_refused _ any h b hd (by rw [he]; exact (hl _).1), fun he => ?_⟩
      have hs : selectCipher { k with readCiphers := k.readCiphers.filter (fun x => x.1 != e) } any h = selectCipher k any h := by
        unfold headerEpoch at he
        rw [← Nat.shiftRight_eq_div_pow] at he
        unfold selectCipher
        dsimp only
        rw [(hl _).2 _ he]
      unfold openRecord
      dsimp only
      rw [hs]
      split
      · rfl
      · split
        · rfl
        · refine hb (fun x => hb (fun y => ?_) _) _
          split
          · rfl
          · cases bumpSeq k.heap x.1 <;> rfl
    · cases hk'

/-- Keys of epochs 2 and 3, of which the first are discarded. -/
example : let k := ((Keys.new .read true).rekey 2 toyAead toyIv).rekey 3 toyAead2 toyIv
    k.readCiphers.lookup 2 ≠ none ∧ k.readCiphers.lookup 7 = none := by decide

end Verif.Record
