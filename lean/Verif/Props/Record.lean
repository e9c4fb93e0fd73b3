import Verif.Record.RoundTrip

/-
Properties C12–C18: the record layer.
-/

namespace Verif.Record

open Verif

/-! ### A toy AEAD for the examples -/

/-- Appends one tag byte. -/
def toyAead : Aead where
  overhead := 1
  sealing _ p _ := p ++ [0xAA]
  opening _ c _ := if c.getLast? = some 0xAA then some c.dropLast else none

theorem toyAead_lawful : toyAead.Lawful := by
  refine ⟨by simp [toyAead], by simp [toyAead], ?_⟩
  intro n c h p hp
  simp only [toyAead] at hp ⊢
  split at hp
  · rename_i hl
    simp only [Option.some.injEq] at hp
    subst hp
    have : c ≠ [] := by rintro rfl; simp at hl
    have := List.length_pos_iff.mpr this
    simp; omega
  · simp at hp

def toyIv : Bytes := List.replicate 12 7

def toyWriter : Keys := (Keys.new .write false).rekey 3 toyAead toyIv
def toyReader (conn : List (Except Err Bytes)) : Reader :=
  { Reader.new false conn with keys := (Keys.new .read false).rekey 3 toyAead toyIv }

/-! ### C12 -/

theorem rekey_paired {w r : Keys} (hp : Paired w r) (e : Nat) (a : Aead) (iv : Bytes) (ha : a.Lawful)
    (he : e < 2 ^ 16) : Paired (w.rekey e a iv) (r.rekey e a iv) := by
  refine ⟨hp.wdir, hp.rdir, hp.dgram, ?_, ?_, ?_, ?_, ?_, ?_, ?_, ?_⟩ <;> simp only [Keys.rekey, upd_same]
  · intro _; trivial
  · exact Nat.le_refl _
  · intro hd
    rw [if_pos ⟨hd, hp.rdir⟩]
    simp
  · exact he
  · intro a' h; simp only [Option.some.injEq] at h; exact h ▸ ha

/-- Retrying a read until the announced frame is there. -/
theorem readRetry_frame (n : Nat) (r : Reader) (hi : r.Inv) (hc : r.cached = none)
    (hconn : ∀ e, .error e ∉ r.conn) (hn : r.conn.length ≤ n) {h b : Bytes} {fs : List FrameEvent}
    (hf : r.frames = .ok (h, b) :: fs) {pt : Plaintext} {k : Keys}
    (ho : openRecord r.keys false h b = .ok (pt, k)) :
    ∃ r', readRetry n r = (.ok pt, r') ∧ r'.Inv ∧ r'.cached = none ∧ r'.keys = k ∧ r'.frames = fs ∧
      r'.conn <:+ r.conn := by
  induction n generalizing r with
  | zero =>
    have hnil : r.conn = [] := List.eq_nil_of_length_eq_zero (by omega)
    obtain ⟨h1, h2, h3, h4⟩ := nextRecord_spec r false hi hc
    rcases h4 with ⟨h', b', fs', e1, e2, e3⟩ | ⟨e, -, -, -, e4⟩
    · rw [hf] at e1
      simp only [List.cons.injEq, Except.ok.injEq, Prod.mk.injEq] at e1
      obtain ⟨⟨rfl, rfl⟩, rfl⟩ := e1
      rcases e3 with ⟨pt', k', e5, e6, e7, e8⟩ | ⟨e5, -⟩
      · rw [ho] at e5
        simp only [Res.ok.injEq, Prod.mk.injEq] at e5
        obtain ⟨rfl, rfl⟩ := e5
        refine ⟨{ (nextRecord r false).2 with cached := none }, ?_, h1, rfl, e7, e2, h2⟩
        simp [readRetry, readRecord, e6]
      · exact absurd ho (e5 _)
    · exfalso
      rcases e4 with ⟨fs', e4, -⟩ | ⟨-, ⟨e4, -⟩ | e4⟩
      · rw [hf] at e4; simp at e4
      · rw [hnil] at e4; simp at e4
      · rw [hf] at e4; simp at e4
  | succ n ih =>
    obtain ⟨h1, h2, h3, h4⟩ := nextRecord_spec r false hi hc
    rcases h4 with ⟨h', b', fs', e1, e2, e3⟩ | ⟨e, e0, ek, ec, e4⟩
    · rw [hf] at e1
      simp only [List.cons.injEq, Except.ok.injEq, Prod.mk.injEq] at e1
      obtain ⟨⟨rfl, rfl⟩, rfl⟩ := e1
      rcases e3 with ⟨pt', k', e5, e6, e7, e8⟩ | ⟨e5, -⟩
      · rw [ho] at e5
        simp only [Res.ok.injEq, Prod.mk.injEq] at e5
        obtain ⟨rfl, rfl⟩ := e5
        refine ⟨{ (nextRecord r false).2 with cached := none }, ?_, h1, rfl, e7, e2, h2⟩
        simp [readRetry, readRecord, e6]
      · exact absurd ho (e5 _)
    · rcases e4 with ⟨fs', e4, -⟩ | ⟨e4, ⟨e5, e6⟩ | e5⟩
      · rw [hf] at e4; simp at e4
      · rcases e6 with ⟨-, rfl⟩ | ⟨e', e6⟩
        · have hinv : Reader.Inv { (nextRecord r false).2 with cached := none } := h1
          have := ih { (nextRecord r false).2 with cached := none } hinv rfl
            (fun e he => hconn e (h2.subset he)) (by simp only; omega)
            (by show (nextRecord r false).2.frames = _; rw [e4, hf]) (by simp only [ek]; exact ho)
          obtain ⟨r', g1, g2, g3, g4, g5, g6⟩ := this
          refine ⟨r', ?_, g2, g3, g4, g5, g6.trans h2⟩
          have : readRecord r false = (.err .wouldBlock, { (nextRecord r false).2 with cached := none }) := by
            simp [readRecord, e0]
          rw [readRetry, this]
          exact g1
        · exact absurd e6 (hconn e')
      · rw [hf] at e5; simp at e5

/-- C12. Everything written on one side is read on the other: same content types, same fragments, same order,
nothing lost — with any padding, any rekeying schedule performed on both sides, any cutting of the byte stream
into transport reads (including empty ones), over TLS and DTLS framing. -/
theorem C12_record_roundtrip (w w' : Keys) (r : Reader) (items : List Item) (bytes rest : Bytes)
    (hp : Paired w r.keys) (hi : r.Inv) (hempty : r.cached = none)
    (hfine : Item.fine ((w.heap w.cur).aead.isSome) items)
    (hsend : sendAll w items = .ok (bytes, w')) (hconn : ∀ e, .error e ∉ r.conn)
    (hframes : r.frames = frameEvents (recordFraming w.datagram) (bytes ++ rest)) :
    ∃ r', receiveAll r items = .ok (Item.records items, r') ∧ Paired w' r'.keys ∧
      r'.frames = frameEvents (recordFraming w.datagram) rest := by
  induction items generalizing w r bytes with
  | nil =>
    simp only [sendAll, Res.ok.injEq, Prod.mk.injEq] at hsend
    obtain ⟨rfl, rfl⟩ := hsend
    exact ⟨r, rfl, hp, by simpa using hframes⟩
  | cons it items ih =>
    cases it with
    | rekey e a iv =>
      simp only [sendAll] at hsend
      obtain ⟨⟨ha, he⟩, hfine⟩ := hfine
      simp only [receiveAll, Item.records]
      refine ih (w.rekey e a iv) { r with keys := r.keys.rekey e a iv } bytes (rekey_paired hp e a iv ha he)
        hi hempty ?_ hsend hconn ?_
      · simpa [Keys.rekey] using hfine
      · exact hframes
    | record ct f pad =>
      simp only [sendAll, Res.bind_eq_ok, Res.ok.injEq, Prod.mk.injEq] at hsend
      obtain ⟨⟨rec, w1⟩, hw, ⟨more, w2⟩, hs, rfl, rfl⟩ := hsend
      obtain ⟨⟨hct, hkn⟩, hfine⟩ := hfine
      obtain ⟨hd, b, pt, k, rfl, hl, hfl, ho, rfl, rfl, -, hp', haead, hdg⟩ :=
        openRecord_writeRecord false hp hw hct (fun h => hkn (by simp [h]))
      dsimp only at hs
      have hev : r.frames = .ok (hd, b) :: frameEvents (recordFraming w.datagram) (more ++ rest) := by
        rw [hframes]
        have := frameEvents_cons (recordFraming_pos _) hl hfl (rest := more ++ rest)
        simpa [List.append_assoc] using this
      obtain ⟨r1, g1, g2, g3, g4, g5, g6⟩ :=
        readRetry_frame r.conn.length r hi hempty hconn (Nat.le_refl _) hev ho
      have hdw : w1.datagram = w.datagram := by
        rw [hp'.dgram, hdg, hp.dgram]
      subst g4
      obtain ⟨r', k1, k2, k3⟩ := ih w1 r1 more hp' g2 g3 (by rw [haead]; exact hfine) hs
        (fun e he => hconn e (g6.subset he)) (by rw [g5, hdw])
      refine ⟨r', ?_, k2, by rw [k3, hdw]⟩
      simp only [receiveAll, g1, k1, Item.records, Res.bind_ok]

/-- Three records, a rekey and padding, cut at awkward places. -/
example : ∃ bytes w', sendAll (Keys.new .write false)
      [.record 22 [1, 2, 3] 0, .rekey 3 toyAead toyIv, .record 23 [] 4, .record 21 [9] 0] = .ok (bytes, w') ∧
    bytes.length = 8 + 11 + 8 ∧
    Paired (Keys.new .write false) (Reader.new false [.ok (bytes.take 3), .ok [], .ok (bytes.drop 3)]).keys ∧
    Item.fine false [.record 22 [1, 2, 3] 0, .rekey 3 toyAead toyIv, .record 23 [] 4, .record 21 [9] 0] := by
  refine ⟨_, _, rfl, by decide, ?_, ?_⟩
  · refine ⟨rfl, rfl, rfl, rfl, rfl, rfl, fun _ => rfl, Nat.le_refl _, ?_, by decide, ?_⟩
    · intro h; simp [Reader.new, Keys.new] at h
    · intro a h; simp [Reader.new, Keys.new, nullCipher] at h
  · simp [Item.fine, knownType, toyAead_lawful]

/-! ### C13 -/

/-- Operations on a writing record layer. `i` names the key used: the current one, or an older one kept for
retransmission. -/
inductive WOp where
  | write (i : Nat) (ct : UInt8) (fragment : Bytes) (pad : Nat)
  | rekey (epoch : Nat) (a : Aead) (iv : Bytes)
  | resetClear (seq : Nat)
  | setVersion (v : Nat)

/-- A record that went out under an AEAD key. -/
structure Sealed where
  key : Nat
  nonce : Bytes
  record : Bytes

/-- Run operations, logging every emitted record that is encrypted. A refused write changes nothing, a panic
ends the program, and so does the use of a key that does not exist (nil pointer). -/
def runWrites : Keys → List WOp → List Sealed
  | _, [] => []
  | k, .write i ct f pad :: ops =>
    if i < k.fresh then
      match writeRecord k i ct f pad with
      | .ok (rec, k') =>
        match (k.heap i).aead, computeNonce (k.heap i) (combineSeq (k.heap i) k.datagram) with
        | some _, .ok nonce => ⟨i, nonce, rec⟩ :: runWrites k' ops
        | _, _ => runWrites k' ops
      | .err _ => runWrites k ops
      | _ => []
    else []
  | k, .rekey e a iv :: ops => runWrites (k.rekey (e % 2 ^ 16) a iv) ops
  | k, .resetClear s :: ops => runWrites (k.resetClear s) ops
  | k, .setVersion v :: ops => runWrites (k.setVersion v) ops

/-- Every logged record really is its header followed by the AEAD sealing of something under the logged nonce. -/
theorem sealed_is_sealing {k k' : Keys} {i : Nat} {ct : UInt8} {f : Bytes} {pad : Nat} {rec nonce : Bytes} {a : Aead}
    (h : writeRecord k i ct f pad = .ok (rec, k')) (ha : (k.heap i).aead = some a)
    (hn : computeNonce (k.heap i) (combineSeq (k.heap i) k.datagram) = .ok nonce) :
    ∃ header, rec = header ++ a.sealing nonce (innerPlaintext ct f pad) header := by
  obtain ⟨hd, b, rfl, -, -, -, hc⟩ := writeRecord_ok h
  rcases hc with ⟨a', nonce', ha', -, -, hn', rfl⟩ | ⟨ha', -⟩
  · rw [ha] at ha'; rw [hn] at hn'
    simp only [Option.some.injEq, Res.ok.injEq] at ha' hn'
    subst ha' hn'
    exact ⟨hd, rfl⟩
  · rw [ha] at ha'; simp at ha'

/-- Auxiliary: keys allocated before `n` keep IV and epoch, and numbers only go up; `bound` collects, per key,
the numbers still unused. -/
theorem runWrites_bound (k : Keys) (ops : List WOp) (hep : ∀ i, (k.heap i).epoch < 2 ^ 16) :
    (runWrites k ops).Pairwise (fun x y => x.key = y.key → x.nonce ≠ y.nonce) ∧
    ∀ x ∈ runWrites k ops, x.key < k.fresh →
      ∃ s, (k.heap x.key).seq ≤ s ∧ s < 2 ^ 48 ∧
        computeNonce (k.heap x.key) (combineSeq { k.heap x.key with seq := s } k.datagram) = .ok x.nonce := by
  induction ops generalizing k with
  | nil => simp [runWrites]
  | cons op ops ih =>
    cases op with
    | rekey e a iv =>
      simp only [runWrites]
      have hep' : ∀ i, ((k.rekey (e % 2 ^ 16) a iv).heap i).epoch < 2 ^ 16 := by
        intro i
        simp only [Keys.rekey, upd]
        split
        · exact Nat.mod_lt _ (by decide)
        · exact hep i
      obtain ⟨h1, h2⟩ := ih _ hep'
      refine ⟨h1, fun x hx hlt => ?_⟩
      have := h2 x hx (by simp only [Keys.rekey]; omega)
      simpa only [Keys.rekey, upd_ne (Nat.ne_of_lt hlt)] using this
    | resetClear s =>
      simp only [runWrites]
      have hep' : ∀ i, ((k.resetClear s).heap i).epoch < 2 ^ 16 := by
        intro i
        simp only [Keys.resetClear, upd]
        split
        · simp [nullCipher]
        · exact hep i
      obtain ⟨h1, h2⟩ := ih _ hep'
      refine ⟨h1, fun x hx hlt => ?_⟩
      have := h2 x hx (by simp only [Keys.resetClear]; omega)
      simpa only [Keys.resetClear, upd_ne (Nat.ne_of_lt hlt)] using this
    | setVersion v =>
      simp only [runWrites]
      exact ih (k.setVersion v) hep
    | write i ct f pad =>
      simp only [runWrites]
      split
      · rename_i hi
        split
        · rename_i rec k' hw
          obtain ⟨hd, b, -, -, hs, rfl, -⟩ := writeRecord_ok hw
          have hep' : ∀ j, (upd k.heap i { k.heap i with seq := (k.heap i).seq + 1 } j).epoch < 2 ^ 16 := by
            intro j
            simp only [upd]
            split
            · exact hep i
            · exact hep j
          obtain ⟨h1, h2⟩ := ih { k with heap := upd k.heap i { k.heap i with seq := (k.heap i).seq + 1 } } hep'
          -- restate for the keys before the write
          have h2' : ∀ x ∈ runWrites
                { k with heap := upd k.heap i { k.heap i with seq := (k.heap i).seq + 1 } } ops,
              x.key < k.fresh → ∃ s, (k.heap x.key).seq ≤ s ∧ (x.key = i → (k.heap i).seq + 1 ≤ s) ∧ s < 2 ^ 48 ∧
                computeNonce (k.heap x.key) (combineSeq { k.heap x.key with seq := s } k.datagram) = .ok x.nonce := by
            intro x hx hlt
            obtain ⟨s, g1, g2, g3⟩ := h2 x hx hlt
            by_cases hxi : x.key = i
            · rw [hxi] at g1 g3 ⊢
              simp only [upd_same] at g1 g3
              exact ⟨s, by omega, fun _ => g1, g2, g3⟩
            · simp only [upd_ne hxi] at g1 g3
              exact ⟨s, g1, fun h => absurd h hxi, g2, g3⟩
          split
          · rename_i a nonce ha hn
            refine ⟨List.pairwise_cons.mpr ⟨?_, h1⟩, ?_⟩
            · intro y hy hkey hnn
              simp only at hkey hnn
              obtain ⟨s, -, g1, g2, g3⟩ := h2' y hy (by rw [← hkey]; exact hi)
              have g1' := g1 hkey.symm
              rw [← hkey] at g3
              rw [← hnn] at g3
              have e := computeNonce_inj rfl
                (combineSeq_lt (c := k.heap i) (by omega) (hep i) k.datagram)
                (combineSeq_lt (c := { k.heap i with seq := s }) g2 (hep i) k.datagram) hn g3
              rw [combineSeq_eq (by omega), combineSeq_eq (c := { k.heap i with seq := s }) g2] at e
              split at e <;> simp only at e <;> omega
            · intro x hx hlt
              rcases List.mem_cons.mp hx with rfl | hx
              · exact ⟨(k.heap i).seq, Nat.le_refl _, by omega, hn⟩
              · obtain ⟨s, g1, -, g2, g3⟩ := h2' x hx hlt
                exact ⟨s, g1, g2, g3⟩
          · refine ⟨h1, fun x hx hlt => ?_⟩
            obtain ⟨s, g1, -, g2, g3⟩ := h2' x hx hlt
            exact ⟨s, g1, g2, g3⟩
        · exact ih k hep
        · simp
      · simp

/-- C13. No two records emitted under one key carry the same nonce, whatever the order of writes (under current or
older keys, succeeding or failing), key changes and resets. TLS and DTLS. -/
theorem C13_nonce_unique (datagram : Bool) (ops : List WOp) :
    (runWrites (Keys.new .write datagram) ops).Pairwise (fun x y => x.key = y.key → x.nonce ≠ y.nonce) := by
  refine (runWrites_bound _ ops ?_).1
  intro i
  simp [Keys.new, nullCipher]

/-- C13. Once 2^48-1 records went out under a key, nothing more is emitted under it. -/
theorem C13_exhaustion_stops (k : Keys) (i : Nat) (ct : UInt8) (f : Bytes) (pad : Nat)
    (h : 2 ^ 48 - 1 ≤ (k.heap i).seq) : ∀ x, writeRecord k i ct f pad ≠ .ok x := by
  rintro ⟨rec, k'⟩ hw
  obtain ⟨_, _, -, -, hs, -⟩ := writeRecord_ok hw
  omega

/-- Each emitted record uses up one number. -/
theorem C13_number_consumed (k k' : Keys) (i : Nat) (ct : UInt8) (f : Bytes) (pad : Nat) (rec : Bytes)
    (h : writeRecord k i ct f pad = .ok (rec, k')) : (k'.heap i).seq = (k.heap i).seq + 1 := by
  obtain ⟨_, _, -, -, hs, rfl, -⟩ := writeRecord_ok h
  simp

/-- The log is not vacuous: two records under one key, one under the next. -/
example : (runWrites (Keys.new .write false)
    [.rekey 2 toyAead toyIv, .write 1 22 [1] 0, .write 1 23 [] 3, .rekey 3 toyAead toyIv, .write 2 23 [5] 0]).map
      (fun s => (s.key, s.nonce.getLast?)) = [(1, some 7), (1, some 6), (2, some 7)] := by decide

/-! ### C14 -/

/-- The header a TLS writer puts on the `j`-th record. -/
def tlsHeader (version : Nat) (a : Aead) (it : UInt8 × Bytes × Nat) : Bytes :=
  (23 : UInt8) :: beBytes 2 version ++ beBytes 2 (it.2.1.length + (1 + it.2.2 + a.overhead))

/-- What the peer sealed under the key: for the `j`-th record (type, fragment, padding), the nonce of
sequence number `j`, the padded plaintext and the header. -/
def PeerSealed (iv : Bytes) (version : Nat) (a : Aead) (items : List (UInt8 × Bytes × Nat))
    (nonce p header : Bytes) : Prop :=
  ∃ (j : Nat) (it : UInt8 × Bytes × Nat), items[j]? = some it ∧
    computeNonce ⟨0, 0, iv, none⟩ j = .ok nonce ∧ p = innerPlaintext it.1 it.2.1 it.2.2 ∧
    header = tlsHeader version a it

/-- `PeerSealed` is what the modelled writer does. -/
theorem peerSealed_of_write (k k' : Keys) (a : Aead) (iv : Bytes) (items : List (UInt8 × Bytes × Nat)) (j : Nat)
    (it : UInt8 × Bytes × Nat) (rec : Bytes)
    (ha : (k.heap k.cur).aead = some a) (hiv : (k.heap k.cur).iv = iv) (hs : (k.heap k.cur).seq = j)
    (hd : k.datagram = false) (hit : items[j]? = some it)
    (h : writeRecord k k.cur it.1 it.2.1 it.2.2 = .ok (rec, k')) :
    ∃ nonce p header, PeerSealed iv k.version a items nonce p header ∧
      rec = header ++ a.sealing nonce p header := by
  obtain ⟨hd', b, rfl, -, -, -, hc⟩ := writeRecord_ok h
  rcases hc with ⟨a', nonce', ha', -, hh, hn', rfl⟩ | ⟨ha', -⟩
  · rw [ha] at ha'
    simp only [Option.some.injEq] at ha'
    subst ha'
    refine ⟨nonce', _, hd', ⟨j, it, hit, ?_, rfl, ?_⟩, rfl⟩
    · rw [hd] at hn'
      simp only [combineSeq, Bool.false_eq_true, if_false, hs] at hn'
      rw [← hn']; simp [computeNonce, hiv]
    · simp only [recordHeader, hd, Bool.false_eq_true, if_false, Res.ok.injEq] at hh
      rw [← hh]; rfl
  · rw [ha] at ha'; simp at ha'

theorem accepted_prefix (a : Aead) (iv : Bytes) (version : Nat) (items : List (UInt8 × Bytes × Nat))
    (hct : ∀ it ∈ items, it.1 ≠ 0)
    (hideal : ∀ n c h p, a.opening n c h = some p → PeerSealed iv version a items n p h)
    (n : Nat) (r : Reader) (hi : r.Inv) (hc : r.cached = none) (hd : r.keys.datagram = false)
    (ha : (r.keys.heap r.keys.cur).aead = some a) (hiv : (r.keys.heap r.keys.cur).iv = iv)
    (hlen : items.length < 2 ^ 48) :
    accepted (reads n r) <+: (items.drop (r.keys.heap r.keys.cur).seq).map (fun it => (it.1, it.2.1)) := by
  induction n generalizing r with
  | zero => simp [reads, accepted]
  | succ n ih =>
    obtain ⟨h1, h2, h3, h4⟩ := nextRecord_spec r false hi hc
    simp only [reads]
    have hinv : Reader.Inv { (nextRecord r false).2 with cached := none } := h1
    have same : (nextRecord r false).2.keys = r.keys → (∀ pt, (nextRecord r false).1 ≠ .ok pt) →
        accepted ((readRecord r false).1 :: reads n (readRecord r false).2) <+:
          (items.drop (r.keys.heap r.keys.cur).seq).map (fun it => (it.1, it.2.1)) := by
      intro hk hno
      have h5 : accepted ((readRecord r false).1 :: reads n (readRecord r false).2) =
          accepted (reads n (readRecord r false).2) := by
        have : ∀ pt, (readRecord r false).1 ≠ .ok pt := hno
        cases hx : (readRecord r false).1 with
        | ok pt => exact absurd hx (this pt)
        | err e => rfl
        | panic => rfl
        | diverge => rfl
      rw [h5]
      have hk' : (readRecord r false).2.keys = r.keys := hk
      have := ih (readRecord r false).2 hinv rfl (by rw [hk']; exact hd)
        (by rw [hk']; exact ha) (by rw [hk']; exact hiv)
      rw [hk'] at this
      exact this
    rcases h4 with ⟨hd', b, fs, e1, e2, e3⟩ | ⟨e, e0, ek, ec, e4⟩
    · rcases e3 with ⟨pt, k, ho, e6, e7, e8⟩ | ⟨e5, e6, e7, e8⟩
      · obtain ⟨i, seq, hsel, -, hs, -, hk, -, -, hcase⟩ := openRecord_ok ho
        have hsel' : i = r.keys.cur ∧ seq = (r.keys.heap r.keys.cur).seq := by
          simp only [selectCipher, hd, Bool.false_eq_true, if_false, Res.ok.injEq, Prod.mk.injEq] at hsel
          exact ⟨hsel.1.symm, hsel.2.symm⟩
        obtain ⟨rfl, rfl⟩ := hsel'
        rcases hcase with ⟨a', -, -, hdec⟩ | ⟨hn, -⟩
        · -- decrypted: it was sealed by the peer with exactly this number
          have hitem : ∃ it, items[(r.keys.heap r.keys.cur).seq]? = some it ∧ pt.contentType = it.1 ∧
              pt.fragment = it.2.1 := by
            unfold decrypt at hdec
            split at hdec
            · simp at hdec
            · split at hdec
              · simp at hdec
              · rw [ha] at hdec
                simp only [Res.bind_eq_ok] at hdec
                obtain ⟨nonce, hnonce, hdec⟩ := hdec
                split at hdec
                · simp at hdec
                · rename_i p hp
                  obtain ⟨j, it, g1, g2, rfl, -⟩ := hideal _ _ _ _ hp
                  have hj : j < items.length := by
                    rcases Nat.lt_or_ge j items.length with h | h
                    · exact h
                    · rw [List.getElem?_eq_none h] at g1; simp at g1
                  have hjs := computeNonce_inj (c := r.keys.heap r.keys.cur) (c' := ⟨0, 0, iv, none⟩) (by simp [hiv])
                    (by omega) (by omega) hnonce g2
                  rw [hjs]
                  have hmem := hct it (List.mem_of_getElem? g1)
                  rw [stripPadding_inner _ _ _ hmem] at hdec
                  simp only [Res.ok.injEq, Prod.mk.injEq] at hdec
                  exact ⟨it, g1, hdec.1.symm, hdec.2.symm⟩
          obtain ⟨it, g1, g2, g3⟩ := hitem
          have hdrop : items.drop (r.keys.heap r.keys.cur).seq =
              it :: items.drop ((r.keys.heap r.keys.cur).seq + 1) := by
            have hlt : (r.keys.heap r.keys.cur).seq < items.length := by
              rcases Nat.lt_or_ge (r.keys.heap r.keys.cur).seq items.length with h | h
              · exact h
              · rw [List.getElem?_eq_none h] at g1; simp at g1
            rw [List.drop_eq_getElem_cons hlt]
            rw [List.getElem?_eq_getElem hlt] at g1
            simp only [Option.some.injEq] at g1
            rw [g1]
          have hkeys : (readRecord r false).2.keys = k := e7
          have hrest := ih (readRecord r false).2 hinv rfl
            (by rw [hkeys, hk]; exact hd) (by rw [hkeys, hk]; simp only [upd_same]; exact ha)
            (by rw [hkeys, hk]; simp only [upd_same]; exact hiv)
          rw [hkeys, hk] at hrest
          simp only [upd_same] at hrest
          have hx : (readRecord r false).1 = .ok pt := e6
          rw [hx, hdrop]
          simp only [accepted, List.map_cons, g2, g3, List.cons_prefix_cons, true_and]
          exact hrest
        · rw [ha] at hn; simp at hn
      · refine same e7 ?_
        intro pt hpt
        rw [e6, Res.bind_eq_ok] at hpt
        obtain ⟨x, hx, -⟩ := hpt
        exact e5 x hx
    · exact same ek (by intro pt; rw [e0]; simp)

/-- C14. Let the AEAD open nothing but what the peer sealed under the key. Then, whatever bytes and errors the
transport delivers, the records a TLS reader accepts under that key are a prefix of the records the peer sent. -/
theorem C14_tls_integrity (a : Aead) (iv : Bytes) (version epoch : Nat) (items : List (UInt8 × Bytes × Nat))
    (hct : ∀ it ∈ items, it.1 ≠ 0) (hlen : items.length < 2 ^ 48)
    (hideal : ∀ n c h p, a.opening n c h = some p → PeerSealed iv version a items n p h)
    (n : Nat) (r : Reader) (hi : r.Inv) (hc : r.cached = none) (hd : r.keys.datagram = false) :
    accepted (reads n { r with keys := r.keys.rekey epoch a iv }) <+:
      items.map (fun it => (it.1, it.2.1)) := by
  have := accepted_prefix a iv version items hct hideal n { r with keys := r.keys.rekey epoch a iv } hi hc hd
    (by simp [Keys.rekey]) (by simp [Keys.rekey]) hlen
  simpa [Keys.rekey] using this

/-- An AEAD that opens exactly one ciphertext: the peer's only record. The replayed copy is refused. -/
def oneAead : Aead where
  overhead := 1
  sealing _ p _ := p ++ [0xAA]
  opening n c h :=
    if n = toyIv ∧ c = [1, 2, 23, 0xAA] ∧ h = [23, 3, 3, 0, 4] then some [1, 2, 23] else none

example : (∀ n c h p, oneAead.opening n c h = some p → PeerSealed toyIv 0x0303 oneAead [(23, [1, 2], 0)] n p h) ∧
    accepted (reads 3 { Reader.new false [.ok [23, 3, 3, 0, 4, 1, 2, 23, 0xAA, 23, 3, 3, 0, 4, 1, 2, 23, 0xAA]] with
      keys := (Keys.new .read false).rekey 3 oneAead toyIv }) = [(23, [1, 2])] := by
  constructor
  · intro n c h p hp
    simp only [oneAead] at hp
    split at hp
    · rename_i hcond
      obtain ⟨rfl, rfl, rfl⟩ := hcond
      simp only [Option.some.injEq] at hp
      subst hp
      exact ⟨0, (23, [1, 2], 0), rfl, by decide, by decide, by decide⟩
    · simp at hp
  · decide

end Verif.Record
