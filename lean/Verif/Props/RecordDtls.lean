import Verif.Props.Record
import Verif.Handshake.Layer

/-
Properties C63 and C64: records over DTLS, where the transport may drop, reorder, duplicate and insert datagrams.
-/

namespace Verif.Record

open Verif

/-! ### Vocabulary -/

/-- The results of successive reads: ReadRecord for `false`, ReadRecordAnyEpoch for `true`. -/
def readsWith : List Bool → Reader → List (Res Plaintext)
  | [], _ => []
  | any :: more, r => (readRecord r any).1 :: readsWith more (readRecord r any).2

/-- The header a DTLS writer puts on the `j`-th record of an epoch. -/
def dtlsHeader (version epoch : Nat) (a : Aead) (j : Nat) (it : UInt8 × Bytes × Nat) : Bytes :=
  (23 : UInt8) :: beBytes 2 version ++ beBytes 8 (epoch * 2 ^ 48 + j) ++ beBytes 2 (it.2.1.length + (1 + it.2.2 + a.overhead))

/-- What the peer sealed under the key of an epoch: for the `j`-th record (type, fragment, padding), the nonce of epoch and
number, the padded plaintext and the header. `version` is the version on the wire. -/
def PeerSealedDtls (iv : Bytes) (version epoch : Nat) (a : Aead) (items : List (UInt8 × Bytes × Nat))
    (nonce p header : Bytes) : Prop :=
  ∃ (j : Nat) (it : UInt8 × Bytes × Nat), items[j]? = some it ∧
    computeNonce ⟨0, 0, iv, none⟩ (epoch * 2 ^ 48 + j) = .ok nonce ∧ p = innerPlaintext it.1 it.2.1 it.2.2 ∧
    header = dtlsHeader version epoch a j it

/-- `PeerSealedDtls` is what the modelled writer does. -/
theorem peerSealedDtls_of_write (k k' : Keys) (a : Aead) (iv : Bytes) (items : List (UInt8 × Bytes × Nat)) (j epoch version : Nat)
    (it : UInt8 × Bytes × Nat) (rec : Bytes)
    (ha : (k.heap k.cur).aead = some a) (hiv : (k.heap k.cur).iv = iv) (hs : (k.heap k.cur).seq = j)
    (he : (k.heap k.cur).epoch = epoch)
    (hd : k.datagram = true) (hv : dtlsConvertVersion k.version = .ok version) (hit : items[j]? = some it)
    (h : writeRecord k k.cur it.1 it.2.1 it.2.2 = .ok (rec, k')) :
    ∃ nonce p header, PeerSealedDtls iv version epoch a items nonce p header ∧
      rec = header ++ a.sealing nonce p header := by
  obtain ⟨hd', b, rfl, -, hlt, -, hc⟩ := writeRecord_ok h
  rcases hc with ⟨a', nonce', ha', -, hh, hn', rfl⟩ | ⟨ha', -⟩
  · rw [ha] at ha'
    simp only [Option.some.injEq] at ha'
    subst ha'
    rw [combineSeq_eq (by omega), hd] at hh hn'
    simp only [if_true, hs, he] at hh hn'
    refine ⟨nonce', _, hd', ⟨j, it, hit, ?_, rfl, ?_⟩, rfl⟩
    · rw [← hn']; simp [computeNonce, hiv]
    · simp only [recordHeader, hd, if_true, hv, Res.bind_ok, Res.ok.injEq] at hh
      rw [← hh]; rfl
  · rw [ha] at ha'; simp at ha'

/-- The table of reading keys is in order: the entry for an epoch is a key of that epoch, and the current epoch has one. -/
structure Keys.Tabled (k : Keys) : Prop where
  alloc : ∀ e i, k.readCiphers.lookup e = some i → i < k.fresh
  epoch : ∀ e i, k.readCiphers.lookup e = some i → (k.heap i).epoch = e

theorem Keys.tabled_new (dir : Direction) : (Keys.new dir true).Tabled := by
  constructor
  all_goals
    intro e i h
    simp only [Keys.new, if_true, List.lookup_cons, List.lookup_nil] at h
    split at h
    · rename_i he
      simp only [Option.some.injEq] at h
      subst h
      simp [Keys.new, nullCipher, (beq_iff_eq.1 he)]
    · cases h

theorem Keys.tabled_rekey {k : Keys} (h : k.Tabled) (epoch : Nat) (a : Aead) (iv : Bytes) : (k.rekey epoch a iv).Tabled := by
  constructor
  · intro e i hl
    simp only [Keys.rekey] at hl ⊢
    split at hl
    · simp only [List.lookup_cons] at hl
      split at hl
      · simp only [Option.some.injEq] at hl; omega
      · have := h.alloc e i hl; omega
    · have := h.alloc e i hl; omega
  · intro e i hl
    simp only [Keys.rekey] at hl ⊢
    have old : ∀ {i}, k.readCiphers.lookup e = some i → (upd k.heap k.fresh ⟨epoch, 0, iv, some a⟩ i).epoch = e := by
      intro i hl
      rw [upd_ne (Nat.ne_of_lt (h.alloc e i hl))]
      exact h.epoch e i hl
    split at hl
    · simp only [List.lookup_cons] at hl
      split at hl
      · rename_i he
        simp only [Option.some.injEq] at hl
        subst hl
        simpa using (beq_iff_eq.1 he).symm
      · exact old hl
    · exact old hl

theorem Keys.tabled_bump {k : Keys} (h : k.Tabled) (i : Nat) :
    Keys.Tabled { k with heap := upd k.heap i { k.heap i with seq := (k.heap i).seq + 1 } } := by
  refine ⟨h.alloc, fun e j hl => ?_⟩
  have := h.epoch e j hl
  simp only [upd]
  split
  · rename_i hj; rw [hj] at this; exact this
  · exact this

/-! ### C63 -/

/-- A record returned as one of the current epoch was opened with the current key. -/
theorem openRecord_current {k k' : Keys} {any : Bool} {h b : Bytes} {pt : Plaintext} {a : Aead} (hd : k.datagram = true)
    (ht : k.Tabled) (ha : (k.heap k.cur).aead = some a) (ho : openRecord k any h b = .ok (pt, k'))
    (he : pt.epoch = (k.heap k.cur).epoch) :
    ∃ nonce p c, computeNonce (k.heap k.cur) pt.seq = .ok nonce ∧ a.opening nonce c h = some p ∧
      stripPadding p = .ok (pt.contentType, pt.fragment) ∧ pt.seq < 2 ^ 64 := by
  obtain ⟨i, seq, hsel, -, -, hep, -, -, -, hc⟩ := openRecord_ok ho
  have hi : i = k.cur ∧ seq = beNat ((h.drop 3).take 8) := by
    simp only [selectCipher, hd, if_true] at hsel
    split at hsel
    · cases hsel
    · rename_i j hl
      split at hsel
      · rename_i hne
        split at hsel
        · simp only [Res.ok.injEq, Prod.mk.injEq] at hsel
          obtain ⟨rfl, rfl⟩ := hsel
          exact absurd ((ht.epoch _ _ hl).symm.trans (hep.symm.trans he)) hne
        · cases hsel
      · simp only [Res.ok.injEq, Prod.mk.injEq] at hsel
        exact ⟨hsel.1.symm, hsel.2.symm⟩
  obtain ⟨rfl, rfl⟩ := hi
  rcases hc with ⟨a', -, hs, hdec⟩ | ⟨hn, -⟩
  · unfold decrypt at hdec
    split at hdec
    · cases hdec
    · split at hdec
      · cases hdec
      · rw [ha] at hdec
        simp only [Res.bind_eq_ok] at hdec
        obtain ⟨nonce, hnonce, hdec⟩ := hdec
        split at hdec
        · cases hdec
        · rename_i p hp
          refine ⟨nonce, p, _, by rw [hs]; exact hnonce, hp, hdec, ?_⟩
          rw [hs]
          have := beNat_lt ((h.drop 3).take 8)
          have hl : ((h.drop 3).take 8).length ≤ 8 := by simp; omega
          have := Nat.pow_le_pow_right (n := 256) (by omega) hl
          omega
  · rw [ha] at hn; cases hn

theorem readsWith_authentic (a : Aead) (iv : Bytes) (version epoch : Nat) (items : List (UInt8 × Bytes × Nat))
    (hct : ∀ it ∈ items, it.1 ≠ 0) (hlen : items.length < 2 ^ 48) (hep : epoch < 2 ^ 16)
    (hideal : ∀ n c h p, a.opening n c h = some p → PeerSealedDtls iv version epoch a items n p h)
    (ops : List Bool) (r : Reader) (hi : r.Inv) (hc : r.cached = none) (hd : r.keys.datagram = true) (ht : r.keys.Tabled)
    (ha : (r.keys.heap r.keys.cur).aead = some a) (hiv : (r.keys.heap r.keys.cur).iv = iv)
    (he : (r.keys.heap r.keys.cur).epoch = epoch) (pt : Plaintext) (hpt : .ok pt ∈ readsWith ops r) (hpe : pt.epoch = epoch) :
    ∃ j it, items[j]? = some it ∧ pt.seq = epoch * 2 ^ 48 + j ∧ pt.contentType = it.1 ∧ pt.fragment = it.2.1 := by
  induction ops generalizing r with
  | nil => simp [readsWith] at hpt
  | cons any ops ih =>
    obtain ⟨h1, -, h3, h4⟩ := nextRecord_spec r any hi hc
    simp only [readsWith, List.mem_cons] at hpt
    have hinv : Reader.Inv (readRecord r any).2 := h1
    have hres : (readRecord r any).1 = (nextRecord r any).1 := rfl
    have hkeys : (readRecord r any).2.keys = (nextRecord r any).2.keys := rfl
    have same : (nextRecord r any).2.keys = r.keys → (∀ x, (nextRecord r any).1 ≠ .ok x) →
        ∃ j it, items[j]? = some it ∧ pt.seq = epoch * 2 ^ 48 + j ∧ pt.contentType = it.1 ∧ pt.fragment = it.2.1 := by
      intro hk hno
      rcases hpt with hpt | hpt
      · exact absurd hpt.symm (hno pt)
      · rw [hk] at hkeys
        exact ih (readRecord r any).2 hinv rfl (by rw [hkeys]; exact hd) (by rw [hkeys]; exact ht) (by rw [hkeys]; exact ha)
          (by rw [hkeys]; exact hiv) (by rw [hkeys]; exact he) hpt
    rcases h4 with ⟨hh, b, fs, e1, e2, e3⟩ | ⟨e, e0, ek, -, -⟩
    · rcases e3 with ⟨pt', k, ho, e6, e7, -⟩ | ⟨e5, e6, e7, -⟩
      · rcases hpt with hpt | hpt
        · rw [hres, e6] at hpt
          simp only [Res.ok.injEq] at hpt
          subst hpt
          obtain ⟨nonce, p, c, hn, hop, hst, hlt⟩ := openRecord_current hd ht ha ho (hpe.trans he.symm)
          obtain ⟨j, it, g1, g2, rfl, -⟩ := hideal _ _ _ _ hop
          have hj : j < items.length := by
            rcases Nat.lt_or_ge j items.length with h | h
            · exact h
            · rw [List.getElem?_eq_none h] at g1; simp at g1
          have hjs := computeNonce_inj (c := r.keys.heap r.keys.cur) (c' := ⟨0, 0, iv, none⟩) (by simp [hiv])
            hlt (by omega) hn g2
          rw [stripPadding_inner _ _ _ (hct it (List.mem_of_getElem? g1))] at hst
          simp only [Res.ok.injEq, Prod.mk.injEq] at hst
          exact ⟨j, it, g1, hjs, hst.1.symm, hst.2.symm⟩
        · obtain ⟨i, seq, -, -, -, -, hk, -⟩ := openRecord_ok ho
          rw [e7] at hkeys
          have hcur : (k.heap k.cur).aead = some a ∧ (k.heap k.cur).iv = iv ∧ (k.heap k.cur).epoch = epoch := by
            rw [hk]
            simp only [upd]
            split
            · rename_i hci; rw [← hci]; exact ⟨ha, hiv, he⟩
            · exact ⟨ha, hiv, he⟩
          exact ih (readRecord r any).2 hinv rfl (by rw [hkeys, hk]; exact hd) (by rw [hkeys, hk]; exact Keys.tabled_bump ht i)
            (by rw [hkeys]; exact hcur.1) (by rw [hkeys]; exact hcur.2.1) (by rw [hkeys]; exact hcur.2.2) hpt
      · refine same e7 fun x hx => ?_
        rw [e6, Res.bind_eq_ok] at hx
        obtain ⟨y, hy, -⟩ := hx
        exact e5 y hy
    · exact same ek (by intro x; rw [e0]; simp)

/-- C63, authenticity. Let the AEAD open nothing but what the peer sealed under the key. Then, whatever datagrams and errors
the transport delivers, every record a DTLS reader returns as one of the current epoch, to ReadRecord or to
ReadRecordAnyEpoch, is a record the peer sent in that epoch: same number, type and content. Missing: each at most once, see
`C63_replay_fails`; and records of the other epochs, see `C63_unprotected_fails`. -/
theorem C63_authentic_partial (a : Aead) (iv : Bytes) (version epoch : Nat) (items : List (UInt8 × Bytes × Nat))
    (hct : ∀ it ∈ items, it.1 ≠ 0) (hlen : items.length < 2 ^ 48) (hep : epoch < 2 ^ 16)
    (hideal : ∀ n c h p, a.opening n c h = some p → PeerSealedDtls iv version epoch a items n p h)
    (ops : List Bool) (r : Reader) (hi : r.Inv) (hc : r.cached = none) (hd : r.keys.datagram = true) (ht : r.keys.Tabled)
    (pt : Plaintext) (hpt : .ok pt ∈ readsWith ops { r with keys := r.keys.rekey epoch a iv }) (hpe : pt.epoch = epoch) :
    ∃ j it, items[j]? = some it ∧ pt.seq = epoch * 2 ^ 48 + j ∧ pt.contentType = it.1 ∧ pt.fragment = it.2.1 :=
  readsWith_authentic a iv version epoch items hct hlen hep hideal ops { r with keys := r.keys.rekey epoch a iv } hi hc hd
    (Keys.tabled_rekey ht epoch a iv) (by simp [Keys.rekey]) (by simp [Keys.rekey]) (by simp [Keys.rekey]) pt hpt hpe

/-- ReadRecord, which delivers application data, returns records of the current epoch only, so all it returns is authentic. -/
theorem C63_application_partial (a : Aead) (iv : Bytes) (version epoch : Nat) (items : List (UInt8 × Bytes × Nat))
    (hct : ∀ it ∈ items, it.1 ≠ 0) (hlen : items.length < 2 ^ 48) (hep : epoch < 2 ^ 16)
    (hideal : ∀ n c h p, a.opening n c h = some p → PeerSealedDtls iv version epoch a items n p h)
    (n : Nat) (r : Reader) (hi : r.Inv) (hc : r.cached = none) (hd : r.keys.datagram = true) (ht : r.keys.Tabled) :
    ∀ x ∈ accepted (reads n { r with keys := r.keys.rekey epoch a iv }), x ∈ items.map (fun it => (it.1, it.2.1)) := by
  -- every record read by ReadRecord has the current epoch
  have epochs : ∀ (n : Nat) (r : Reader), r.Inv → r.cached = none → r.keys.datagram = true →
      (r.keys.heap r.keys.cur).epoch = epoch →
      ∀ pt, .ok pt ∈ readsWith (List.replicate n false) r → pt.epoch = epoch := by
    intro n
    induction n with
    | zero => intro r _ _ _ _ pt hpt; simp [readsWith] at hpt
    | succ n ih =>
      intro r hi hc hd he pt hpt
      obtain ⟨h1, -, h3, h4⟩ := nextRecord_spec r false hi hc
      simp only [List.replicate_succ, readsWith, List.mem_cons] at hpt
      have hinv : Reader.Inv (readRecord r false).2 := h1
      have hcur : ((nextRecord r false).2.keys.heap (nextRecord r false).2.keys.cur).epoch = epoch := by
        rcases h4 with ⟨hh, b, fs, -, -, ⟨pt', k, ho, -, e7, -⟩ | ⟨-, -, e7, -⟩⟩ | ⟨e, e0, ek, -, -⟩
        · obtain ⟨i, seq, -, -, -, -, hk, -⟩ := openRecord_ok ho
          rw [e7, hk]
          simp only [upd]
          split
          · rename_i hci; rw [← hci]; exact he
          · exact he
        · rw [e7]; exact he
        · rw [ek]; exact he
      rcases hpt with hpt | hpt
      · have hpt' : (nextRecord r false).1 = .ok pt := hpt.symm
        rcases h4 with ⟨hh, b, fs, -, -, ⟨pt', k, ho, e6, -, -⟩ | ⟨e5, e6, -, -⟩⟩ | ⟨e, e0, ek, -, -⟩
        · rw [hpt'] at e6
          simp only [Res.ok.injEq] at e6
          subst e6
          obtain ⟨i, seq, hsel, -, -, hep', -⟩ := openRecord_ok ho
          simp only [selectCipher, hd, if_true, Bool.false_eq_true, if_false] at hsel
          split at hsel
          · cases hsel
          · split at hsel
            · cases hsel
            · simp only [Res.ok.injEq, Prod.mk.injEq] at hsel
              rw [hep', ← hsel.1, he]
        · rw [e6, Res.bind_eq_ok] at hpt'
          obtain ⟨y, hy, -⟩ := hpt'
          exact absurd hy (e5 y)
        · rw [e0] at hpt'; cases hpt'
      · exact ih (readRecord r false).2 hinv rfl (h3.trans hd) hcur pt hpt
  have conv : ∀ (n : Nat) (r : Reader), reads n r = readsWith (List.replicate n false) r := by
    intro n
    induction n with
    | zero => intro r; rfl
    | succ n ih => intro r; simp only [reads, List.replicate_succ, readsWith, ih]
  have mem : ∀ (l : List (Res Plaintext)) x, x ∈ accepted l → ∃ pt, .ok pt ∈ l ∧ x = (pt.contentType, pt.fragment) := by
    intro l
    induction l with
    | nil => intro x hx; simp [accepted] at hx
    | cons y l ih =>
      intro x hx
      cases y with
      | ok pt =>
        simp only [accepted, List.mem_cons] at hx
        rcases hx with rfl | hx
        · exact ⟨pt, by simp, rfl⟩
        · obtain ⟨pt', h1, h2⟩ := ih x hx
          exact ⟨pt', by simp [h1], h2⟩
      | _ =>
        simp only [accepted] at hx
        obtain ⟨pt', h1, h2⟩ := ih x hx
        exact ⟨pt', by simp [h1], h2⟩
  intro x hx
  obtain ⟨pt, hpt, rfl⟩ := mem _ x hx
  rw [conv] at hpt
  have he := epochs n { r with keys := r.keys.rekey epoch a iv } hi hc hd (by simp [Keys.rekey]) pt hpt
  obtain ⟨j, it, g1, -, g2, g3⟩ := C63_authentic_partial a iv version epoch items hct hlen hep hideal _ r hi hc hd ht pt hpt he
  rw [g2, g3]
  exact List.mem_map.2 ⟨it, List.mem_of_getElem? g1, rfl⟩

/-- Two sets of keys that differ in nothing but the count of records. -/
structure Keys.Alike (k k' : Keys) : Prop where
  datagram : k'.datagram = k.datagram
  direction : k'.direction = k.direction
  cur : k'.cur = k.cur
  table : k'.readCiphers = k.readCiphers
  epoch : ∀ i, (k'.heap i).epoch = (k.heap i).epoch
  aead : ∀ i, (k'.heap i).aead = (k.heap i).aead
  iv : ∀ i, (k'.heap i).iv = (k.heap i).iv

theorem Keys.Alike.refl (k : Keys) : k.Alike k := ⟨rfl, rfl, rfl, rfl, fun _ => rfl, fun _ => rfl, fun _ => rfl⟩

theorem Keys.Alike.bump {k k' : Keys} (h : k.Alike k') (i : Nat) :
    k.Alike { k' with heap := upd k'.heap i { k'.heap i with seq := (k'.heap i).seq + 1 } } := by
  refine ⟨h.datagram, h.direction, h.cur, h.table, fun j => ?_, fun j => ?_, fun j => ?_⟩
  all_goals
    simp only [upd]
    split
    · rename_i e; rw [e]; first | exact h.epoch i | exact h.aead i | exact h.iv i
    · first | exact h.epoch j | exact h.aead j | exact h.iv j

/-- What a reader makes of a record, the changed count left aside. -/
def verdict (k : Keys) (any : Bool) (h b : Bytes) : Res Plaintext := (openRecord k any h b).bind fun x => .ok x.1

/-- Over DTLS the verdict does not depend on how many records were read before. -/
theorem verdict_alike {k k' : Keys} (any : Bool) (h b : Bytes) (hd : k.datagram = true) (hl : k.Alike k')
    (hroom : ∀ i, (k.heap i).seq < 2 ^ 48 - 1) (hroom' : ∀ i, (k'.heap i).seq < 2 ^ 48 - 1) :
    verdict k' any h b = verdict k any h b := by
  have hsel : selectCipher k' any h = selectCipher k any h := by
    unfold selectCipher
    rw [hl.datagram, hd, hl.table, hl.cur, hl.epoch]
    rfl
  have hdec : ∀ s f, decrypt k'.direction (k'.heap k'.cur) s h f = decrypt k.direction (k.heap k.cur) s h f := by
    intro s f
    unfold decrypt CipherState.overhead computeNonce
    rw [hl.direction, hl.cur, hl.aead, hl.iv]
  unfold verdict openRecord
  split
  · rfl
  · dsimp only
    split
    · rfl
    · rw [hsel]
      cases selectCipher k any h with
      | ok x =>
        obtain ⟨i, seq⟩ := x
        simp only [Res.bind_ok, hl.aead, hl.epoch, hdec]
        have fin : ∀ y : Res (UInt8 × Nat × Bytes),
            ((y.bind fun x => if x.2.2.length > 2 ^ 14 then .err .msg else (bumpSeq k'.heap i).bind fun h =>
              .ok ((⟨x.1, (k.heap i).epoch, x.2.1, x.2.2⟩ : Plaintext), { k' with heap := h })).bind fun x => Res.ok x.1) =
            ((y.bind fun x => if x.2.2.length > 2 ^ 14 then .err .msg else (bumpSeq k.heap i).bind fun h =>
              .ok ((⟨x.1, (k.heap i).epoch, x.2.1, x.2.2⟩ : Plaintext), { k with heap := h })).bind fun x => Res.ok x.1) := by
          intro y
          cases y with
          | ok y =>
            obtain ⟨ct, s, f⟩ := y
            simp only [Res.bind_ok]
            split
            · rfl
            · rw [bumpSeq_of_lt (hroom i), bumpSeq_of_lt (hroom' i)]
              rfl
          | _ => rfl
        exact fin _
      | _ => rfl

theorem verdict_ok {k k' : Keys} {any : Bool} {h b : Bytes} {pt : Plaintext} (ho : openRecord k any h b = .ok (pt, k')) :
    verdict k any h b = .ok pt := by simp [verdict, ho]

/-- A record as header and body: a header of thirteen bytes, which announces the body. -/
def Whole (x : Bytes × Bytes) : Prop := x.1.length = 13 ∧ (recordFraming true).frameLen x.1 = .ok x.2.length

theorem frameEvents_whole (fs : List (Bytes × Bytes)) (hw : ∀ x ∈ fs, Whole x) :
    frameEvents (recordFraming true) (fs.flatMap fun x => x.1 ++ x.2) = fs.map .ok := by
  induction fs with
  | nil =>
    rw [List.flatMap_nil, frameEvents, dif_pos (Or.inr (by simp [recordFraming]))]
    rfl
  | cons x fs ih =>
    obtain ⟨h1, h2⟩ := hw x (by simp)
    rw [List.flatMap_cons, frameEvents_cons (recordFraming_pos true) (by simpa [recordFraming] using h1) h2,
      ih fun y hy => hw y (by simp [hy])]
    rfl

/-- Reading whole records, none of the transport reads being empty or failing: one verdict after the other. -/
theorem readsWith_whole (k : Keys) (hd : k.datagram = true) (any : Bool) (fs : List (Bytes × Bytes)) (r : Reader) (hi : r.Inv)
    (hc : r.cached = none) (hfr : r.frames = fs.map .ok) (hconn : ∀ x ∈ r.conn, ∃ c, x = .ok c ∧ c ≠ [])
    (hl : k.Alike r.keys) (hroom : ∀ i, (k.heap i).seq < 2 ^ 48 - 1) (hroom' : ∀ i, (r.keys.heap i).seq + fs.length < 2 ^ 48) :
    readsWith (List.replicate fs.length any) r = fs.map fun x => verdict k any x.1 x.2 := by
  induction fs generalizing r with
  | nil => rfl
  | cons x fs ih =>
    obtain ⟨h, b⟩ := x
    simp only [List.length_cons] at hroom'
    obtain ⟨h1, h2, -, h4⟩ := nextRecord_spec r any hi hc
    have hv := verdict_alike any h b hd hl hroom (fun i => by have := hroom' i; omega)
    simp only [List.length_cons, List.replicate_succ, readsWith, List.map_cons, List.cons.injEq]
    rcases h4 with ⟨h', b', fs', e1, e2, e3⟩ | ⟨e, e0, -, -, e4⟩
    · rw [hfr] at e1
      simp only [List.map_cons, List.cons.injEq, Except.ok.injEq, Prod.mk.injEq] at e1
      obtain ⟨⟨rfl, rfl⟩, rfl⟩ := e1
      have hconn' : ∀ x ∈ (readRecord r any).2.conn, ∃ c, x = .ok c ∧ c ≠ [] := fun x hx => hconn x (h2.subset hx)
      rcases e3 with ⟨pt, k', ho, e6, e7, -⟩ | ⟨e5, e6, e7, -⟩
      · obtain ⟨i, seq, -, -, -, -, hk, -⟩ := openRecord_ok ho
        refine ⟨?_, ih (readRecord r any).2 h1 rfl e2 hconn' ?_ ?_⟩
        · show (nextRecord r any).1 = _
          rw [e6, ← hv, verdict_ok ho]
        · show k.Alike (nextRecord r any).2.keys
          rw [e7, hk]
          exact hl.bump i
        · intro j
          show ((nextRecord r any).2.keys.heap j).seq + _ < _
          rw [e7, hk]
          have hi' := hroom' i
          have hj' := hroom' j
          simp only [upd]
          split
          · show (r.keys.heap i).seq + 1 + _ < _; omega
          · omega
      · refine ⟨?_, ih (readRecord r any).2 h1 rfl e2 hconn' ?_ ?_⟩
        · show (nextRecord r any).1 = _
          rw [e6, ← hv]
          rfl
        · show k.Alike (nextRecord r any).2.keys
          rw [e7]
          exact hl
        · intro j
          show ((nextRecord r any).2.keys.heap j).seq + _ < _
          rw [e7]
          have := hroom' j
          omega
    · exfalso
      rcases e4 with ⟨fs', e4, -⟩ | ⟨-, ⟨-, ⟨e5, -⟩ | ⟨e', e5⟩⟩ | e5⟩
      · rw [hfr] at e4; simp at e4
      · obtain ⟨c, e6, e7⟩ := hconn _ e5
        simp only [Except.ok.injEq] at e6
        exact e7 e6.symm
      · obtain ⟨c, e6, -⟩ := hconn _ e5
        cases e6
      · rw [hfr] at e5; cases e5

/-- The transport reads of datagrams made of whole records. -/
def deliver (datagrams : List (List (Bytes × Bytes))) : List (Except Err Bytes) :=
  datagrams.map fun dg => .ok (dg.flatMap fun x => x.1 ++ x.2)

theorem connData_deliver (datagrams : List (List (Bytes × Bytes))) :
    connData (deliver datagrams) = datagrams.flatten.flatMap fun x => x.1 ++ x.2 := by
  induction datagrams with
  | nil => rfl
  | cons dg more ih =>
    simp only [deliver, List.map_cons, connData, List.flatten_cons, List.flatMap_append]
    rw [← ih]
    rfl

/-- C64, as far as it holds. If the datagrams that arrive consist of whole records, each of these is judged on its own: the
results of the reads are, record by record, what the reader would make of that record alone. So records that are forged,
replayed or damaged without changing their length do not keep the others from being read. Missing: datagrams that end within
a record, see `C64_truncated_fails`. -/
theorem C64_independent_partial (r : Reader) (hi : r.Inv) (hc : r.cached = none) (hd : r.keys.datagram = true) (any : Bool)
    (hnothing : ∀ s, r.frame.future (recordFraming true) s = frameEvents (recordFraming true) s)
    (datagrams : List (List (Bytes × Bytes))) (hwhole : ∀ dg ∈ datagrams, dg ≠ [] ∧ ∀ x ∈ dg, Whole x)
    (hroom : ∀ i, (r.keys.heap i).seq + datagrams.flatten.length + 1 < 2 ^ 48) :
    readsWith (List.replicate datagrams.flatten.length any) { r with conn := deliver datagrams } =
      datagrams.flatten.map fun x => verdict r.keys any x.1 x.2 := by
  have hw : ∀ x ∈ datagrams.flatten, Whole x := by
    intro x hx
    obtain ⟨dg, h1, h2⟩ := List.mem_flatten.1 hx
    exact (hwhole dg h1).2 x h2
  refine readsWith_whole r.keys hd any datagrams.flatten { r with conn := deliver datagrams } hi hc ?_ ?_ (Keys.Alike.refl _)
    (fun i => by have := hroom i; omega) (fun i => by have := hroom i; show (r.keys.heap i).seq + _ < _; omega)
  · simp only [Reader.frames, hd, hnothing, connData_deliver, frameEvents_whole _ hw]
  · intro x hx
    simp only [deliver, List.mem_map] at hx
    obtain ⟨dg, h1, rfl⟩ := hx
    refine ⟨_, rfl, fun h => ?_⟩
    obtain ⟨h2, h3⟩ := hwhole dg h1
    obtain ⟨y, rest, rfl⟩ := List.exists_cons_of_ne_nil h2
    have := (h3 y (by simp)).1
    have hl := congrArg List.length h
    simp [this] at hl

/-- C63 fails for duplicates: whenever a DTLS reader that holds nothing gets a datagram with one record and returns that record,
it returns the record as many times as the datagram arrives. No property of the AEAD is used: the duplicates are genuine. -/
theorem C63_replay_fails (r : Reader) (hi : r.Inv) (hc : r.cached = none)
    (hd : r.keys.datagram = true) (any : Bool) (x : Bytes × Bytes) (hw : Whole x)
    (hnothing : ∀ s, r.frame.future (recordFraming true) s = frameEvents (recordFraming true) s)
    (times : Nat) (hroom : ∀ i, (r.keys.heap i).seq + times + 2 < 2 ^ 48)
    (pt : Plaintext) (hpt : (readRecord { r with conn := deliver [[x]] } any).1 = .ok pt) :
    readsWith (List.replicate times any) { r with conn := deliver (List.replicate times [x]) } = List.replicate times (.ok pt) := by
  have h1 := C64_independent_partial r hi hc hd any hnothing [[x]]
    (fun dg hdg => by rw [List.mem_singleton.1 hdg]; exact ⟨by simp, fun y hy => by rw [List.mem_singleton.1 hy]; exact hw⟩)
    (fun i => by have := hroom i; simp only [List.flatten_cons, List.flatten_nil, List.append_nil, List.length_singleton]; omega)
  have h2 := C64_independent_partial r hi hc hd any hnothing (List.replicate times [x])
    (fun dg hdg => by rw [List.eq_of_mem_replicate hdg]; exact ⟨by simp, fun y hy => by rw [List.mem_singleton.1 hy]; exact hw⟩)
    (fun i => by have := hroom i; simp only [List.flatten_replicate_singleton, List.length_replicate]; omega)
  simp only [List.flatten_cons, List.flatten_nil, List.append_nil, List.length_singleton, List.replicate_one, List.map_cons,
    List.map_nil, readsWith, List.cons.injEq, and_true] at h1
  rw [hpt] at h1
  rw [List.flatten_replicate_singleton, List.length_replicate, List.map_replicate, ← h1] at h2
  exact h2

/-- The datagram anyone can make: an unprotected record. -/
def clearDatagram (ct : UInt8) (fragment : Bytes) : Bytes :=
  ct :: [0xfe, 0xfd, 0, 0, 0, 0, 0, 0, 0, 0] ++ beBytes 2 fragment.length ++ fragment

/-- Keys after any changes of keys: none of the code discards old ones. -/
def Keys.rekeys (k : Keys) : List (Nat × Aead × Bytes) → Keys
  | [] => k
  | (e, a, iv) :: more => (k.rekey e a iv).rekeys more

theorem Keys.rekeys_clear (ks : List (Nat × Aead × Bytes)) (hks : ∀ x ∈ ks, x.1 ≠ 0) (k : Keys)
    (hd : k.datagram = true) (hdir : k.direction = .read)
    (h : ∃ i, k.readCiphers.lookup 0 = some i ∧ i < k.fresh ∧ k.heap i = nullCipher ∧ ((k.heap k.cur).epoch = 0 → k.cur = i)) :
    (k.rekeys ks).datagram = true ∧ (k.rekeys ks).direction = .read ∧
    ∃ i, (k.rekeys ks).readCiphers.lookup 0 = some i ∧ i < (k.rekeys ks).fresh ∧ (k.rekeys ks).heap i = nullCipher ∧
      (((k.rekeys ks).heap (k.rekeys ks).cur).epoch = 0 → (k.rekeys ks).cur = i) := by
  induction ks generalizing k with
  | nil => exact ⟨hd, hdir, h⟩
  | cons x ks ih =>
    obtain ⟨e, a, iv⟩ := x
    refine ih (fun y hy => hks y (by simp [hy])) (k.rekey e a iv) hd hdir ?_
    obtain ⟨i, h1, h2, h3, -⟩ := h
    have hne : e ≠ 0 := hks (e, a, iv) (by simp)
    have he : (0 == e) = false := by simpa using (Ne.symm hne)
    refine ⟨i, ?_, ?_, ?_, ?_⟩
    · simp only [Keys.rekey, hd, hdir, and_self, if_true, List.lookup_cons, he]
      exact h1
    · simp only [Keys.rekey]; omega
    · simp only [Keys.rekey, upd_ne (Nat.ne_of_lt h2), h3]
    · intro h0
      simp only [Keys.rekey, upd_same] at h0
      exact absurd h0 hne

theorem beBytes2_announced (n : Nat) (h : n < 2 ^ 16) (ct : UInt8) :
    announced (ct :: [0xfe, 0xfd, 0, 0, 0, 0, 0, 0, 0, 0] ++ beBytes 2 n) = n := by
  have h2 : beBytes 2 n = [UInt8.ofNat (n >>> 8), UInt8.ofNat n] := by simp [beBytes]
  rw [h2]
  simp only [announced, List.cons_append, List.nil_append, List.length_cons, List.length_nil, List.getD_cons_succ,
    List.getD_cons_zero, Nat.reduceAdd, Nat.reduceSub, UInt8.toNat_ofNat', Nat.shiftRight_eq_div_pow]
  omega

/-- An unprotected record is opened whatever keys have been installed. -/
theorem openRecord_clear (ks : List (Nat × Aead × Bytes)) (hks : ∀ x ∈ ks, x.1 ≠ 0) (ct : UInt8) (hct : knownType ct = true)
    (fragment : Bytes) (hlen : fragment.length ≤ 2 ^ 14) :
    ∃ k, openRecord ((Keys.new .read true).rekeys ks) true (ct :: [0xfe, 0xfd, 0, 0, 0, 0, 0, 0, 0, 0] ++ beBytes 2 fragment.length)
      fragment = .ok (⟨ct, 0, 0, fragment⟩, k) := by
  obtain ⟨hd, hdir, i, h1, h2, h3, h4⟩ := Keys.rekeys_clear ks hks (Keys.new .read true) rfl rfl
    ⟨0, rfl, by simp [Keys.new], rfl, fun _ => rfl⟩
  generalize (Keys.new .read true).rekeys ks = k at *
  have hann := beBytes2_announced fragment.length (by omega) ct
  have hseq : beNat (((ct :: [0xfe, 0xfd, 0, 0, 0, 0, 0, 0, 0, 0] ++ beBytes 2 fragment.length).drop 3).take 8) = 0 := by
    have h2 : beBytes 2 fragment.length = [UInt8.ofNat (fragment.length >>> 8), UInt8.ofNat fragment.length] := by simp [beBytes]
    rw [h2]
    simp only [List.cons_append, List.nil_append, List.drop_succ_cons, List.drop_zero, List.take_succ_cons, List.take_zero]
    decide
  unfold openRecord
  rw [if_neg (by simp [hct])]
  dsimp only
  rw [hann, if_neg (by omega), take_fill rfl]
  have hsel : selectCipher k true (ct :: [0xfe, 0xfd, 0, 0, 0, 0, 0, 0, 0, 0] ++ beBytes 2 fragment.length) = .ok (i, 0) := by
    unfold selectCipher
    rw [if_pos hd]
    simp only [hseq, Nat.zero_shiftRight, h1, if_true]
    split
    · rfl
    · rename_i hne
      rw [h4 (Classical.not_not.1 hne).symm]
  rw [hsel]
  simp only [Res.bind_ok, h3, nullCipher]
  rw [if_neg (by omega), bumpSeq_of_lt (by rw [h3]; decide)]
  exact ⟨_, rfl⟩

theorem clear_whole (ct : UInt8) (fragment : Bytes) (hlen : fragment.length ≤ 2 ^ 14) :
    Whole (ct :: [0xfe, 0xfd, 0, 0, 0, 0, 0, 0, 0, 0] ++ beBytes 2 fragment.length, fragment) := by
  have h2 : beBytes 2 fragment.length = [UInt8.ofNat (fragment.length >>> 8), UInt8.ofNat fragment.length] := by simp [beBytes]
  refine ⟨by simp, ?_⟩
  simp only [h2, recordFraming, if_true, List.cons_append, List.nil_append, List.getD_cons_succ, List.getD_cons_zero,
    Nat.reduceSub, UInt8.toNat_ofNat', Nat.shiftRight_eq_div_pow, Except.ok.injEq]
  omega

/-- C63 fails for records of old epochs: whatever keys have been installed since, a reader returns to ReadRecordAnyEpoch (by
which the handshake reads) an unprotected record that anyone can make. The handshake acts on it if it is an alert or an
acknowledgement, in whatever epoch it is: it ends with the alert of the attacker's choice, or takes what it sent for
received. -/
theorem C63_unprotected_fails (ks : List (Nat × Aead × Bytes)) (hks : ∀ x ∈ ks, x.1 ≠ 0) :
    (∀ (ct : UInt8) (fragment : Bytes), knownType ct = true → fragment.length ≤ 2 ^ 14 →
      (readRecord { Reader.new true [.ok (clearDatagram ct fragment)] with keys := (Keys.new .read true).rekeys ks } true).1 =
        .ok ⟨ct, 0, 0, fragment⟩) ∧
    (∀ (h : Handshake.HsIn) (onAck : Bytes → Res Unit) (level code : UInt8),
      h.readRecord onAck (.ok ⟨21, 0, 0, [level, code]⟩) = .err (Handshake.alertErr code)) ∧
    ∀ (h : Handshake.HsIn) (onAck : Bytes → Res Unit) (body : Bytes), h.datagram = true →
      h.readRecord onAck (.ok ⟨25, 0, 0, body⟩) = (onAck body).bind fun _ => .ok h := by
  refine ⟨fun ct fragment hct hlen => ?_, fun _ _ _ _ => rfl, fun h onAck body hd => ?_⟩
  · obtain ⟨hd, -⟩ := Keys.rekeys_clear ks hks (Keys.new .read true) rfl rfl ⟨0, rfl, by simp [Keys.new], rfl, fun _ => rfl⟩
    obtain ⟨k, ho⟩ := openRecord_clear ks hks ct hct fragment hlen
    generalize hr : ({ Reader.new true [.ok (clearDatagram ct fragment)] with keys := (Keys.new .read true).rekeys ks } : Reader) = r
    have hfr : r.frames = [.ok (ct :: [0xfe, 0xfd, 0, 0, 0, 0, 0, 0, 0, 0] ++ beBytes 2 fragment.length, fragment)] := by
      subst hr
      simp only [Reader.frames, Reader.new, hd, connData, FrameReader.future_new, List.append_nil]
      have := frameEvents_whole [(_, fragment)] (by simpa using clear_whole ct fragment hlen)
      simpa [clearDatagram] using this
    have hk : r.keys = (Keys.new .read true).rekeys ks := by subst hr; rfl
    have hi : r.Inv := by
      subst hr
      unfold Reader.Inv
      simp only [hd]
      exact FrameReader.inv_new _
    have hconn : r.conn = [.ok (clearDatagram ct fragment)] := by subst hr; rfl
    obtain ⟨-, -, -, h4⟩ := nextRecord_spec r true hi (by subst hr; rfl)
    show (nextRecord r true).1 = _
    rcases h4 with ⟨h', b', fs, e1, -, ⟨pt', k', ho', e6, -, -⟩ | ⟨e5, e6, -, -⟩⟩ | ⟨e, e0, -, -, e4⟩
    · rw [hfr] at e1
      simp only [List.cons.injEq, Except.ok.injEq, Prod.mk.injEq] at e1
      obtain ⟨⟨rfl, rfl⟩, -⟩ := e1
      rw [hk] at ho'
      rw [e6]
      have := ho.symm.trans ho'
      simp only [Res.ok.injEq, Prod.mk.injEq] at this
      rw [this.1]
    · rw [hfr] at e1
      simp only [List.cons.injEq, Except.ok.injEq, Prod.mk.injEq] at e1
      obtain ⟨⟨rfl, rfl⟩, -⟩ := e1
      rw [hk] at e5
      exact absurd ho (e5 _)
    · exfalso
      rw [hconn, hfr] at e4
      simp [clearDatagram] at e4
  · simp [Handshake.HsIn.readRecord, hd]

/-! ### C64 -/

theorem readsWith_nothing (ops : List Bool) (r : Reader) (hi : r.Inv) (hc : r.cached = none) (hfr : r.frames = []) (pt : Plaintext) :
    .ok pt ∉ readsWith ops r := by
  induction ops generalizing r with
  | nil => simp [readsWith]
  | cons any ops ih =>
    obtain ⟨h1, -, -, h4⟩ := nextRecord_spec r any hi hc
    have h1' : (readRecord r any).2.Inv := h1
    rcases h4 with ⟨h, b, fs, e1, -⟩ | ⟨e, e0, -, -, e4⟩
    · rw [hfr] at e1; cases e1
    · have hfr' : (readRecord r any).2.frames = [] := by
        rcases e4 with ⟨fs, e4, -⟩ | ⟨e4, -⟩
        · rw [hfr] at e4; cases e4
        · exact e4.trans hfr
      simp only [readsWith, List.mem_cons, not_or]
      refine ⟨?_, ih (readRecord r any).2 h1' rfl hfr'⟩
      show Res.ok pt ≠ (nextRecord r any).1
      rw [e0]
      simp

/-- A datagram of thirteen bytes that announces a record of `n` bytes, and no more. -/
def stub (n : Nat) : Bytes := [0, 0, 0, 0, 0, 0, 0, 0, 0, 0, 0] ++ beBytes 2 n

theorem stub_frame (n : Nat) (h : n < 2 ^ 16) : (stub n).length = 13 ∧ (recordFraming true).frameLen (stub n) = .ok n := by
  have h2 : beBytes 2 n = [UInt8.ofNat (n >>> 8), UInt8.ofNat n] := by simp [beBytes]
  refine ⟨by simp [stub, h2], ?_⟩
  simp only [stub, h2, recordFraming, if_true, List.cons_append, List.nil_append, List.getD_cons_succ, List.getD_cons_zero,
    Nat.reduceSub, UInt8.toNat_ofNat', Nat.shiftRight_eq_div_pow, Except.ok.injEq]
  omega

/-- C64 fails for datagrams that end within a record: these are completed with the next datagram. Whatever datagram the peer
sends, one datagram of thirteen bytes sent by anyone just before makes the reader lose it: no number of reads of
either kind returns any record. -/
theorem C64_truncated_fails (r : Reader) (hi : r.Inv) (hc : r.cached = none) (hd : r.keys.datagram = true)
    (hnothing : ∀ s, r.frame.future (recordFraming true) s = frameEvents (recordFraming true) s)
    (datagram : Bytes) (hlen : datagram.length < 2 ^ 16) (ops : List Bool) (pt : Plaintext) :
    .ok pt ∉ readsWith ops { r with conn := [.ok (stub datagram.length), .ok datagram] } := by
  obtain ⟨h1, h2⟩ := stub_frame datagram.length hlen
  have hfr : Reader.frames { r with conn := [.ok (stub datagram.length), .ok datagram] } = [.ok (stub datagram.length, datagram)] := by
    simp only [Reader.frames, hd, hnothing, connData, List.append_nil]
    have := frameEvents_whole [(stub datagram.length, datagram)] (by simpa [Whole] using ⟨h1, h2⟩)
    simpa using this
  generalize hr : ({ r with conn := [.ok (stub datagram.length), .ok datagram] } : Reader) = r' at hfr
  have hi' : r'.Inv := by subst hr; exact hi
  have hc' : r'.cached = none := by subst hr; exact hc
  clear hr hi hc hnothing
  induction ops generalizing r' with
  | nil => simp [readsWith]
  | cons any ops ih =>
    obtain ⟨g1, -, -, g4⟩ := nextRecord_spec r' any hi' hc'
    have g1' : (readRecord r' any).2.Inv := g1
    simp only [readsWith, List.mem_cons, not_or]
    have hno : ∀ x, openRecord r'.keys any (stub datagram.length) datagram ≠ .ok x := by
      intro x
      unfold openRecord
      rw [if_pos (by rfl)]
      simp
    rcases g4 with ⟨h, b, fs, e1, e2, e3⟩ | ⟨e, e0, -, -, e4⟩
    · rw [hfr] at e1
      simp only [List.cons.injEq, Except.ok.injEq, Prod.mk.injEq] at e1
      obtain ⟨⟨rfl, rfl⟩, rfl⟩ := e1
      rcases e3 with ⟨pt', k, ho, -⟩ | ⟨e5, e6, -⟩
      · exact absurd ho (hno _)
      · refine ⟨?_, readsWith_nothing ops (readRecord r' any).2 g1' rfl e2 pt⟩
        show Res.ok pt ≠ (nextRecord r' any).1
        rw [e6]
        intro h
        obtain ⟨y, hy, -⟩ := Res.bind_eq_ok.1 h.symm
        exact hno y hy
    · refine ⟨?_, ?_⟩
      · show Res.ok pt ≠ (nextRecord r' any).1
        rw [e0]
        simp
      · rcases e4 with ⟨fs, e4, -⟩ | ⟨e4, -⟩
        · rw [hfr] at e4; simp at e4
        · exact ih (readRecord r' any).2 (e4.trans hfr) g1' rfl

/-! ### Examples -/

/-- An AEAD that opens exactly one ciphertext: the record of number 1 in epoch 3. -/
def oneAeadDtls : Aead where
  overhead := 1
  sealing _ p _ := p ++ [0xAA]
  opening n c h :=
    if n = [7, 7, 7, 7, 7, 4, 7, 7, 7, 7, 7, 6] ∧ c = [1, 2, 23, 0xAA] ∧
      h = [23, 0xfe, 0xfd, 0, 3, 0, 0, 0, 0, 0, 1, 0, 4] then some [1, 2, 23] else none

/-- The keys of the example: clear, then epochs 2 and 3. -/
def dtlsKeys : Keys := ((Keys.new .read true).rekey 2 toyAead toyIv).rekey 3 oneAeadDtls toyIv

/-- The peer's second record arrives first, and twice, then one with a changed byte; the hypotheses of
`C63_authentic_partial` are met. -/
example : (∀ n c h p, oneAeadDtls.opening n c h = some p →
      PeerSealedDtls toyIv 0xfefd 3 oneAeadDtls [(22, [5], 0), (23, [1, 2], 0)] n p h) ∧
    ((Keys.new .read true).rekey 2 toyAead toyIv).Tabled ∧
    readsWith [false, true, false] { Reader.new true [.ok [23, 0xfe, 0xfd, 0, 3, 0, 0, 0, 0, 0, 1, 0, 4, 1, 2, 23, 0xAA],
        .ok [23, 0xfe, 0xfd, 0, 3, 0, 0, 0, 0, 0, 1, 0, 4, 1, 2, 23, 0xAA],
        .ok [23, 0xfe, 0xfd, 0, 3, 0, 0, 0, 0, 0, 1, 0, 4, 1, 3, 23, 0xAA]] with keys := dtlsKeys } =
      [.ok ⟨23, 3, 0x3000000000001, [1, 2]⟩, .ok ⟨23, 3, 0x3000000000001, [1, 2]⟩, .err .msg] := by
  refine ⟨?_, Keys.tabled_rekey (Keys.tabled_new _) _ _ _, by decide⟩
  intro n c h p hp
  simp only [oneAeadDtls] at hp
  split at hp
  · rename_i hcond
    obtain ⟨rfl, rfl, rfl⟩ := hcond
    simp only [Option.some.injEq] at hp
    subst hp
    exact ⟨1, (23, [1, 2], 0), rfl, by decide, by decide, by decide⟩
  · simp at hp

/-- The datagram of `C63_unprotected_fails` after two changes of keys; and the peer's record, which is read if it comes alone
and lost after the stub. -/
example :
    let datagram : Bytes := [23, 0xfe, 0xfd, 0, 3, 0, 0, 0, 0, 0, 1, 0, 4, 1, 2, 23, 0xAA]
    readsWith [true] { Reader.new true [.ok (clearDatagram 21 [2, 40])] with keys := dtlsKeys } = [.ok ⟨21, 0, 0, [2, 40]⟩] ∧
    readsWith [false, false] { Reader.new true [.ok datagram] with keys := dtlsKeys } =
      [.ok ⟨23, 3, 0x3000000000001, [1, 2]⟩, .err .wouldBlock] ∧
    readsWith [false, false] { Reader.new true [.ok (stub datagram.length), .ok datagram] with keys := dtlsKeys } =
      [.err .msg, .err .wouldBlock] := by
  decide

end Verif.Record
