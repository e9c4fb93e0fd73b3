import Verif.Spec.Record

/-
Reading back what was written.
-/

namespace Verif.Record

open Verif

@[simp] theorem upd_same (h : Nat → CipherState) (i : Nat) (c : CipherState) : upd h i c i = c := by
  simp [upd]

theorem upd_ne {h : Nat → CipherState} {i j : Nat} {c : CipherState} (hj : j ≠ i) : upd h i c j = h j := by
  simp [upd, hj]

theorem recordFraming_pos (d : Bool) : (recordFraming d).headerLen ≠ 0 := by
  cases d <;> simp [recordFraming]

theorem frameEvents_cons {d : Framing} (hd : d.headerLen ≠ 0) {h b rest : Bytes}
    (hl : h.length = d.headerLen) (hf : d.frameLen h = .ok b.length) :
    frameEvents d (h ++ b ++ rest) = .ok (h, b) :: frameEvents d rest := by
  have e1 : (h ++ b ++ rest).take d.headerLen = h := by
    rw [List.append_assoc, ← hl]; simp
  have e2 : (h ++ b ++ rest).drop d.headerLen = b ++ rest := by
    rw [List.append_assoc, ← hl]; simp
  rw [frameEvents, dif_neg (by simp; omega), e1, e2, hf]
  simp only
  rw [if_neg (by simp)]
  simp

theorem take_fill {b : Bytes} {n : Nat} (h : b.length = n) : (b ++ List.replicate n 0).take n = b := by
  subst h; simp

/-- The reader gets back exactly what the writer put in. -/
theorem openRecord_writeRecord {w w' r : Keys} {ct : UInt8} {f : Bytes} {pad : Nat} {rec : Bytes}
    (any : Bool) (hp : Paired w r) (h : writeRecord w w.cur ct f pad = .ok (rec, w')) (hct : ct ≠ 0)
    (hknown : (w.heap w.cur).aead = none → knownType ct = true) :
    ∃ hd b pt r', rec = hd ++ b ∧ hd.length = (recordFraming w.datagram).headerLen ∧
      (recordFraming w.datagram).frameLen hd = .ok b.length ∧
      openRecord r any hd b = .ok (pt, r') ∧ pt.contentType = ct ∧ pt.fragment = f ∧
      pt.epoch = (w.heap w.cur).epoch ∧
      Paired w' r' ∧ (w'.heap w'.cur).aead = (w.heap w.cur).aead ∧ r'.datagram = r.datagram := by
  obtain ⟨hd, b, rfl, hb, hs, rfl, hcase⟩ := writeRecord_ok h
  have hslt : (w.heap w.cur).seq < 2 ^ 48 := by omega
  have hclt := combineSeq_lt hslt (by rw [hp.epoch]; exact hp.small) w.datagram
  have hrs : (r.heap r.cur).seq < 2 ^ 48 - 1 := by have := hp.seqLe; omega
  -- which cipher state the reader selects
  have hsel : ∀ o l, recordHeader w o (combineSeq (w.heap w.cur) w.datagram) l = .ok hd →
      selectCipher r any hd = .ok (r.cur, combineSeq (w.heap w.cur) w.datagram) := by
    intro o l hh
    obtain ⟨-, -, -, h4, -⟩ := recordHeader_ok hh
    unfold selectCipher
    cases hdg : r.datagram with
    | false =>
      have hdg' : w.datagram = false := by rw [hp.dgram, hdg]
      simp only [Bool.false_eq_true, if_false, hdg', combineSeq]
      rw [hp.seq hdg']
    | true =>
      have hdg' : w.datagram = true := by rw [hp.dgram, hdg]
      have h4' := h4 hdg'
      rw [Nat.mod_eq_of_lt hclt] at h4'
      have hce := combineSeq_eq hslt w.datagram
      rw [hdg'] at hce h4' ⊢
      simp only [if_true] at hce ⊢
      rw [h4']
      have hep : combineSeq (w.heap w.cur) true >>> 48 = (r.heap r.cur).epoch := by
        rw [Nat.shiftRight_eq_div_pow, hce, hp.epoch]
        omega
      rw [hep]
      have hk := hp.known hdg
      cases hl : List.lookup (r.heap r.cur).epoch r.readCiphers with
      | none => rw [hl] at hk; simp at hk
      | some j => simp
  have hpair : Paired
      { w with heap := upd w.heap w.cur { w.heap w.cur with seq := (w.heap w.cur).seq + 1 } }
      { r with heap := upd r.heap r.cur { r.heap r.cur with seq := (r.heap r.cur).seq + 1 } } := by
    refine ⟨hp.wdir, hp.rdir, hp.dgram, ?_, ?_, ?_, ?_, ?_, ?_, ?_, ?_⟩ <;> simp only [upd_same]
    · exact hp.aead
    · exact hp.iv
    · exact hp.epoch
    · intro hdg; rw [hp.seq hdg]
    · have := hp.seqLe; omega
    · exact hp.known
    · exact hp.small
    · exact hp.lawful
  rcases hcase with ⟨a, nonce, ha, -, hh, hn, rfl⟩ | ⟨ha, rfl, rfl, hh⟩
  · obtain ⟨h1, h2, h3, -, h5⟩ := recordHeader_ok hh
    have hra : (r.heap r.cur).aead = some a := by rw [← hp.aead, ha]
    have hlaw := hp.lawful a hra
    have hlen := hlaw.seal_length nonce (innerPlaintext ct f pad) hd
    have hin : (innerPlaintext ct f pad).length = f.length + 1 + pad := by
      simp [innerPlaintext]; omega
    have hmod : (f.length + (1 + pad + a.overhead)) % 2 ^ 16 =
        (a.sealing nonce (innerPlaintext ct f pad) hd).length := by
      rw [Nat.mod_eq_of_lt] <;> omega
    have hfl : f.length ≤ 2 ^ 14 := by omega
    refine ⟨hd, _, ⟨ct, (r.heap r.cur).epoch, combineSeq (w.heap w.cur) w.datagram, f⟩,
      { r with heap := upd r.heap r.cur { r.heap r.cur with seq := (r.heap r.cur).seq + 1 } }, rfl, h1,
      by rw [h5, hmod], ?_, rfl, rfl, hp.epoch.symm, hpair, by simp, rfl⟩
    unfold openRecord
    rw [h2, if_neg (by decide)]
    simp only
    rw [h3, hmod, if_neg (by omega), take_fill rfl, hsel _ _ hh]
    simp only [Res.bind_ok, hra]
    have hnonce : computeNonce (r.heap r.cur) (combineSeq (w.heap w.cur) w.datagram) = .ok nonce := by
      rw [← hn]; unfold computeNonce; rw [hp.iv]
    have hov : (r.heap r.cur).overhead = a.overhead := by simp [CipherState.overhead, hra]
    have hdec : decrypt r.direction (r.heap r.cur) (combineSeq (w.heap w.cur) w.datagram) hd
        (a.sealing nonce (innerPlaintext ct f pad) hd) = .ok (ct, f) := by
      unfold decrypt
      rw [if_neg (by simp [hp.rdir]), if_neg (by omega), hra]
      simp only [hnonce, Res.bind_ok, hlaw.open_seal, stripPadding_inner ct f pad hct]
    rw [hdec]
    simp only [Res.bind_ok]
    rw [if_neg (by omega), bumpSeq_of_lt hrs]
    simp [hra]
  · obtain ⟨h1, h2, h3, -, h5⟩ := recordHeader_ok hh
    have hra : (r.heap r.cur).aead = none := by rw [← hp.aead, ha]
    have hmod : b.length % 2 ^ 16 = b.length := Nat.mod_eq_of_lt (by omega)
    refine ⟨hd, b, ⟨ct, (r.heap r.cur).epoch, 0, b⟩,
      { r with heap := upd r.heap r.cur { r.heap r.cur with seq := (r.heap r.cur).seq + 1 } }, rfl, h1,
      by rw [h5, hmod], ?_, rfl, rfl, hp.epoch.symm, hpair, by simp, rfl⟩
    unfold openRecord
    rw [h2, if_neg (by simp [hknown ha])]
    simp only
    rw [h3, hmod, if_neg (by omega), take_fill rfl, hsel _ _ hh]
    simp only [Res.bind_ok, hra]
    rw [if_neg (by omega), bumpSeq_of_lt hrs]
    simp [hra]

theorem openRecord_ok {k k' : Keys} {any : Bool} {h b : Bytes} {pt : Plaintext}
    (ho : openRecord k any h b = .ok (pt, k')) :
    ∃ i seq, selectCipher k any h = .ok (i, seq) ∧ pt.fragment.length ≤ 2 ^ 14 ∧ (k.heap i).seq < 2 ^ 48 - 1 ∧
      pt.epoch = (k.heap i).epoch ∧
      k' = { k with heap := upd k.heap i { k.heap i with seq := (k.heap i).seq + 1 } } ∧
      knownType (h.getD 0 0) = true ∧ announced h ≤ 2 ^ 14 + 256 ∧
      ((∃ a, (k.heap i).aead = some a ∧ pt.seq = seq ∧
        decrypt k.direction (k.heap k.cur) seq h ((b ++ List.replicate (announced h) 0).take (announced h)) =
          .ok (pt.contentType, pt.fragment)) ∨
        ((k.heap i).aead = none ∧ pt.contentType = h.getD 0 0 ∧ pt.seq = 0 ∧
          pt.fragment = (b ++ List.replicate (announced h) 0).take (announced h))) := by
  unfold openRecord at ho
  split at ho
  · simp at ho
  · rename_i hkn
    dsimp only at ho
    split at ho
    · simp at ho
    · rename_i hsz
      simp only [Res.bind_eq_ok] at ho
      obtain ⟨⟨i, seq⟩, hsel, ⟨ct, s, f⟩, hdec, ho⟩ := ho
      dsimp only at ho hdec
      split at ho
      · simp at ho
      · simp only [Res.bind_eq_ok, Res.ok.injEq, Prod.mk.injEq] at ho
        obtain ⟨h', hb, rfl, rfl⟩ := ho
        obtain ⟨hs, rfl⟩ := bumpSeq_ok hb
        refine ⟨i, seq, hsel, by simp only; omega, hs, rfl, rfl, by simpa using hkn, by omega, ?_⟩
        · split at hdec
          · rename_i a ha
            simp only [Res.bind_eq_ok, Res.ok.injEq, Prod.mk.injEq] at hdec
            obtain ⟨⟨ct', f'⟩, hd, rfl, rfl, rfl⟩ := hdec
            exact Or.inl ⟨a, ha, rfl, hd⟩
          · rename_i ha
            simp only [Res.ok.injEq, Prod.mk.injEq] at hdec
            obtain ⟨rfl, rfl, rfl⟩ := hdec
            exact Or.inr ⟨ha, rfl, rfl, rfl⟩

/-- What the reader holds and will receive, as frames. -/
def Reader.frames (r : Reader) : List FrameEvent :=
  r.frame.future (recordFraming r.keys.datagram) (connData r.conn)

/-- Invariant of a reader's buffer. -/
def Reader.Inv (r : Reader) : Prop := r.frame.Inv (recordFraming r.keys.datagram)

theorem readRecord_cached {r : Reader} {pt : Plaintext} (h : r.cached = some pt) (any : Bool) :
    readRecord r any = (.ok pt, { r with cached := none }) := by
  simp [readRecord, nextRecord, h]

/-- One ReadRecord on an empty cache. -/
theorem nextRecord_spec (r : Reader) (any : Bool) (hi : r.Inv) (hc : r.cached = none) :
    (nextRecord r any).2.Inv ∧ (nextRecord r any).2.conn <:+ r.conn ∧
    (nextRecord r any).2.keys.datagram = r.keys.datagram ∧
    ((∃ h b fs, r.frames = .ok (h, b) :: fs ∧ (nextRecord r any).2.frames = fs ∧
        ((∃ pt k, openRecord r.keys any h b = .ok (pt, k) ∧ (nextRecord r any).1 = .ok pt ∧
            (nextRecord r any).2.keys = k ∧ (nextRecord r any).2.cached = some pt) ∨
          ((∀ x, openRecord r.keys any h b ≠ .ok x) ∧
            (nextRecord r any).1 = (openRecord r.keys any h b).bind (fun x => .ok x.1) ∧
            (nextRecord r any).2.keys = r.keys ∧ (nextRecord r any).2.cached = none))) ∨
     (∃ e, (nextRecord r any).1 = .err e ∧ (nextRecord r any).2.keys = r.keys ∧
        (nextRecord r any).2.cached = none ∧
        ((∃ fs, r.frames = .error e :: fs ∧ (nextRecord r any).2.frames = fs) ∨
         ((nextRecord r any).2.frames = r.frames ∧
           (((nextRecord r any).2.conn.length < r.conn.length ∧ (.ok [] ∈ r.conn ∧ e = .wouldBlock ∨ ∃ e', .error e' ∈ r.conn)) ∨
             r.frames = []))))) := by
  have hs := readFrame_spec (recordFraming r.keys.datagram) (recordFraming_pos _) r.conn r.frame hi
  unfold nextRecord
  rw [hc]
  simp only
  rcases hrf : readFrame (recordFraming r.keys.datagram) r.conn r.frame with ⟨res, f', c'⟩
  rw [hrf] at hs
  dsimp only at hs
  obtain ⟨hinv, hsuf, hs⟩ := hs
  cases res with
  | frame h b =>
    dsimp only at hs ⊢
    cases ho : openRecord r.keys any h b with
    | ok x =>
      obtain ⟨pt, k⟩ := x
      dsimp only
      obtain ⟨i, seq, -, -, -, -, hk, -⟩ := openRecord_ok ho
      have hdg : k.datagram = r.keys.datagram := by rw [hk]
      refine ⟨by unfold Reader.Inv; simp only [hdg]; exact hinv, hsuf, hdg, Or.inl ⟨h, b, _, hs, ?_, ?_⟩⟩
      · simp only [Reader.frames, hdg]
      · exact Or.inl ⟨pt, k, ho, rfl, rfl, rfl⟩
    | err e =>
      dsimp only
      exact ⟨hinv, hsuf, rfl, Or.inl ⟨h, b, _, hs, rfl, Or.inr ⟨by simp [ho], by simp [ho], rfl, rfl⟩⟩⟩
    | panic =>
      dsimp only
      exact ⟨hinv, hsuf, rfl, Or.inl ⟨h, b, _, hs, rfl, Or.inr ⟨by simp [ho], by simp [ho], rfl, rfl⟩⟩⟩
    | diverge =>
      dsimp only
      exact ⟨hinv, hsuf, rfl, Or.inl ⟨h, b, _, hs, rfl, Or.inr ⟨by simp [ho], by simp [ho], rfl, rfl⟩⟩⟩
  | frameErr e =>
    dsimp only at hs ⊢
    exact ⟨hinv, hsuf, rfl, Or.inr ⟨e, rfl, rfl, rfl, Or.inl ⟨_, hs, rfl⟩⟩⟩
  | connErr e =>
    dsimp only at hs ⊢
    exact ⟨hinv, hsuf, rfl, Or.inr ⟨e, rfl, rfl, rfl, Or.inr ⟨hs.1.symm, Or.inl ⟨hs.2.1, Or.inr hs.2.2⟩⟩⟩⟩
  | block =>
    dsimp only at hs ⊢
    refine ⟨hinv, hsuf, rfl, Or.inr ⟨_, rfl, rfl, rfl, Or.inr ⟨hs.1.symm, ?_⟩⟩⟩
    rcases hs.2 with ⟨h1, h2⟩ | h1
    · exact Or.inl ⟨h1, Or.inl ⟨h2, rfl⟩⟩
    · exact Or.inr h1

end Verif.Record
