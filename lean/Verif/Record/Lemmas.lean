import Verif.Record.Model
import Mathlib.Data.List.TakeWhile

/-
Helper lemmas about the record layer model.
-/

namespace Verif.Record

open Verif

/-- The bytes a transport delivers, ignoring errors and empty reads. -/
def connData : List (Except Err Bytes) → Bytes
  | [] => []
  | .ok c :: cs => c ++ connData cs
  | .error _ :: cs => connData cs

/-- The frame loop of the record layer: what it returns is the first frame still to come. -/
theorem readFrame_spec (d : Framing) (hd : d.headerLen ≠ 0) (conn : List (Except Err Bytes))
    (f : FrameReader) (hi : f.Inv d) :
    (readFrame d conn f).2.1.Inv d ∧
    (readFrame d conn f).2.2 <:+ conn ∧
    match (readFrame d conn f).1 with
    | .frame h b => f.future d (connData conn) =
        .ok (h, b) :: (readFrame d conn f).2.1.future d (connData (readFrame d conn f).2.2)
    | .frameErr e => f.future d (connData conn) =
        .error e :: (readFrame d conn f).2.1.future d (connData (readFrame d conn f).2.2)
    | .connErr _ => f.future d (connData conn) =
        (readFrame d conn f).2.1.future d (connData (readFrame d conn f).2.2) ∧
        (readFrame d conn f).2.2.length < conn.length ∧ ∃ e, .error e ∈ conn
    | .block => f.future d (connData conn) =
        (readFrame d conn f).2.1.future d (connData (readFrame d conn f).2.2) ∧
        (((readFrame d conn f).2.2.length < conn.length ∧ .ok [] ∈ conn) ∨
          f.future d (connData conn) = []) := by
  induction conn generalizing f with
  | nil =>
    have hp := FrameReader.process_spec d hd f hi
    rw [readFrame]
    rcases hx : f.process d with ⟨e, f'⟩
    rw [hx] at hp
    dsimp only at hp ⊢
    rcases e with _ | e | ⟨h, b⟩
    · simp only at hp ⊢
      exact ⟨hp.1, List.suffix_refl _, (hp.2.2.2 _).symm, Or.inr hp.2.2.1⟩
    · simp only at hp ⊢
      exact ⟨hp.1, List.suffix_refl _, hp.2 _⟩
    · simp only at hp ⊢
      exact ⟨hp.1, List.suffix_refl _, hp.2 _⟩
  | cons x conn ih =>
    have hp := FrameReader.process_spec d hd f hi
    rw [readFrame]
    rcases hx : f.process d with ⟨e, f'⟩
    rw [hx] at hp
    dsimp only at hp ⊢
    rcases e with _ | e | ⟨h, b⟩
    · simp only at hp ⊢
      rcases x with e | c
      · simp only [connData]
        exact ⟨hp.1, List.suffix_cons _ _, (hp.2.2.2 _).symm, by simp, e, by simp⟩
      · simp only [connData]
        by_cases hc : c = []
        · subst hc
          simp only [if_true, List.nil_append]
          exact ⟨hp.1, List.suffix_cons _ _, (hp.2.2.2 _).symm, Or.inl ⟨by simp, by simp⟩⟩
        · rw [if_neg hc]
          have := ih (f'.addChunk c) (FrameReader.inv_addChunk hp.1 c)
          rw [FrameReader.future_addChunk, hp.2.2.2] at this
          refine ⟨this.1, this.2.1.trans (List.suffix_cons _ _), ?_⟩
          have h3 := this.2.2
          revert h3
          cases (readFrame d conn (f'.addChunk c)).1 with
          | frame h b => exact fun h => h
          | frameErr e => exact fun h => h
          | connErr e => exact fun ⟨h1, h2, e', h3⟩ => ⟨h1, by simp; omega, e', by simp [h3]⟩
          | block =>
            rintro ⟨h1, h2⟩
            refine ⟨h1, ?_⟩
            rcases h2 with ⟨h2, h3⟩ | h2
            · left; exact ⟨by simp; omega, by simp [h3]⟩
            · right; exact h2
    · simp only at hp ⊢
      exact ⟨hp.1, List.suffix_refl _, hp.2 _⟩
    · simp only at hp ⊢
      exact ⟨hp.1, List.suffix_refl _, hp.2 _⟩

/-! ### Nonces -/

theorem xor_left_cancel {a b c : UInt8} (h : a ^^^ b = a ^^^ c) : b = c := by
  have := congrArg (a ^^^ ·) h
  simpa [← UInt8.xor_assoc] using this

theorem zipWith_xor_inj (iv xs ys : Bytes) (hx : xs.length = iv.length) (hy : ys.length = iv.length)
    (h : List.zipWith (· ^^^ ·) iv xs = List.zipWith (· ^^^ ·) iv ys) : xs = ys := by
  induction iv generalizing xs ys with
  | nil =>
    rw [List.eq_nil_of_length_eq_zero hx, List.eq_nil_of_length_eq_zero hy]
  | cons a iv ih =>
    cases xs with
    | nil => simp at hx
    | cons x xs =>
      cases ys with
      | nil => simp at hy
      | cons y ys =>
        simp only [List.zipWith_cons_cons, List.cons.injEq] at h
        rw [xor_left_cancel h.1, ih xs ys (by simpa using hx) (by simpa using hy) h.2]

theorem computeNonce_ok {c : CipherState} {s : Nat} {n : Bytes} (h : computeNonce c s = .ok n) :
    8 ≤ c.iv.length ∧ n.length = c.iv.length ∧
    n = List.zipWith (· ^^^ ·) c.iv (List.replicate (c.iv.length - 8) 0 ++ beBytes 8 s) := by
  unfold computeNonce at h
  split at h
  · simp at h
  · rename_i hl
    simp only [Res.ok.injEq] at h
    refine ⟨by omega, ?_, h.symm⟩
    rw [← h]
    simp
    omega

/-- Different sequence numbers give different nonces. -/
theorem computeNonce_inj {c c' : CipherState} {s s' : Nat} {n : Bytes} (hiv : c.iv = c'.iv)
    (hs : s < 2 ^ 64) (hs' : s' < 2 ^ 64)
    (h : computeNonce c s = .ok n) (h' : computeNonce c' s' = .ok n) : s = s' := by
  obtain ⟨hl, -, rfl⟩ := computeNonce_ok h
  obtain ⟨hl', -, he⟩ := computeNonce_ok h'
  rw [← hiv] at he hl'
  have := zipWith_xor_inj _ _ _ (by simp; omega) (by simp; omega) he
  rw [List.append_cancel_left_eq] at this
  have h256 : (256 : Nat) ^ 8 = 2 ^ 64 := by decide
  exact beBytes_inj (by omega) (by omega) this

theorem combineSeq_eq {c : CipherState} (hs : c.seq < 2 ^ 48) (d : Bool) :
    combineSeq c d = if d then c.epoch * 2 ^ 48 + c.seq else c.seq := by
  unfold combineSeq
  cases d with
  | false => rfl
  | true =>
    simp only [if_true]
    rw [Nat.or_comm, ← Nat.shiftLeft_add_eq_or_of_lt hs, Nat.shiftLeft_eq]

theorem combineSeq_lt {c : CipherState} (hs : c.seq < 2 ^ 48) (he : c.epoch < 2 ^ 16) (d : Bool) :
    combineSeq c d < 2 ^ 64 := by
  rw [combineSeq_eq hs]
  split <;> omega

/-! ### Padding -/

theorem reverse_dropWhile_padding (ct : UInt8) (f : Bytes) (pad : Nat) (hct : ct ≠ 0) :
    (innerPlaintext ct f pad).reverse.dropWhile (· == 0) = ct :: f.reverse := by
  have h1 : (innerPlaintext ct f pad).reverse = List.replicate pad 0 ++ ct :: f.reverse := by
    simp [innerPlaintext]
  rw [h1]
  induction pad with
  | zero => simp [hct]
  | succ n ih =>
    rw [List.replicate_succ, List.cons_append, List.dropWhile_cons]
    simp only [BEq.rfl, if_true]
    exact ih (by simp [innerPlaintext])

/-- Stripping the padding of what `encrypt` builds gives back type and fragment. -/
theorem stripPadding_inner (ct : UInt8) (f : Bytes) (pad : Nat) (hct : ct ≠ 0) :
    stripPadding (innerPlaintext ct f pad) = .ok (ct, f) := by
  rw [stripPadding, reverse_dropWhile_padding ct f pad hct]
  simp

theorem stripPadding_ok {p : Bytes} {ct : UInt8} {f : Bytes} (h : stripPadding p = .ok (ct, f)) :
    ct ≠ 0 ∧ ∃ pad, p = innerPlaintext ct f pad := by
  unfold stripPadding at h
  split at h
  · simp at h
  · rename_i c rest heq
    simp only [Res.ok.injEq, Prod.mk.injEq] at h
    obtain ⟨rfl, rfl⟩ := h
    have hne : p.reverse.dropWhile (· == 0) ≠ [] := by rw [heq]; simp
    have hc := List.head_dropWhile_not (· == (0 : UInt8)) hne
    simp only [heq, List.head_cons] at hc
    refine ⟨by simpa using hc, (p.reverse.takeWhile (· == 0)).length, ?_⟩
    have h1 := List.takeWhile_append_dropWhile (p := (· == (0 : UInt8))) (l := p.reverse)
    have h2 : p.reverse.takeWhile (· == (0 : UInt8)) =
        List.replicate (p.reverse.takeWhile (· == (0 : UInt8))).length 0 := by
      apply List.eq_replicate_of_mem
      intro b hb
      have := List.mem_takeWhile_imp hb
      simpa using this
    rw [heq] at h1
    have h3 : p = (p.reverse.takeWhile (· == (0 : UInt8)) ++ c :: rest).reverse := by
      rw [h1, List.reverse_reverse]
    generalize hn : (p.reverse.takeWhile (· == (0 : UInt8))).length = n
    rw [hn] at h2
    rw [h2] at h3
    rw [h3]
    simp [innerPlaintext]

theorem stripPadding_safe {p : Bytes} (h : ∃ b ∈ p, b ≠ 0) : (stripPadding p).Safe := by
  unfold stripPadding
  split
  · rename_i heq
    obtain ⟨b, hb, h0⟩ := h
    have h1 := List.takeWhile_append_dropWhile (p := (· == (0 : UInt8))) (l := p.reverse)
    rw [heq, List.append_nil] at h1
    have h2 : b ∈ p.reverse.takeWhile (· == (0 : UInt8)) := by rw [h1]; simpa using hb
    have := List.mem_takeWhile_imp h2
    simp [h0] at this
  · trivial

/-! ### Headers -/

theorem recordHeader_ok {k : Keys} {o : UInt8} {s l : Nat} {h : Bytes} (hh : recordHeader k o s l = .ok h) :
    h.length = (recordFraming k.datagram).headerLen ∧ h.getD 0 0 = o ∧
    announced h = l % 2 ^ 16 ∧
    (k.datagram = true → beNat ((h.drop 3).take 8) = s % 2 ^ 64) ∧
    (recordFraming k.datagram).frameLen h = .ok (l % 2 ^ 16) := by
  have h2 : ∀ v, beBytes 2 v = [UInt8.ofNat (v >>> 8), UInt8.ofNat v] := by
    intro v; simp [beBytes]
  have hv : (UInt8.ofNat (l >>> 8)).toNat * 256 + (UInt8.ofNat l).toNat = l % 2 ^ 16 := by
    simp only [UInt8.toNat_ofNat', Nat.shiftRight_eq_div_pow]
    omega
  unfold recordHeader at hh
  cases hd : k.datagram with
  | true =>
    rw [hd] at hh
    simp only [if_true, Res.bind_eq_ok, Res.ok.injEq] at hh
    obtain ⟨v, -, rfl⟩ := hh
    have h8 : (beBytes 8 s).length = 8 := by simp
    have hbe : beNat (beBytes 8 s) = s % 2 ^ 64 := by rw [beNat_beBytes]
    rcases hb : beBytes 8 s with _ | ⟨b0, _ | ⟨b1, _ | ⟨b2, _ | ⟨b3, _ | ⟨b4, _ | ⟨b5, _ | ⟨b6, _ | ⟨b7, _ | _⟩⟩⟩⟩⟩⟩⟩⟩ <;>
      (rw [hb] at h8; simp at h8)
    rw [hb] at hbe
    refine ⟨by simp [recordFraming, h2], by simp [h2], ?_, ?_, ?_⟩
    · simp [announced, h2]; simpa using hv
    · intro _; simp [h2]; simpa using hbe
    · simp [recordFraming, h2]; simpa using hv
  | false =>
    rw [hd] at hh
    simp only [Bool.false_eq_true, if_false, Res.ok.injEq] at hh
    subst hh
    refine ⟨by simp [recordFraming, h2], by simp [h2], ?_, by simp, ?_⟩
    · simp [announced, h2]; simpa using hv
    · simp [recordFraming, h2]; simpa using hv

theorem bumpSeq_ok {h h' : Nat → CipherState} {i : Nat} (hb : bumpSeq h i = .ok h') :
    (h i).seq < 2 ^ 48 - 1 ∧ h' = upd h i { h i with seq := (h i).seq + 1 } := by
  unfold bumpSeq at hb
  split at hb
  · simp at hb
  · simp only [Res.ok.injEq] at hb
    exact ⟨by omega, hb.symm⟩

theorem bumpSeq_of_lt {h : Nat → CipherState} {i : Nat} (hb : (h i).seq < 2 ^ 48 - 1) :
    bumpSeq h i = .ok (upd h i { h i with seq := (h i).seq + 1 }) := by
  unfold bumpSeq
  rw [if_neg (by omega)]

/-- What a successful write did. -/
theorem writeRecord_ok {k k' : Keys} {i : Nat} {ct : UInt8} {f : Bytes} {pad : Nat} {rec : Bytes}
    (h : writeRecord k i ct f pad = .ok (rec, k')) :
    ∃ header body, rec = header ++ body ∧ body.length ≤ 2 ^ 14 ∧ (k.heap i).seq < 2 ^ 48 - 1 ∧
      k' = { k with heap := upd k.heap i { k.heap i with seq := (k.heap i).seq + 1 } } ∧
      ((∃ a nonce, (k.heap i).aead = some a ∧ k.direction = .write ∧
          recordHeader k 23 (combineSeq (k.heap i) k.datagram) (f.length + (1 + pad + a.overhead)) = .ok header ∧
          computeNonce (k.heap i) (combineSeq (k.heap i) k.datagram) = .ok nonce ∧
          body = a.sealing nonce (innerPlaintext ct f pad) header) ∨
       ((k.heap i).aead = none ∧ pad = 0 ∧ body = f ∧
          recordHeader k ct (combineSeq (k.heap i) k.datagram) f.length = .ok header)) := by
  unfold writeRecord at h
  dsimp only at h
  split at h
  · rename_i a ha
    simp only [Res.bind_eq_ok] at h
    obtain ⟨header, hh, h⟩ := h
    split at h
    · simp at h
    · rename_i hdir
      simp only [Res.bind_eq_ok] at h
      obtain ⟨nonce, hn, h⟩ := h
      split at h
      · simp at h
      · rename_i hl
        simp only [Res.bind_eq_ok, Res.ok.injEq, Prod.mk.injEq] at h
        obtain ⟨h', hb, rfl, rfl⟩ := h
        obtain ⟨hs, rfl⟩ := bumpSeq_ok hb
        exact ⟨header, _, rfl, by omega, hs, rfl, Or.inl ⟨a, nonce, ha, by simpa using hdir, hh, hn, rfl⟩⟩
  · rename_i ha
    simp only [Res.bind_eq_ok] at h
    obtain ⟨header, hh, h⟩ := h
    split at h
    · simp at h
    · split at h
      · simp at h
      · simp only [Res.bind_eq_ok, Res.ok.injEq, Prod.mk.injEq] at h
        obtain ⟨h', hb, rfl, rfl⟩ := h
        obtain ⟨hs, rfl⟩ := bumpSeq_ok hb
        exact ⟨header, _, rfl, by omega, hs, rfl, Or.inr ⟨ha, by omega, rfl, hh⟩⟩

end Verif.Record
