import Verif.Spec.KeySchedule

/-
The HKDF of the model agrees with the RFC definitions.
-/

namespace Verif.Crypto

open Verif Verif.Spec

/-- T(1) | … | T(n). -/
def blocks (P : Prims) (h : HashId) (prk info : Bytes) (n : Nat) : Bytes :=
  ((List.range n).map fun i => block P h prk info (i + 1)).flatten

theorem blocks_succ (P : Prims) (h : HashId) (prk info : Bytes) (n : Nat) :
    blocks P h prk info (n + 1) = blocks P h prk info n ++ block P h prk info (n + 1) := by
  simp [blocks, List.range_succ]

theorem block_length (P : Prims) (hP : P.Sized) (h : HashId) (prk info : Bytes) (n : Nat) :
    (block P h prk info (n + 1)).length = h.size := by rw [block]; exact hP.hmac _ _ _

theorem blocks_length (P : Prims) (hP : P.Sized) (h : HashId) (prk info : Bytes) (n : Nat) :
    (blocks P h prk info n).length = n * h.size := by
  induction n with
  | zero => simp [blocks]
  | succ n ih => rw [blocks_succ, List.length_append, ih, block_length P hP, Nat.succ_mul]

theorem blocks_prefix (P : Prims) (h : HashId) (prk info : Bytes) (m k : Nat) :
    blocks P h prk info m <+: blocks P h prk info (m + k) := by
  induction k with
  | zero => exact List.prefix_refl _
  | succ k ih => rw [← Nat.add_assoc, blocks_succ]; exact ih.trans (List.prefix_append _ _)

theorem take_blocks_eq (P : Prims) (hP : P.Sized) (h : HashId) (prk info : Bytes) (L m n : Nat)
    (hm : L ≤ m * h.size) (hmn : m ≤ n) :
    (blocks P h prk info n).take L = (blocks P h prk info m).take L := by
  obtain ⟨t, ht⟩ := blocks_prefix P h prk info m (n - m)
  rw [show m + (n - m) = n by omega] at ht
  rw [← ht, List.take_append_of_le_length (by rw [blocks_length P hP]; exact hm)]

theorem ceil_mul (L s : Nat) (hs : 0 < s) : L ≤ (L + s - 1) / s * s := by
  have h1 := Nat.div_add_mod (L + s - 1) s
  have h2 := Nat.mod_lt (L + s - 1) hs
  rw [Nat.mul_comm] at h1
  omega

theorem hkdfExpandLoop_eq (P : Prims) (hP : P.Sized) (h : HashId) (hs : 0 < h.size) (prk info : Bytes) (L : Nat)
    (fuel k : Nat) (hf : L ≤ fuel + k * h.size) :
    ∃ m, L ≤ m * h.size ∧
      hkdfExpandLoop P h prk info L fuel (blocks P h prk info k) (block P h prk info k) (UInt8.ofNat (k + 1)) =
        .ok (blocks P h prk info m) := by
  induction fuel generalizing k with
  | zero =>
    refine ⟨k, by omega, ?_⟩
    rw [hkdfExpandLoop, if_neg]
    rw [blocks_length P hP]; omega
  | succ fuel ih =>
    by_cases hlt : k * h.size < L
    · rw [hkdfExpandLoop, if_pos (by rw [blocks_length P hP]; exact hlt)]
      have e1 : P.hmac h prk (block P h prk info k ++ info ++ [UInt8.ofNat (k + 1)]) = block P h prk info (k + 1) := rfl
      have e2 : (UInt8.ofNat (k + 1) + 1 : UInt8) = UInt8.ofNat (k + 1 + 1) := by
        rw [UInt8.ofNat_add (k + 1) 1]; rfl
      dsimp only
      rw [e1, e2, ← blocks_succ]
      exact ih (k + 1) (by rw [Nat.succ_mul]; omega)
    · refine ⟨k, by omega, ?_⟩
      rw [hkdfExpandLoop, if_neg]
      rw [blocks_length P hP]; omega

/-- The output of `HkdfExpand` is the one of RFC 5869. -/
theorem hkdfExpand_eq (P : Prims) (hP : P.Sized) (h : HashId) (hs : 0 < h.size) (prk info : Bytes) (L : Nat) :
    hkdfExpand P h prk info L = .ok (expand P h prk info L) := by
  obtain ⟨m, hm, he⟩ := hkdfExpandLoop_eq P hP h hs prk info L L 0 (by omega)
  have he' : hkdfExpandLoop P h prk info L L [] [] 1 = .ok (blocks P h prk info m) := he
  rw [hkdfExpand, he', Res.bind_ok]
  congr 1
  show _ = (blocks P h prk info ((L + h.size - 1) / h.size)).take L
  have hN := ceil_mul L h.size hs
  rcases Nat.le_total m ((L + h.size - 1) / h.size) with hle | hle
  · exact (take_blocks_eq P hP h prk info L _ _ hm hle).symm
  · exact take_blocks_eq P hP h prk info L _ _ hN hle

theorem expand_length (P : Prims) (hP : P.Sized) (h : HashId) (hs : 0 < h.size) (prk info : Bytes) (L : Nat) :
    (expand P h prk info L).length = L := by
  have hN := ceil_mul L h.size hs
  show ((blocks P h prk info ((L + h.size - 1) / h.size)).take L).length = L
  rw [List.length_take, blocks_length P hP]; omega

theorem ascii_tls13 : ascii "tls13 " = tls13 := by decide
theorem ascii_finished : ascii "finished" = labelFinished := by decide

/-- The encoded label is the HkdfLabel structure, whatever the lengths (both truncate them). -/
theorem hkdfEncodeLabel_eq (label ctx : Bytes) (L : Nat) :
    hkdfEncodeLabel label ctx L = hkdfLabel L label ctx := by
  simp [hkdfEncodeLabel, hkdfLabel, ascii_tls13, beBytes]

theorem hkdfExpandLabel_eq (P : Prims) (hP : P.Sized) (h : HashId) (hs : 0 < h.size) (secret label ctx : Bytes)
    (L : Nat) : hkdfExpandLabel P h secret label ctx L = .ok (expandLabel P h secret label ctx L) := by
  rw [hkdfExpandLabel, hkdfExpand_eq P hP h hs, hkdfEncodeLabel_eq]; rfl

theorem deriveSecret_eq (P : Prims) (hP : P.Sized) (h : HashId) (hs : 0 < h.size) (secret label msgs : Bytes) :
    deriveSecret P h secret label (P.hash h msgs) = .ok (derive P h secret label msgs) :=
  hkdfExpandLabel_eq P hP h hs _ _ _ _

theorem computeFinishedData_eq (P : Prims) (hP : P.Sized) (h : HashId) (hs : 0 < h.size) (baseKey msgs : Bytes) :
    computeFinishedData P h baseKey (P.hash h msgs) = .ok (finishedMac P h baseKey msgs) := by
  rw [computeFinishedData, hkdfExpandLabel_eq P hP h hs, Res.bind_ok, finishedMac, ascii_finished]

theorem suiteParams_size {s : Nat} {p : Params} (h : suiteParams s = some p) : 0 < p.hash.size := by
  simp only [suiteParams] at h
  split at h
  · cases h; decide
  · split at h
    · cases h; decide
    · cases h

theorem suiteParams_suite {s : Nat} {p : Params} (h : suiteParams s = some p) : p.suite = s := by
  simp only [suiteParams] at h
  split at h
  · cases h; simp [*]
  · split at h
    · cases h; simp [*]
    · cases h

end Verif.Crypto
