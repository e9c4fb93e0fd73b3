import Verif.Syntax.Model

namespace Verif.Syntax

open Verif

theorem varintLen_cases (u : Nat) (h : u < 2 ^ 62) :
    (varintLen u = 1 ∧ u < 2 ^ 6) ∨ (varintLen u = 2 ∧ 2 ^ 6 ≤ u ∧ u < 2 ^ 14) ∨
    (varintLen u = 4 ∧ 2 ^ 14 ≤ u ∧ u < 2 ^ 30) ∨ (varintLen u = 8 ∧ 2 ^ 30 ≤ u ∧ u < 2 ^ 62) := by
  unfold varintLen
  split
  · left; omega
  · split
    · right; left; omega
    · split
      · right; right; left; omega
      · right; right; right; omega

theorem writeVarint_ok_iff (u : Nat) : (∃ bs, writeVarint u = .ok bs) ↔ u < 2 ^ 62 := by
  unfold writeVarint
  rw [Nat.shiftRight_eq_div_pow]
  constructor
  · rintro ⟨bs, h⟩
    split at h
    · simp at h
    · rename_i hn
      have : u / 2 ^ 62 = 0 := by omega
      rcases Nat.div_eq_zero_iff.mp this with h' | h' <;> omega
  · intro h
    have : ¬ u / 2 ^ 62 > 0 := by rw [Nat.div_eq_of_lt h]; omega
    rw [if_neg this]
    exact ⟨_, rfl⟩

theorem or_shift_eq_add {u s k : Nat} (h : u < 2 ^ s) : u ||| (k <<< s) = u + k * 2 ^ s := by
  rw [Nat.shiftLeft_eq, Nat.or_comm, Nat.mul_comm, ← Nat.two_pow_add_eq_or_of_lt h]
  omega

/-- Shape of a varint: first byte carries the two length bits. -/
theorem writeVarint_eq {u : Nat} {bs : Bytes} (h : writeVarint u = .ok bs) :
    u < 2 ^ 62 ∧ bs.length = varintLen u ∧
      bs = beBytes (varintLen u) (u + varintBits (varintLen u) * 2 ^ (8 * varintLen u - 2)) := by
  have hu : u < 2 ^ 62 := (writeVarint_ok_iff u).mp ⟨bs, h⟩
  unfold writeVarint at h
  rw [Nat.shiftRight_eq_div_pow, Nat.div_eq_of_lt hu] at h
  simp only [gt_iff_lt, Nat.lt_irrefl, if_false, Res.ok.injEq] at h
  have hs : u < 2 ^ (8 * varintLen u - 2) := by
    rcases varintLen_cases u hu with h | h | h | h <;> rw [h.1] <;> simp <;> omega
  rw [or_shift_eq_add hs] at h
  subst h
  exact ⟨hu, by simp, rfl⟩

theorem and_3f (a : Nat) : a &&& 0x3f = a % 64 := Nat.and_two_pow_sub_one_eq_mod a 6

theorem take_append_length {α : Type} (xs ys : List α) : (xs ++ ys).take xs.length = xs := by simp

theorem take_append_of_len {α : Type} {xs ys : List α} {n : Nat} (h : xs.length = n) :
    (xs ++ ys).take n = xs := by subst h; simp

theorem drop_append_of_len {α : Type} {xs ys : List α} {n : Nat} (h : xs.length = n) :
    (xs ++ ys).drop n = ys := by subst h; simp

/-- General reading lemma: a first byte `f` with length bits `k` and the right number of further bytes. -/
theorem readVarint_cons (f : UInt8) (more rest : Bytes)
    (h : more.length = 2 ^ (f.toNat / 64) - 1) :
    readVarint (f :: (more ++ rest)) =
      .ok (2 ^ (f.toNat / 64), decodeUint (UInt8.ofNat (f.toNat % 64) :: more), rest) := by
  have hl : 1 <<< (f.toNat >>> 6) = 2 ^ (f.toNat / 64) := by
    rw [Nat.shiftLeft_eq, Nat.shiftRight_eq_div_pow]; simp
  simp only [readVarint, hl, and_3f]
  rw [take_append_of_len h, drop_append_of_len h, if_pos h]

theorem readVarint_writeVarint {u : Nat} {bs : Bytes} (h : writeVarint u = .ok bs) (rest : Bytes) :
    readVarint (bs ++ rest) = .ok (bs.length, u, rest) := by
  obtain ⟨hu, hlen, hbs⟩ := writeVarint_eq h
  have aux1 : ∀ q k : Nat, q < 64 → k < 4 → (q + k * 64) % 2 ^ 8 = q + k * 64 := by omega
  have aux2 : ∀ q k : Nat, q < 64 → (q + k * 64) / 64 = k := by omega
  have aux3 : ∀ q k : Nat, q < 64 → (q + k * 64) % 64 = q := by omega
  have key : ∀ (n k : Nat), varintLen u = n + 1 → varintBits (n + 1) = k → 2 ^ k = n + 1 →
      k < 4 → n + 1 ≤ 8 → u < 2 ^ (8 * (n + 1) - 2) → readVarint (bs ++ rest) = .ok (bs.length, u, rest) := by
    intro n k hn hk h2k hk4 hn8 hlt
    rw [hn, hk] at hbs
    have h6 : 2 ^ (8 * (n + 1) - 2) = 64 * 256 ^ n := by
      rw [show 8 * (n + 1) - 2 = 6 + 8 * n by omega, Nat.pow_add, Nat.pow_mul]
    rw [h6] at hbs hlt
    have hp : 0 < 256 ^ n := Nat.pow_pos (by decide)
    have hdiv : u / 256 ^ n < 64 := Nat.div_lt_of_lt_mul (by rw [Nat.mul_comm]; exact hlt)
    have hfirst : (u + k * (64 * 256 ^ n)) / 256 ^ n = u / 256 ^ n + k * 64 := by
      rw [← Nat.mul_assoc, Nat.add_mul_div_right _ _ hp]
    have hcons : bs = UInt8.ofNat (u / 256 ^ n + k * 64) :: beBytes n (u + k * (64 * 256 ^ n)) := by
      rw [hbs, beBytes, Nat.shiftRight_eq_div_pow, Nat.pow_mul]
      rw [show (2:Nat) ^ 8 = 256 from rfl, hfirst]
    have hf : (UInt8.ofNat (u / 256 ^ n + k * 64)).toNat = u / 256 ^ n + k * 64 := by
      rw [UInt8.toNat_ofNat']; exact aux1 _ _ hdiv hk4
    have hq : (u / 256 ^ n + k * 64) / 64 = k := aux2 _ _ hdiv
    have hr : (u / 256 ^ n + k * 64) % 64 = u / 256 ^ n := aux3 _ _ hdiv
    rw [hlen, hn, hcons, List.cons_append, readVarint_cons, hf, hq, hr, h2k]
    · congr 1
      unfold decodeUint
      rw [beNat_cons, beBytes_length, beNat_beBytes, UInt8.toNat_ofNat',
        Nat.mod_eq_of_lt (by omega : u / 256 ^ n < 2 ^ 8), ← Nat.mul_assoc, Nat.add_mul_mod_self_right,
        Nat.mul_comm, Nat.div_add_mod, Nat.mod_eq_of_lt]
      exact Nat.lt_of_lt_of_le hu (by decide)
    · rw [hf, hq, h2k]; simp
  rcases varintLen_cases u hu with h | h | h | h
  · exact key 0 0 h.1 rfl rfl (by omega) (by omega) (by simp; omega)
  · exact key 1 1 h.1 rfl rfl (by omega) (by omega) (by simp; omega)
  · exact key 3 2 h.1 rfl rfl (by omega) (by omega) (by simp; omega)
  · exact key 7 3 h.1 rfl rfl (by omega) (by omega) (by simp; omega)

theorem writeVarint_ne_nil {u : Nat} {bs : Bytes} (h : writeVarint u = .ok bs) : bs ≠ [] := by
  obtain ⟨hu, hlen, -⟩ := writeVarint_eq h
  intro hb
  subst hb
  rcases varintLen_cases u hu with h | h | h | h <;> simp [h.1] at hlen

/-- What a successful readVarint looked at. -/
theorem readVarint_ok {bs rest : Bytes} {n v : Nat} (h : readVarint bs = .ok (n, v, rest)) :
    ∃ f more, bs = f :: (more ++ rest) ∧ more.length = 2 ^ (f.toNat / 64) - 1 ∧
      n = more.length + 1 ∧ v = decodeUint (UInt8.ofNat (f.toNat % 64) :: more) := by
  cases bs with
  | nil => simp [readVarint] at h
  | cons f tail =>
    have hl : 1 <<< (f.toNat >>> 6) = 2 ^ (f.toNat / 64) := by
      rw [Nat.shiftLeft_eq, Nat.shiftRight_eq_div_pow]; simp
    simp only [readVarint, hl, and_3f] at h
    split at h
    · rename_i hlen
      simp only [Res.ok.injEq, Prod.mk.injEq] at h
      obtain ⟨h1, h2, h3⟩ := h
      have hp : 0 < 2 ^ (f.toNat / 64) := Nat.pow_pos (by decide)
      refine ⟨f, tail.take (2 ^ (f.toNat / 64) - 1), ?_, hlen, by omega, h2.symm⟩
      rw [← h3, List.take_append_drop]
    · simp at h

theorem readVarint_lt {bs rest : Bytes} {n v : Nat} (h : readVarint bs = .ok (n, v, rest)) :
    v < 2 ^ 62 := by
  obtain ⟨f, more, -, hlen, -, hv⟩ := readVarint_ok h
  rw [hv, decodeUint]
  apply Nat.lt_of_le_of_lt (Nat.mod_le _ _)
  have h1 := beNat_lt more
  rw [beNat_cons, UInt8.toNat_ofNat']
  have hf : f.toNat / 64 ≤ 3 := by have := f.toNat_lt; omega
  have h7 : more.length ≤ 7 := by
    rw [hlen]
    have : 2 ^ (f.toNat / 64) ≤ 2 ^ 3 := Nat.pow_le_pow_right (by decide) hf
    omega
  have hp : 256 ^ more.length ≤ 256 ^ 7 := Nat.pow_le_pow_right (by decide) h7
  have h63 : f.toNat % 64 % 2 ^ 8 ≤ 63 := by omega
  have hm : f.toNat % 64 % 2 ^ 8 * 256 ^ more.length ≤ 63 * 256 ^ 7 :=
    Nat.mul_le_mul h63 hp
  have : (63 * 256 ^ 7 + 256 ^ 7 : Nat) = 2 ^ 62 := by decide
  omega

theorem readVarint_safe (bs : Bytes) : (readVarint bs).Safe := by
  cases bs with
  | nil => trivial
  | cons f tail =>
    unfold readVarint
    dsimp only
    split <;> trivial

end Verif.Syntax
