import Verif.Crypto.Ffdhe
import Verif.Spec.Ffdhe
import Verif.Spec.Compatible

/-
C91: key agreement in finite fields.
-/

namespace Verif.Props

open Verif Verif.Crypto Verif.Spec

theorem byteLen_le {n k : Nat} : byteLen n ≤ k ↔ n < 256 ^ k := by
  unfold byteLen
  split
  · rename_i h
    subst h
    exact ⟨fun _ => Nat.pow_pos (by decide), fun _ => Nat.zero_le _⟩
  · rename_i h
    rw [show (256 : Nat) ^ k = 2 ^ (8 * k) by rw [Nat.pow_mul], ← Nat.log2_lt h]
    omega

theorem bigBytes_nat (n : Nat) : beNat (bigBytes n) = n := beNat_beBytes_of_lt (byteLen_le.1 (Nat.le_refl _))

theorem bigBytes_length (n : Nat) : (bigBytes n).length = byteLen n := beBytes_length _ _

theorem beNat_zeros (k : Nat) : beNat (List.replicate k 0) = 0 := by
  induction k with
  | zero => rfl
  | succ k ih => rw [List.replicate_succ', beNat_append, ih]; rfl

/-- A number below 256^k in k bytes. -/
theorem padTo_ok {k n : Nat} (h : n < 256 ^ k) : ∃ b, padTo k (bigBytes n) = .ok b ∧ b.length = k ∧ beNat b = n := by
  have h1 := byteLen_le.2 h
  refine ⟨_, by rw [padTo, if_pos (by rw [bigBytes_length]; exact h1)], ?_, ?_⟩
  · simp [bigBytes_length]; omega
  · rw [beNat_append, beNat_zeros, bigBytes_nat]; simp

theorem isFfdhe_cases {g : Nat} (h : isFfdhe g = true) : g = 256 ∨ g = 257 ∨ g = 258 ∨ g = 259 ∨ g = 260 := by
  simp [isFfdhe] at h
  omega

theorem prime_bounds {g : Nat} (h : isFfdhe g = true) : 2 < primeOf g ∧ primeOf g < 256 ^ keyExchangeSize g := by
  rcases isFfdhe_cases h with rfl | rfl | rfl | rfl | rfl <;> exact ⟨by decide +kernel, by decide +kernel⟩

theorem prime_len {g : Nat} (h : isFfdhe g = true) : byteLen (primeOf g) = keyExchangeSize g ∧ 1 < keyExchangeSize g := by
  rcases isFfdhe_cases h with rfl | rfl | rfl | rfl | rfl <;> exact ⟨by decide +kernel, by decide⟩

theorem ffdheShare_ok {p : Nat} {ds : List (Option Nat)} {x y : Nat} (h : ffdheShare p ds = .ok (x, y)) :
    some x ∈ ds ∧ y = 2 ^ x % p ∧ byteLen y = byteLen p := by
  induction ds with
  | nil => cases h
  | cons d ds ih =>
    cases d with
    | none => cases h
    | some x' =>
      rw [ffdheShare] at h
      split at h
      · rename_i hl
        simp only [Res.ok.injEq, Prod.mk.injEq] at h
        obtain ⟨rfl, rfl⟩ := h
        exact ⟨by simp, rfl, by simpa [bigBytes_length] using hl⟩
      · exact ⟨List.mem_cons_of_mem _ (ih h).1, (ih h).2⟩

/-- C91, key shares: a public key has the size of the group, and is the generator 2 to the private key. It does not begin with a
zero byte, so is not one of the smallest numbers. -/
theorem C91_share (g : Nat) (hg : isFfdhe g = true) (draws : List (Option Nat)) (pub priv : Bytes)
    (h : ffdheKeyShare g draws = .ok (pub, priv)) :
    some (beNat priv) ∈ draws ∧ pub.length = keyExchangeSize g ∧ beNat pub = 2 ^ beNat priv % primeOf g ∧
      256 ^ (keyExchangeSize g - 1) ≤ beNat pub ∧ 1 < beNat pub ∧ beNat pub < primeOf g := by
  obtain ⟨hl, hl1⟩ := prime_len hg
  obtain ⟨hp, hb⟩ := prime_bounds hg
  simp only [ffdheKeyShare, Res.bind_eq_ok, Res.ok.injEq, Prod.mk.injEq] at h
  obtain ⟨⟨x, y⟩, h1, pub', h2, rfl, rfl⟩ := h
  obtain ⟨hm, rfl, hlen⟩ := ffdheShare_ok h1
  obtain ⟨b, h3, h4, h5⟩ := padTo_ok (k := keyExchangeSize g) (n := 2 ^ x % primeOf g) (lt_trans (Nat.mod_lt _ (by omega)) hb)
  rw [show padTo (keyExchangeSize g) (bigBytes (x, 2 ^ x % primeOf g).2) = .ok b from h3, Res.ok.injEq] at h2
  subst h2
  rw [bigBytes_nat]
  have hge : 256 ^ (keyExchangeSize g - 1) ≤ 2 ^ x % primeOf g := by
    by_contra hlt
    have := byteLen_le.2 (Nat.lt_of_not_le hlt)
    omega
  have h256 : 256 ^ 1 ≤ 256 ^ (keyExchangeSize g - 1) := Nat.pow_le_pow_right (by decide) (by omega)
  rw [h5]
  exact ⟨hm, h4, rfl, hge, by omega, Nat.mod_lt _ (by omega)⟩

/-- Key agreement with any share of the right size succeeds; the secret has the size of the group. -/
theorem C91_size (g : Nat) (hg : isFfdhe g = true) (pub priv : Bytes) :
    (pub.length = keyExchangeSize g → ∃ z, ffdheAgreement g pub priv = .ok z ∧ z.length = keyExchangeSize g ∧
      beNat z = beNat pub ^ beNat priv % primeOf g) ∧
    (pub.length ≠ keyExchangeSize g → ffdheAgreement g pub priv = .err .msg) := by
  obtain ⟨hp, hb⟩ := prime_bounds hg
  constructor
  · intro h
    rw [ffdheAgreement, if_neg (by simpa using h)]
    exact padTo_ok (lt_trans (Nat.mod_lt _ (by omega)) hb)
  · intro h
    rw [ffdheAgreement, if_pos h]

/-- C91: whatever the random numbers, two ends that made their shares and exchanged them have the same secret, of the size of the
group: the generator to the product of the private keys. -/
theorem C91_agree (g : Nat) (hg : isFfdhe g = true) (draws draws' : List (Option Nat)) (pub priv pub' priv' : Bytes)
    (h : ffdheKeyShare g draws = .ok (pub, priv)) (h' : ffdheKeyShare g draws' = .ok (pub', priv')) :
    ∃ z, ffdheAgreement g pub' priv = .ok z ∧ ffdheAgreement g pub priv' = .ok z ∧ z.length = keyExchangeSize g ∧
      beNat z = 2 ^ (beNat priv * beNat priv') % primeOf g := by
  obtain ⟨-, h1, h2, -⟩ := C91_share g hg draws pub priv h
  obtain ⟨-, h1', h2', -⟩ := C91_share g hg draws' pub' priv' h'
  obtain ⟨z, h3, h4, h5⟩ := (C91_size g hg pub' priv).1 h1'
  obtain ⟨z', h3', h4', h5'⟩ := (C91_size g hg pub priv').1 h1
  have e : beNat z = 2 ^ (beNat priv * beNat priv') % primeOf g := by
    rw [h5, h2', ← Nat.pow_mod, ← Nat.pow_mul, Nat.mul_comm]
  have e' : beNat z' = 2 ^ (beNat priv * beNat priv') % primeOf g := by
    rw [h5', h2, ← Nat.pow_mod, ← Nat.pow_mul]
  have : z' = z := by
    rw [← beBytes_beNat z, ← beBytes_beNat z', h4, h4', e, e']
  subst this
  exact ⟨z', h3, h3', h4, e⟩

/-- The primitives of key agreement are the code for the FFDHE groups, with `draws n g` the random numbers for the `n`-th use. -/
structure UsesFfdhe (D : Dh) (draws : Nat → Nat → List (Option Nat)) : Prop where
  gen : ∀ n g, isFfdhe g = true → D.gen n g = match ffdheKeyShare g (draws n g) with | .ok kp => some kp | _ => none
  mul : ∀ g pub priv, isFfdhe g = true → pub.length = keyExchangeSize g → ffdheAgreement g pub priv = .ok (D.mul g pub priv)

/-- A random number generator that gives a public key of full length in the end. -/
def Draws (g : Nat) (ds : List (Option Nat)) : Prop :=
  ∃ (pre : List Nat) (x : Nat) (rest : List (Option Nat)), ds = pre.map some ++ some x :: rest ∧ byteLen (2 ^ x % primeOf g) = byteLen (primeOf g)

theorem draws_ok {g : Nat} {ds : List (Option Nat)} (h : Draws g ds) : ∃ x y, ffdheShare (primeOf g) ds = .ok (x, y) := by
  obtain ⟨pre, x, rest, rfl, h⟩ := h
  induction pre with
  | nil => exact ⟨x, _, by rw [List.map_nil, List.nil_append, ffdheShare, if_pos (by rw [bigBytes_length, bigBytes_length]; exact h)]⟩
  | cons a pre ih =>
    rw [List.map_cons, List.cons_append, ffdheShare]
    split
    · exact ⟨_, _, rfl⟩
    · exact ih

/-- C91: what is assumed of groups elsewhere holds of the finite field groups. -/
theorem C91_works (D : Dh) (draws : Nat → Nat → List (Option Nat)) (hD : UsesFfdhe D draws) (g : UInt16) (hg : isFfdhe g.toNat = true)
    (random : ∀ n, Draws g.toNat (draws n g.toNat)) : DhWorks D g := by
  have hnc : isCurve g.toNat = false := by
    rcases isFfdhe_cases hg with h | h | h | h | h <;> rw [h] <;> rfl
  have hshare : ∀ n, newKeyShare D n g.toNat = match ffdheKeyShare g.toNat (draws n g.toNat) with | .ok kp => .ok kp | _ => .err .msg := by
    intro n
    rw [newKeyShare, if_pos (by simp [hg]), hD.gen n _ hg]
    cases ffdheKeyShare g.toNat (draws n g.toNat) <;> rfl
  have hsize : ∀ n pub priv, newKeyShare D n g.toNat = .ok (pub, priv) → ffdheKeyShare g.toNat (draws n g.toNat) = .ok (pub, priv) := by
    intro n pub priv h
    rw [hshare] at h
    split at h
    · rename_i h1; rw [h1]; exact h
    · cases h
  refine ⟨fun n => ?_, fun n pub priv n' pub' priv' h h' => ?_⟩
  · obtain ⟨x, y, h1⟩ := draws_ok (random n)
    obtain ⟨hp, hb⟩ := prime_bounds hg
    obtain ⟨-, rfl, -⟩ := ffdheShare_ok h1
    obtain ⟨b, h3, -, -⟩ := padTo_ok (k := keyExchangeSize g.toNat) (n := 2 ^ x % primeOf g.toNat) (lt_trans (Nat.mod_lt _ (by omega)) hb)
    refine ⟨b, bigBytes x, ?_⟩
    rw [hshare, show ffdheKeyShare g.toNat (draws n g.toNat) = .ok (b, bigBytes x) by simp [ffdheKeyShare, h1, h3]]
  · have h := hsize _ _ _ h
    have h' := hsize _ _ _ h'
    obtain ⟨-, h1, -⟩ := C91_share _ hg _ _ _ h
    obtain ⟨-, h1', -⟩ := C91_share _ hg _ _ _ h'
    obtain ⟨z, h2, h3, -⟩ := C91_agree _ hg _ _ _ _ _ _ h h'
    rw [hD.mul _ _ _ hg h1', Res.ok.injEq] at h2
    rw [hD.mul _ _ _ hg h1, Res.ok.injEq] at h3
    refine ⟨z, ?_, ?_⟩
    · simp [keyAgreement, hnc, hg, h1', h2]
    · simp [keyAgreement, hnc, hg, h1, h3]

/-- C91 fails: shares that a peer must not accept are accepted, and determine the secret, whatever the private key is: with the
share 0 it is 0, with 1 it is 1. -/
theorem C91_range_fails (g : Nat) (hg : isFfdhe g = true) (v : Nat) (hv : v = 0 ∨ v = 1) :
    ∃ pub z, pub.length = keyExchangeSize g ∧ ¬ ValidShare (primeOf g) pub ∧ beNat z = v ∧
      ∀ priv, beNat priv ≠ 0 → ffdheAgreement g pub priv = .ok z := by
  obtain ⟨hp, hb⟩ := prime_bounds hg
  obtain ⟨pub, h1, h2, h3⟩ := padTo_ok (k := keyExchangeSize g) (n := v) (by omega)
  refine ⟨pub, pub, h2, fun h => ?_, h3, fun priv hpriv => ?_⟩
  · have := h.1; omega
  · rw [ffdheAgreement, if_neg (by simpa using h2), h3]
    have : v ^ beNat priv % primeOf g = v := by
      rcases hv with rfl | rfl
      · rw [Nat.zero_pow (Nat.pos_of_ne_zero hpriv), Nat.zero_mod]
      · rw [Nat.one_pow, Nat.mod_eq_of_lt (by omega)]
    rw [this, h1]

/-- X25519 (29) fails likewise: RFC 8446, 7.4.2, wants a check that the secret is not all zeros; there is none. -/
theorem C91_zero_fails (D : Dh) (pub priv : Bytes) (size : pub.length = 32) (zero : D.mul 29 pub priv = List.replicate 32 0) :
    keyAgreement D 29 pub priv = .ok (List.replicate 32 0) := by
  simp [keyAgreement, isCurve, isFfdhe, keyExchangeSize, size, zero]

/-! ### The primes -/

/-- n! and n! times the sum of 1/i! for i up to n. -/
def expSum : Nat → Nat × Nat
  | 0 => (1, 1)
  | n + 1 => ((n + 1) * (expSum n).1, (n + 1) * (expSum n).2 + 1)

theorem expSum_fst (n : Nat) : (expSum n).1 = n.factorial := by
  induction n with
  | zero => rfl
  | succ n ih => rw [expSum, Nat.factorial, ih]

theorem expSum_sum (n : Nat) : ∑ i ∈ Finset.range (n + 1), (1 : ℝ) ^ i / i.factorial = (expSum n).2 / n.factorial := by
  induction n with
  | zero => simp [expSum]
  | succ n ih =>
    have h1 : (n.factorial : ℝ) ≠ 0 := by exact_mod_cast n.factorial_ne_zero
    have h2 : ((n : ℝ) + 1) ≠ 0 := by positivity
    rw [Finset.sum_range_succ, ih, expSum, Nat.factorial]
    push_cast
    field_simp
    ring

theorem floor_exp {k n N : Nat} (h1 : N * (expSum n).1 ≤ 2 ^ k * (expSum n).2)
    (h2 : 2 ^ k * ((expSum n).2 * ((n + 1) * (n + 1)) + (n + 2)) < (N + 1) * ((expSum n).1 * ((n + 1) * (n + 1)))) :
    ⌊(2 : ℝ) ^ k * Real.exp 1⌋₊ = N := by
  have hl := Real.sum_le_exp_of_nonneg (x := 1) (by norm_num) (n + 1)
  have hu := Real.exp_bound' (x := 1) (by norm_num) (by norm_num) (n := n + 1) (by omega)
  rw [expSum_sum] at hl hu
  rw [expSum_fst] at h1 h2
  have hf : (0 : ℝ) < n.factorial := by exact_mod_cast n.factorial_pos
  have h2k : (0 : ℝ) < 2 ^ k := by positivity
  rw [Nat.floor_eq_iff (by positivity)]
  constructor
  · have h1' : (N : ℝ) * n.factorial ≤ 2 ^ k * (expSum n).2 := by exact_mod_cast h1
    calc (N : ℝ) ≤ 2 ^ k * ((expSum n).2 / n.factorial) := by rw [mul_div_assoc', le_div_iff₀ hf]; exact h1'
      _ ≤ _ := by gcongr
  · have h2' : (2 : ℝ) ^ k * ((expSum n).2 * ((n + 1) * (n + 1)) + (n + 2)) < (N + 1) * (n.factorial * ((n + 1) * (n + 1))) := by
      exact_mod_cast h2
    have hfs : (((n + 1).factorial : ℕ) : ℝ) = (n + 1) * n.factorial := by rw [Nat.factorial]; push_cast; ring
    rw [hfs] at hu
    push_cast at hu
    have hd : (0 : ℝ) < n.factorial * ((n + 1) * (n + 1)) := by positivity
    calc (2 : ℝ) ^ k * Real.exp 1 ≤ 2 ^ k * ((expSum n).2 / n.factorial + 1 ^ (n + 1) * (n + 1 + 1) / ((n + 1) * n.factorial * (n + 1))) := by
          gcongr
      _ = 2 ^ k * ((expSum n).2 * ((n + 1) * (n + 1)) + (n + 2)) / (n.factorial * ((n + 1) * (n + 1))) := by
          field_simp
          ring
      _ < _ := by rw [div_lt_iff₀ hd]; exact h2'

/-- The integer that has to be the one in the formula for the prime. -/
def middle (p b X : Nat) : Nat := (p + 1 + 2 ^ (b - 64) - 2 ^ b) / 2 ^ 64 - X

theorem prime_is {p b X n : Nat}
    (h : 2 ^ b - 2 ^ (b - 64) + (middle p b X + X) * 2 ^ 64 - 1 = p)
    (h1 : middle p b X * (expSum n).1 ≤ 2 ^ (b - 130) * (expSum n).2)
    (h2 : 2 ^ (b - 130) * ((expSum n).2 * ((n + 1) * (n + 1)) + (n + 2)) < (middle p b X + 1) * ((expSum n).1 * ((n + 1) * (n + 1)))) :
    p = rfcPrime b X := by
  rw [rfcPrime, floor_exp h1 h2, h]

theorem prime2048_is : prime2048 = rfcPrime 2048 560316 :=
  prime_is (n := 350) (by decide +kernel) (by decide +kernel) (by decide +kernel)

theorem prime3072_is : prime3072 = rfcPrime 3072 2625351 :=
  prime_is (n := 500) (by decide +kernel) (by decide +kernel) (by decide +kernel)

theorem prime4096_is : prime4096 = rfcPrime 4096 5736041 :=
  prime_is (n := 620) (by decide +kernel) (by decide +kernel) (by decide +kernel)

theorem prime6144_is : prime6144 = rfcPrime 6144 15705020 :=
  prime_is (n := 860) (by decide +kernel) (by decide +kernel) (by decide +kernel)

theorem prime8192_is : prime8192 = rfcPrime 8192 10965728 :=
  prime_is (n := 1100) (by decide +kernel) (by decide +kernel) (by decide +kernel)

/-- C91: the primes are those RFC 7919 defines by the digits of e; each has exactly the size of the shares of its group; and 2 is a
quadratic residue modulo each if it is a prime (it is 7 modulo 8). -/
theorem C91_primes : ∀ q ∈ rfcGroups, primeOf q.1 = rfcPrime q.2.1 q.2.2 ∧ keyExchangeSize q.1 * 8 = q.2.1 ∧
    2 ^ (q.2.1 - 1) ≤ primeOf q.1 ∧ primeOf q.1 < 2 ^ q.2.1 ∧ primeOf q.1 % 8 = 7 := by
  intro q hq
  simp only [rfcGroups, List.mem_cons, List.not_mem_nil, or_false] at hq
  rcases hq with rfl | rfl | rfl | rfl | rfl
  · exact ⟨prime2048_is, rfl, by decide +kernel, by decide +kernel, by decide +kernel⟩
  · exact ⟨prime3072_is, rfl, by decide +kernel, by decide +kernel, by decide +kernel⟩
  · exact ⟨prime4096_is, rfl, by decide +kernel, by decide +kernel, by decide +kernel⟩
  · exact ⟨prime6144_is, rfl, by decide +kernel, by decide +kernel, by decide +kernel⟩
  · exact ⟨prime8192_is, rfl, by decide +kernel, by decide +kernel, by decide +kernel⟩

/-! ### The hypotheses are met -/

/-- The code as primitives, with these random numbers. -/
def ffdheDh (draws : Nat → Nat → List (Option Nat)) : Dh where
  gen n g := match ffdheKeyShare g (draws n g) with | .ok kp => some kp | _ => none
  point _ _ := false
  mul g pub priv := match ffdheAgreement g pub priv with | .ok z => z | _ => []

theorem ffdheDh_uses (draws : Nat → Nat → List (Option Nat)) : UsesFfdhe (ffdheDh draws) draws := by
  refine ⟨fun _ _ _ => rfl, fun g pub priv hg h => ?_⟩
  obtain ⟨z, hz, -⟩ := (C91_size g hg pub priv).1 h
  simp [ffdheDh, hz]

/-- With a generator that gives 5 (too small), then 2047, ffdhe2048 works; the secret there is not trivial. -/
example : DhWorks (ffdheDh fun _ _ => [some 5, some 2047]) 256 :=
  C91_works _ _ (ffdheDh_uses _) 256 (by decide) fun _ => ⟨[5], 2047, [], rfl, by decide +kernel⟩

example : (∃ pub priv, ffdheKeyShare 256 [some 5, some 2047] = .ok (pub, priv)) ∧ 2 ^ (2047 * 2047) % primeOf 256 ≠ 1 := by
  refine ⟨?_, by decide +kernel⟩
  obtain ⟨pub, priv, h⟩ := (C91_works _ _ (ffdheDh_uses fun _ _ => [some 5, some 2047]) 256 (by decide) fun _ => ⟨[5], 2047, [], rfl, by decide +kernel⟩).gen 0
  refine ⟨pub, priv, ?_⟩
  rw [newKeyShare, if_pos (by decide)] at h
  simp only [ffdheDh, show (256 : UInt16).toNat = 256 from rfl] at h
  cases hk : ffdheKeyShare 256 [some 5, some 2047] with
  | ok v => rw [hk] at h; simpa using h
  | _ => rw [hk] at h; cases h

end Verif.Props
