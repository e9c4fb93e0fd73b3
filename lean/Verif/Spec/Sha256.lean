import Verif.Spec.KeySchedule

/-
SHA-256 as FIPS 180-4 defines it, over natural numbers below 2^32. Used for the one constant of TLS 1.3 that is defined as a
digest: the Random of a HelloRetryRequest.
-/

namespace Verif.Spec

open Verif

def word32 (n : Nat) : Nat := n % 2 ^ 32

/-- The largest `r` with `f r ≤ n`, for a monotone `f`, among the numbers of `k` bits: one bit after the other. -/
def root (f : Nat → Nat) (n : Nat) : Nat → Nat → Nat
  | 0, r => r
  | k + 1, r => root f n k (if f (r + 2 ^ k) ≤ n then r + 2 ^ k else r)

/-- The first `n` primes. -/
def primes (n : Nat) : List Nat := (((List.range 400).filter fun p => 2 ≤ p ∧ (List.range p).all fun d => d < 2 || p % d != 0)).take n

/-- Section 4.2.2: the first 32 bits of the fractional parts of the cube roots of the first 64 primes. -/
def shaK : List Nat := (primes 64).map fun p => word32 (root (fun r => r * r * r) (p * 2 ^ 96) 40 0)

/-- Section 5.3.3: the first 32 bits of the fractional parts of the square roots of the first 8 primes. -/
def shaH : List Nat := (primes 8).map fun p => word32 (root (fun r => r * r) (p * 2 ^ 64) 40 0)

/-- Section 3.2: rotation to the right. -/
def rotr (n x : Nat) : Nat := word32 ((x >>> n) ||| (x <<< (32 - n)))

/-- Section 4.1.2. -/
def shaCh (x y z : Nat) : Nat := (x &&& y) ^^^ ((2 ^ 32 - 1 - x) &&& z)
def shaMaj (x y z : Nat) : Nat := (x &&& y) ^^^ (x &&& z) ^^^ (y &&& z)
def shaSum0 (x : Nat) : Nat := rotr 2 x ^^^ rotr 13 x ^^^ rotr 22 x
def shaSum1 (x : Nat) : Nat := rotr 6 x ^^^ rotr 11 x ^^^ rotr 25 x
def shaSig0 (x : Nat) : Nat := rotr 7 x ^^^ rotr 18 x ^^^ (x >>> 3)
def shaSig1 (x : Nat) : Nat := rotr 17 x ^^^ rotr 19 x ^^^ (x >>> 10)

/-- Section 5.1.1: a one bit, zeros, and the length in bits. -/
def shaPad (m : Bytes) : Bytes := m ++ 0x80 :: (List.replicate ((119 - m.length % 64) % 64) 0 ++ beBytes 8 (8 * m.length))

/-- Section 6.2.2, step 1: the message schedule, from the 16 words of a block. The list is kept with the newest word first. -/
def shaSchedule : Nat → List Nat → List Nat
  | 0, w => w
  | k + 1, w => shaSchedule k
      (word32 (shaSig1 (w.getD 1 0) + w.getD 6 0 + shaSig0 (w.getD 14 0) + w.getD 15 0) :: w)

/-- Step 3: one round. -/
def shaRound (s : List Nat) (kw : Nat × Nat) : List Nat :=
  match s with
  | [a, b, c, d, e, f, g, h] =>
    let t1 := h + shaSum1 e + shaCh e f g + kw.1 + kw.2
    let t2 := shaSum0 a + shaMaj a b c
    [word32 (t1 + t2), a, b, c, word32 (d + t1), e, f, g]
  | s => s

def wordsOf : Nat → Bytes → List Nat
  | 0, _ => []
  | k + 1, b => beNat (b.take 4) :: wordsOf k (b.drop 4)

/-- Steps 1 to 4: one block. -/
def shaBlock (s : List Nat) (block : Bytes) : List Nat :=
  let w := (shaSchedule 48 (wordsOf 16 block).reverse).reverse
  ((shaK.zip w).foldl shaRound s).zipWith (fun a b => word32 (a + b)) s

def shaBlocks : Nat → List Nat → Bytes → List Nat
  | 0, s, _ => s
  | k + 1, s, m => shaBlocks k (shaBlock s (m.take 64)) (m.drop 64)

/-- SHA-256. -/
def sha256 (m : Bytes) : Bytes := ((shaBlocks ((shaPad m).length / 64) shaH (shaPad m)).map (beBytes 4)).flatten

end Verif.Spec
