import Mathlib.Analysis.Complex.Exponential
import Verif.Basic

/-
The finite field groups as RFC 7919 defines them, and what one asks of key agreement in them.
-/

namespace Verif.Spec

open Verif

/-- RFC 7919, appendix A: p = 2^b - 2^(b-64) + {[2^(b-130) e] + X} * 2^64 - 1. -/
noncomputable def rfcPrime (b X : Nat) : Nat := 2 ^ b - 2 ^ (b - 64) + (⌊(2 : ℝ) ^ (b - 130) * Real.exp 1⌋₊ + X) * 2 ^ 64 - 1

/-- Number, size in bits and X of the groups ffdhe2048, ffdhe3072, ffdhe4096, ffdhe6144 and ffdhe8192 (RFC 7919, 2 and appendix A). -/
def rfcGroups : List (Nat × Nat × Nat) :=
  [(0x100, 2048, 560316), (0x101, 3072, 2625351), (0x102, 4096, 5736041), (0x103, 6144, 15705020), (0x104, 8192, 10965728)]

/-- RFC 8446, 4.2.8.1: peers must validate each other's public key. -/
def ValidShare (p : Nat) (pub : Bytes) : Prop := 1 < beNat pub ∧ beNat pub < p - 1

end Verif.Spec
