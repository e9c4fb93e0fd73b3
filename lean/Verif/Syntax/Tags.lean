import Verif.Syntax.Model

/-
Model of tag parsing (syntax/tags.go:113-173). Tag strings are lists of characters.
-/

namespace Verif.Syntax

open Verif

/-- `strings.Split(s, sep)` for a one-character separator. -/
def splitC (c : Char) : List Char → List (List Char)
  | [] => [[]]
  | x :: xs =>
    if x = c then [] :: splitC c xs
    else match splitC c xs with
      | p :: ps => (x :: p) :: ps
      | [] => [[x]]

/-- Value of a decimal digit string; `none` if some character is not a digit. -/
def digitsVal : Nat → List Char → Option Nat
  | acc, [] => some acc
  | acc, c :: cs =>
    if '0' ≤ c ∧ c ≤ '9' then digitsVal (acc * 10 + (c.toNat - '0'.toNat)) cs else none

/-- `strconv.Atoi` (used at syntax/tags.go:110-116): optional sign, decimal digits, 64-bit range. -/
def atoi (s : List Char) : Option Int :=
  let parse (neg : Bool) (ds : List Char) : Option Int :=
    if ds = [] then none
    else match digitsVal 0 ds with
      | none => none
      | some n =>
        if neg then (if n ≤ 2 ^ 63 then some (-(n : Int)) else none)
        else (if n < 2 ^ 63 then some (n : Int) else none)
  match s with
  | '-' :: ds => parse true ds
  | '+' :: ds => parse false ds
  | ds => parse false ds

/-- One iteration of the loop in parseTag (syntax/tags.go:123-164). -/
def applyToken (o : Opts) (tok : List Char) : Res Opts :=
  match splitC '=' tok with
  | [name] =>
    if name = "varint".toList then .ok { o with varint := true }
    else if name = "optional".toList then .ok { o with optional := true }
    else if name = "omit".toList then .ok { o with skip := true }
    else .ok o
  | [name, val] =>
    if name = [] ∨ val = [] then .err .msg
    else if name = "head".toList then
      if val = "none".toList then .ok { o with omitHeader := true }
      else if val = "varint".toList then .ok { o with varintHeader := true }
      else match atoi val with
        | some n => .ok { o with headerSize := n }
        | none => .err .msg
    else if name = "min".toList then
      match atoi val with
      | some n => .ok { o with minSize := n }
      | none => .err .msg
    else if name = "max".toList then
      match atoi val with
      | some n => .ok { o with maxSize := n }
      | none => .err .msg
    else .ok o
  | _ => .err .msg

/-- The loop over the comma-separated tokens. -/
def applyTokens : Opts → List (List Char) → Res Opts
  | o, [] => .ok o
  | o, t :: ts => (applyToken o t).bind fun o' => applyTokens o' ts

/-- syntax/tags.go:121-173 `parseTag`. -/
def parseTag (tag : List Char) : Res Opts :=
  (applyTokens {} (splitC ',' tag)).bind fun o => if o.consistent then .ok o else .err .msg

/-! ### Facts about splitting -/

theorem splitC_ne_nil (c : Char) (s : List Char) : splitC c s ≠ [] := by
  cases s with
  | nil => simp [splitC]
  | cons x xs =>
    rw [splitC]
    split
    · simp
    · split <;> simp

theorem splitC_no_sep {c : Char} {s : List Char} (h : c ∉ s) : splitC c s = [s] := by
  induction s with
  | nil => rfl
  | cons x xs ih =>
    simp only [List.mem_cons, not_or] at h
    rw [splitC, if_neg (fun hx => h.1 hx.symm), ih h.2]

theorem splitC_append {c : Char} {p : List Char} (h : c ∉ p) (s : List Char) :
    splitC c (p ++ c :: s) = p :: splitC c s := by
  induction p with
  | nil => simp [splitC]
  | cons x xs ih =>
    simp only [List.mem_cons, not_or] at h
    rw [List.cons_append, splitC, if_neg (fun hx => h.1 hx.symm), ih h.2]

/-- Number of parts. -/
theorem splitC_length (c : Char) (s : List Char) : (splitC c s).length = s.count c + 1 := by
  induction s with
  | nil => rfl
  | cons x xs ih =>
    rw [splitC]
    split
    · rename_i h
      simp [ih, h]
    · rename_i h
      rw [List.count_cons_of_ne h]
      split
      · rename_i p ps hp
        rw [hp] at ih
        simpa using ih
      · rename_i hp
        exact absurd hp (splitC_ne_nil c xs)

theorem applyTokens_append (o : Opts) (xs ys : List (List Char)) :
    applyTokens o (xs ++ ys) = (applyTokens o xs).bind fun o' => applyTokens o' ys := by
  induction xs generalizing o with
  | nil => rfl
  | cons x xs ih =>
    simp only [List.cons_append, applyTokens, Res.bind_assoc]
    congr 1
    funext o'
    exact ih o'

theorem applyToken_safe (o : Opts) (t : List Char) : (applyToken o t).Safe := by
  unfold applyToken
  repeat' split
  all_goals trivial

theorem applyTokens_safe (o : Opts) (ts : List (List Char)) : (applyTokens o ts).Safe := by
  induction ts generalizing o with
  | nil => trivial
  | cons t ts ih => exact Res.safe_bind (applyToken_safe o t) fun o' _ => ih o'

end Verif.Syntax
