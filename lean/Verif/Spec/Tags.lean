import Verif.Syntax.Tags

/-
Reference reading of `tls:"…"` tags: a list of settings, rendered as text and separated by commas.
-/

namespace Verif.Syntax

/-- The settings a tag can contain; a number is given by its digits. -/
inductive Setting where
  | varint | optional | omit
  | headNone | headVarint
  | head (ds : List Char) | min (ds : List Char) | max (ds : List Char)

/-- Concrete syntax of a setting. -/
def Setting.render : Setting → List Char
  | .varint => "varint".toList
  | .optional => "optional".toList
  | .omit => "omit".toList
  | .headNone => "head=none".toList
  | .headVarint => "head=varint".toList
  | .head ds => "head=".toList ++ ds
  | .min ds => "min=".toList ++ ds
  | .max ds => "max=".toList ++ ds

/-- Digits only, at least one, at most eighteen (so the value fits an `int`). -/
def Setting.wf : Setting → Prop
  | .head ds | .min ds | .max ds => ds ≠ [] ∧ (∀ c ∈ ds, c.isDigit = true) ∧ ds.length ≤ 18
  | _ => True

/-- Decimal value. -/
def decVal (ds : List Char) : Nat := ds.foldl (fun n c => n * 10 + (c.toNat - 48)) 0

/-- Meaning of a setting. -/
def Setting.apply (o : Opts) : Setting → Opts
  | .varint => { o with varint := true }
  | .optional => { o with optional := true }
  | .omit => { o with skip := true }
  | .headNone => { o with omitHeader := true }
  | .headVarint => { o with varintHeader := true }
  | .head ds => { o with headerSize := decVal ds }
  | .min ds => { o with minSize := decVal ds }
  | .max ds => { o with maxSize := decVal ds }

/-- Text of a tag. -/
def renderTag : List Setting → List Char
  | [] => []
  | [s] => s.render
  | s :: ss => s.render ++ ',' :: renderTag ss

/-- Options that contradict each other. -/
def Opts.conflict (o : Opts) : Prop :=
  (o.omitHeader = true ∧ o.varintHeader = true) ∨
  ((o.omitHeader = true ∨ o.varintHeader = true) ∧ o.headerSize > 0) ∨
  ((o.omitHeader = true ∨ o.varintHeader = true ∨ o.headerSize > 0 ∨ o.maxSize > 0 ∨ o.minSize > 0) ∧
    (o.varint = true ∨ o.optional = true ∨ o.skip = true)) ∨
  (o.varint = true ∧ o.optional = true) ∨
  ((o.varint = true ∨ o.optional = true) ∧ o.skip = true) ∨
  (o.maxSize > 0 ∧ o.minSize > o.maxSize)

end Verif.Syntax
