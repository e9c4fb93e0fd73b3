import Verif.Syntax.Model

/-
Which tag options make sense on which kind of field.
-/

namespace Verif.Syntax

/-- An option used on a type it has no meaning for: vector options on something that is neither a slice nor a
map, `varint` on a non-integer, `optional` on a non-pointer. -/
def misused (o : Opts) (k : Kind) : Prop :=
  (k ≠ .slice ∧ k ≠ .map ∧
    (o.omitHeader = true ∨ o.varintHeader = true ∨ o.headerSize ≠ 0 ∨ o.minSize ≠ 0 ∨ o.maxSize ≠ 0)) ∨
  (o.varint = true ∧ k ≠ .uint) ∨ (o.optional = true ∧ k ≠ .ptr)

mutual

/-- Some struct field, at any depth, satisfies `P`. Types of omitted fields are not entered. -/
def Ty.anyField (P : Opts → Kind → Prop) : {α : Type} → Ty α → Prop
  | _, .uint _ => False
  | _, .array _ t => t.anyField P
  | _, .slice t => t.anyField P
  | _, @Ty.map _ _ _ k t => k.anyField P ∨ t.anyField P
  | _, .struct fs => fs.anyField P
  | _, .ptr t => t.anyField P
  | _, .validated t _ => t.anyField P
  | _, .custom _ => False
  | _, .other _ => False

def Fields.anyField (P : Opts → Kind → Prop) : {α : Type} → Fields α → Prop
  | _, .nil => False
  | _, .cons o t fs => P o t.kind ∨ (o.skip = false ∧ t.anyField P) ∨ fs.anyField P

end

end Verif.Syntax
