import Verif.Syntax.Model
import Mathlib.Data.List.Forall2

/-
Vocabulary for stating properties of the `syntax` package. Nothing here mentions the encoder or
decoder.
-/

namespace Verif.Syntax

open Verif

mutual

/-- `t.same a b`: `b` is what a receiver is entitled to see when `a` was sent. Equality, except that
maps are compared as finite maps (any order of entries) and omitted fields arrive as zero. -/
def Ty.same : {α : Type} → Ty α → α → α → Prop
  | _, .uint _, a, b => a = b
  | _, .array _ t, a, b => List.Forall₂ (fun x y => t.same x y) a.1 b.1
  | _, .slice t, a, b => List.Forall₂ (fun x y => t.same x y) a b
  | _, @Ty.map _ _ _ k t, a, b =>
    ∃ l, List.Perm l a ∧ List.Forall₂ (fun x y => k.same x.1 y.1 ∧ t.same x.2 y.2) l b
  | _, .struct fs, a, b => fs.same a b
  | _, .ptr t, a, b =>
    match a, b with
    | none, none => True
    | some x, some y => t.same x y
    | _, _ => False
  | _, .validated t _, a, b => t.same a b
  | _, .custom _, a, b => a = b
  | _, .other _, a, b => a = b

def Fields.same : {α : Type} → Fields α → α → α → Prop
  | _, .nil, _, _ => True
  | _, .cons o t fs, a, b =>
    (if o.skip then b.1 = t.zero else t.same a.1 b.1) ∧ fs.same a.2 b.2

end

mutual

/-- No value of the type has an empty encoding (static condition; `o` are the options in force). -/
def Ty.nonEmpty : {α : Type} → Ty α → Opts → Prop
  | _, .uint _, _ => True
  | _, .array n t, o => n ≠ 0 ∧ t.nonEmpty o
  | _, .slice _, o => o.omitHeader = false
  | _, @Ty.map _ _ _ _ _, o => o.omitHeader = false
  | _, .struct fs, _ => fs.nonEmpty
  | _, .ptr t, o => o.optional = true ∨ t.nonEmpty o
  | _, .validated t _, o => t.nonEmpty o
  | _, .custom c, _ =>
    (∀ v bs, c.marshal v = some bs → bs ≠ []) ∧ (∀ bs v n, c.unmarshal bs = some (v, n) → n ≠ 0)
  | _, .other _, _ => True

def Fields.nonEmpty : {α : Type} → Fields α → Prop
  | _, .nil => False
  | _, .cons o t fs => (o.skip = false ∧ t.nonEmpty o) ∨ fs.nonEmpty

end

mutual

/-- Self-delimiting schemas: no vector without a header, no vector of zero-width elements, map keys
compared by plain equality, validators insensitive to what transport may change, custom codecs that
round-trip in front of any suffix. -/
def Ty.selfDelim : {α : Type} → Ty α → Opts → Prop
  | _, .uint _, _ => True
  | _, .array _ t, o => t.selfDelim o
  | _, .slice t, o => o.omitHeader = false ∧ t.selfDelim o ∧ t.nonEmpty o
  | _, @Ty.map _ _ _ k t, o =>
    o.omitHeader = false ∧ k.selfDelim {} ∧ t.selfDelim {} ∧ (k.nonEmpty {} ∨ t.nonEmpty {}) ∧
      (∀ a b, k.same a b → a = b)
  | _, .struct fs, _ => fs.selfDelim
  | _, .ptr t, o => t.selfDelim o
  | _, .validated t p, o => t.selfDelim o ∧ (∀ a b, t.same a b → p a = true → p b = true)
  | _, .custom c, _ =>
    ∀ v bs rest, c.marshal v = some bs → c.unmarshal (bs ++ rest) = some (v, bs.length)
  | _, .other _, _ => True

def Fields.selfDelim : {α : Type} → Fields α → Prop
  | _, .nil => True
  | _, .cons o t fs => (o.skip = true ∨ t.selfDelim o) ∧ fs.selfDelim

end

mutual

/-- Conditions on values: keys of a map are distinct (true of every Go map), and a `varint` field holds
a value whose varint encoding is no wider than the Go integer (the code only round-trips those). -/
def Ty.good : {α : Type} → Ty α → Opts → α → Prop
  | _, .uint w, o, v => o.varint = true →
      (w.bytes = 1 → w.getNat v < 2 ^ 6) ∧ (w.bytes = 2 → w.getNat v < 2 ^ 14) ∧
      (w.bytes = 4 → w.getNat v < 2 ^ 30)
  | _, .array _ t, o, v => ∀ a ∈ v.1, t.good o a
  | _, .slice t, o, v => ∀ a ∈ v, t.good o a
  | _, @Ty.map _ _ _ k t, _, v =>
    (v.map Prod.fst).Nodup ∧ ∀ e ∈ v, k.good {} e.1 ∧ t.good {} e.2
  | _, .struct fs, _, v => fs.good v
  | _, .ptr t, o, v => ∀ a, v = some a → t.good o a
  | _, .validated t _, o, v => t.good o v
  | _, .custom _, _, _ => True
  | _, .other _, _, _ => True

def Fields.good : {α : Type} → Fields α → α → Prop
  | _, .nil, _ => True
  | _, .cons o t fs, v => (o.skip = true ∨ t.good o v.1) ∧ fs.good v.2

end

mutual

/-- Every custom codec outside vectors reports a count that is the length of the prefix it depends on. -/
def Ty.local' : {α : Type} → Ty α → Prop
  | _, .uint _ => True
  | _, .array _ t => t.local'
  | _, .slice _ => True
  | _, @Ty.map _ _ _ _ _ => True
  | _, .struct fs => fs.local'
  | _, .ptr t => t.local'
  | _, .validated t _ => t.local'
  | _, .custom c => ∀ bs v n, c.unmarshal bs = some (v, n) →
      ∀ suffix, c.unmarshal (bs.take n ++ suffix) = some (v, n)
  | _, .other _ => True

def Fields.local' : {α : Type} → Fields α → Prop
  | _, .nil => True
  | _, .cons _ t fs => t.local' ∧ fs.local'

end

mutual

/-- No vector without a header is reachable. -/
def Ty.headed : {α : Type} → Ty α → Opts → Prop
  | _, .uint _, _ => True
  | _, .array _ t, o => t.headed o
  | _, .slice _, o => o.omitHeader = false
  | _, @Ty.map _ _ _ _ _, o => o.omitHeader = false
  | _, .struct fs, _ => fs.headed
  | _, .ptr t, o => t.headed o
  | _, .validated t _, o => t.headed o
  | _, .custom _, _ => True
  | _, .other _, _ => True

def Fields.headed : {α : Type} → Fields α → Prop
  | _, .nil => True
  | _, .cons o t fs => (o.skip = true ∨ t.headed o) ∧ fs.headed

end

mutual

/-- Schemas on which decoding cannot crash or hang: no `optional` pointers, no vectors of zero-width
elements, no negative `min` tags. -/
def Ty.robust : {α : Type} → Ty α → Opts → Prop
  | _, .uint _, _ => True
  | _, .array _ t, o => t.robust o
  | _, .slice t, o => 0 ≤ o.minSize ∧ t.robust o ∧ t.nonEmpty o
  | _, @Ty.map _ _ _ k t, o =>
    0 ≤ o.minSize ∧ k.robust {} ∧ t.robust {} ∧ (k.nonEmpty {} ∨ t.nonEmpty {})
  | _, .struct fs, _ => fs.robust
  | _, .ptr t, o => o.optional = false ∧ t.robust o
  | _, .validated t _, o => t.robust o
  | _, .custom _, _ => True
  | _, .other _, _ => True

def Fields.robust : {α : Type} → Fields α → Prop
  | _, .nil => True
  | _, .cons o t fs => (o.skip = true ∨ t.robust o) ∧ fs.robust

end

mutual

/-- Every component whose type has a validity check passes it. -/
def Ty.allValid : {α : Type} → Ty α → α → Prop
  | _, .uint _, _ => True
  | _, .array _ t, v => ∀ a ∈ v.1, t.allValid a
  | _, .slice t, v => ∀ a ∈ v, t.allValid a
  | _, @Ty.map _ _ _ k t, v => ∀ e ∈ v, k.allValid e.1 ∧ t.allValid e.2
  | _, .struct fs, v => fs.allValid v
  | _, .ptr t, v => ∀ a, v = some a → t.allValid a
  | _, .validated t p, v => p v = true ∧ t.allValid v
  | _, .custom _, _ => True
  | _, .other _, _ => True

def Fields.allValid : {α : Type} → Fields α → α → Prop
  | _, .nil, _ => True
  | _, .cons o t fs, v => (o.skip = true ∨ t.allValid v.1) ∧ fs.allValid v.2

end

mutual

/-- Schemas with one encoding per value: no varints, maps, custom codecs, omitted fields, and no
optional/nil ambiguity. `head=none` vectors are allowed. -/
def Ty.fixed : {α : Type} → Ty α → Opts → Prop
  | _, .uint _, o => o.varint = false
  | _, .array _ t, o => t.fixed o
  | _, .slice t, o => o.varintHeader = false ∧ o.headerSize ≤ 8 ∧ t.fixed o
  | _, @Ty.map _ _ _ _ _, _ => False
  | _, .struct fs, _ => fs.fixed
  | _, .ptr t, o => t.fixed o
  | _, .validated t _, o => t.fixed o
  | _, .custom _, _ => False
  | _, .other _, _ => True

def Fields.fixed : {α : Type} → Fields α → Prop
  | _, .nil => True
  | _, .cons o t fs => o.skip = false ∧ t.fixed o ∧ fs.fixed

end

end Verif.Syntax
