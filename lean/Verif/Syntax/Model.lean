import Verif.Basic

/-
Model of the `syntax` package (syntax/encode.go, syntax/decode.go, syntax/tags.go).

Go's reflection over `reflect.Type` is replaced by recursion over an explicit schema `Ty α`, indexed by
the Lean type `α` of its values. Simplifications:
  * recursive Go types (a struct that contains a pointer to itself) are not representable; the Go code
    does not terminate on them (newTypeDecoder, syntax/decode.go:73-101, recurses on the type);
  * decoding starts from a zeroed target, so `omit`ted fields read as zero
    (in Go they keep whatever the target held);
  * custom (Un)Marshalers are pure functions and report a non-negative count.
-/

namespace Verif.Syntax

open Verif

/-- syntax/tags.go:21-31 `fieldOptions`. -/
structure Opts where
  omitHeader : Bool := false
  varintHeader : Bool := false
  headerSize : Int := 0
  minSize : Int := 0
  maxSize : Int := 0
  varint : Bool := false
  optional : Bool := false
  /-- the `omit` tag (`omit` is a Lean keyword) -/
  skip : Bool := false
  deriving DecidableEq, Repr

/-- Unsigned integer kinds accepted by the codec (syntax/encode.go:74, syntax/decode.go:79). -/
inductive Width where
  | w1 | w2 | w4 | w8
  deriving DecidableEq, Repr

namespace Width

/-- `v.Type().Size()`. -/
def bytes : Width → Nat
  | w1 => 1 | w2 => 2 | w4 => 4 | w8 => 8

/-- The Go integer type. -/
@[reducible] def T : Width → Type
  | w1 => UInt8 | w2 => UInt16 | w4 => UInt32 | w8 => UInt64

/-- `v.Uint()`. -/
def getNat (w : Width) (v : w.T) : Nat :=
  match w, v with
  | w1, v => UInt8.toNat v
  | w2, v => UInt16.toNat v
  | w4, v => UInt32.toNat v
  | w8, v => UInt64.toNat v

/-- `v.SetUint(x)`, which truncates to the width of the kind. -/
def setNat (w : Width) (n : Nat) : w.T :=
  match w with
  | w1 => UInt8.ofNat n
  | w2 => UInt16.ofNat n
  | w4 => UInt32.ofNat n
  | w8 => UInt64.ofNat n

end Width

/-- `reflect.Kind`, as far as ValidForType (syntax/tags.go:71-94) distinguishes. -/
inductive Kind where
  | uint | array | slice | map | struct | ptr | other
  deriving DecidableEq, Repr

/-- A user type with `MarshalTLS`/`UnmarshalTLS` (syntax/encode.go:22-24, syntax/decode.go:24-26).
`none` is a returned error. -/
structure Codec (α : Type) where
  kind : Kind
  zero : α
  marshal : α → Option Bytes
  unmarshal : Bytes → Option (α × Nat)

mutual

/-- Schemas: the Go types the reflection code supports, indexed by their type of values.
Go maps are association lists (in some iteration order); Go pointers are `Option`. -/
inductive Ty : Type → Type 1 where
  /-- uint8/16/32/64 -/
  | uint (w : Width) : Ty w.T
  /-- `[n]T` -/
  | array {α : Type} (n : Nat) (t : Ty α) : Ty { l : List α // l.length = n }
  /-- `[]T` -/
  | slice {α : Type} (t : Ty α) : Ty (List α)
  /-- `map[K]V` -/
  | map {κ ν : Type} [DecidableEq κ] (k : Ty κ) (v : Ty ν) : Ty (List (κ × ν))
  /-- struct -/
  | struct {α : Type} (fs : Fields α) : Ty α
  /-- `*T` -/
  | ptr {α : Type} (t : Ty α) : Ty (Option α)
  /-- a type with `ValidForTLS` (syntax/tags.go:11-13) -/
  | validated {α : Type} (t : Ty α) (p : α → Bool) : Ty α
  /-- a type with its own (un)marshaler -/
  | custom {α : Type} (c : Codec α) : Ty α
  /-- any type the codec does not support (only usable in omitted fields) -/
  | other {α : Type} (zero : α) : Ty α

/-- Struct fields with their parsed tags. -/
inductive Fields : Type → Type 1 where
  | nil : Fields Unit
  | cons {α β : Type} (o : Opts) (t : Ty α) (fs : Fields β) : Fields (α × β)

end

/-! ### Tag checks -/

/-- syntax/tags.go:33-41 `mutuallyExclusive`. -/
def mutuallyExclusive (vals : List Bool) : Bool := (vals.filter id).length ≤ 1

/-- syntax/tags.go:43-69 `Consistent`. -/
def Opts.consistent (o : Opts) : Bool :=
  let headerPaths := [o.omitHeader, o.varintHeader, decide (o.headerSize > 1)]
  let headerOpts := o.omitHeader || o.varintHeader || decide (o.headerSize > 1)
    || decide (o.maxSize > 0) || decide (o.minSize > 0)
  let otherThanOmit := headerOpts || o.varint || o.optional
  mutuallyExclusive headerPaths
    && !(decide (o.maxSize > 0) && decide (o.minSize > o.maxSize))
    && mutuallyExclusive [headerOpts, o.varint, o.optional]
    && mutuallyExclusive [o.skip, otherThanOmit]

/-- `reflect.Type.Kind` of a schema. -/
def Ty.kind : {α : Type} → Ty α → Kind
  | _, .uint _ => .uint
  | _, .array _ _ => .array
  | _, .slice _ => .slice
  | _, @Ty.map _ _ _ _ _ => .map
  | _, .struct _ => .struct
  | _, .ptr _ => .ptr
  | _, .validated t _ => t.kind
  | _, .custom c => c.kind
  | _, .other _ => .other

/-- syntax/tags.go:71-94 `ValidForType`. -/
def Opts.validForKind (o : Opts) (k : Kind) : Bool :=
  let headerType := k == .slice || k == .map
  let headerTags := o.omitHeader || o.varintHeader || o.headerSize != 0 || o.minSize != 0
    || o.maxSize != 0
  !(headerTags && !headerType) && !(o.varint && k != .uint) && !(o.optional && k != .ptr)

mutual

/-- Whether building the encoder/decoder for a type succeeds: every struct tag parses consistently
(syntax/tags.go:166-168) and is valid for its field (syntax/encode.go:284-286,
syntax/decode.go:384-386), and every non-omitted type is supported. -/
def Ty.tagsOk : {α : Type} → Ty α → Bool
  | _, .uint _ => true
  | _, .array _ t => t.tagsOk
  | _, .slice t => t.tagsOk
  | _, @Ty.map _ _ _ k v => k.tagsOk && v.tagsOk
  | _, .struct fs => fs.tagsOk
  | _, .ptr t => t.tagsOk
  | _, .validated t _ => t.tagsOk
  | _, .custom _ => true
  | _, .other _ => false

def Fields.tagsOk : {α : Type} → Fields α → Bool
  | _, .nil => true
  | _, .cons o t fs => o.consistent && o.validForKind t.kind && (o.skip || t.tagsOk) && fs.tagsOk

end

mutual

/-- The zero value of a type (`reflect.New`). -/
def Ty.zero : {α : Type} → Ty α → α
  | _, .uint w => w.setNat 0
  | _, .array n t => ⟨List.replicate n t.zero, by simp⟩
  | _, .slice _ => []
  | _, @Ty.map _ _ _ _ _ => []
  | _, .struct fs => fs.zero
  | _, .ptr _ => none
  | _, .validated t _ => t.zero
  | _, .custom c => c.zero
  | _, .other z => z

def Fields.zero : {α : Type} → Fields α → α
  | _, .nil => ()
  | _, .cons _ t fs => (t.zero, fs.zero)

end

/-! ### Encoding -/

/-- The size in bytes chosen by writeVarint (syntax/encode.go:178-184) for `u < 2^62`. -/
def varintLen (u : Nat) : Nat :=
  if u < 2 ^ 6 then 1 else if u < 2 ^ 14 then 2 else if u < 2 ^ 30 then 4 else 8

/-- The two length bits (syntax/encode.go:186). -/
def varintBits (len : Nat) : Nat :=
  if len = 1 then 0 else if len = 2 then 1 else if len = 4 then 2 else 3

/-- syntax/encode.go:173-189 `writeVarint`. -/
def writeVarint (u : Nat) : Res Bytes :=
  if u >>> 62 > 0 then .err .msg
  else
    let len := varintLen u
    .ok (beBytes len (u ||| (varintBits len <<< (8 * len - 2))))

/-- syntax/encode.go:219-244 `encodeLength`, returning the header bytes. -/
def encodeLength (n : Nat) (o : Opts) : Res Bytes :=
  if o.maxSize > 0 ∧ (n : Int) > o.maxSize then .err .msg
  else if (n : Int) < o.minSize then .err .msg
  else if o.omitHeader then .ok []
  else if o.varintHeader then writeVarint n
  else if o.headerSize > 0 then
    if n >>> (8 * o.headerSize.toNat) > 0 then .err .msg
    else .ok (beBytes o.headerSize.toNat n)
  else .err .msg

/-- syntax/encode.go:205-210 `arrayEncoder.encode`: concatenation of element encodings. -/
def encodeAll {α : Type} (f : α → Res Bytes) : List α → Res Bytes
  | [] => .ok []
  | a :: as => (f a).bind fun x => (encodeAll f as).bind fun y => .ok (x ++ y)

/-- `bytes.Compare(a, b) <= 0`. -/
def bytesLe : Bytes → Bytes → Bool
  | [], _ => true
  | _ :: _, [] => false
  | a :: as, b :: bs => if a.toNat < b.toNat then true else if b.toNat < a.toNat then false else bytesLe as bs

/-- Encodings of the entries of a map, in iteration order (syntax/encode.go:348-358). -/
def encodeEntries {κ ν : Type} (f : κ → Res Bytes) (g : ν → Res Bytes) :
    List (κ × ν) → Res (List (Bytes × Bytes))
  | [] => .ok []
  | (k, v) :: es => (f k).bind fun x => (g v).bind fun y =>
      (encodeEntries f g es).bind fun r => .ok ((x, y) :: r)

/-- syntax/encode.go:360 `sort.Sort(enc)`, ordering entries by encoded key. -/
def sortEntries (es : List (Bytes × Bytes)) : List (Bytes × Bytes) :=
  es.mergeSort (fun a b => bytesLe a.1 b.1)

/-- syntax/encode.go:336-341 `encMap.Encode`. -/
def flattenEntries (es : List (Bytes × Bytes)) : Bytes := (es.map fun e => e.1 ++ e.2).flatten

mutual

/-- newTypeEncoder (syntax/encode.go:67-97) and the per-kind encoders; `o` are the options passed down. -/
def Ty.encode : {α : Type} → Ty α → Opts → α → Res Bytes
  -- uintEncoder, varintEncoder, syntax/encode.go:160-171
  | _, .uint w, o, v =>
    if o.varint then writeVarint (w.getNat v) else .ok (beBytes w.bytes (w.getNat v))
  -- arrayEncoder, syntax/encode.go:205-210
  | _, .array _ t, o, v => encodeAll (fun a => t.encode o a) v.1
  -- sliceEncoder, syntax/encode.go:252-258
  | _, .slice t, o, v =>
    (encodeAll (fun a => t.encode o a) v).bind fun body =>
      (encodeLength body.length o).bind fun hdr => .ok (hdr ++ body)
  -- mapEncoder, syntax/encode.go:343-364
  | _, @Ty.map _ _ _ k t, o, v =>
    (encodeEntries (fun a => k.encode {} a) (fun a => t.encode {} a) v).bind fun es =>
      let body := flattenEntries (sortEntries es)
      (encodeLength body.length o).bind fun hdr => .ok (hdr ++ body)
  -- structEncoder, syntax/encode.go:267-271 (the options of the struct itself are not used)
  | _, .struct fs, _, v => fs.encode v
  -- pointerEncoder, syntax/encode.go:381-396
  | _, .ptr t, o, v =>
    match v with
    | none => if o.optional then .ok [0] else .err .msg
    | some a =>
      if o.optional then (t.encode o a).bind fun x => .ok (1 :: x) else t.encode o a
  -- validatorEncoder, syntax/encode.go:137-156
  | _, .validated t p, o, v => if p v then t.encode o v else .err .msg
  -- marshalerEncoder, syntax/encode.go:106-133
  | _, .custom c, _, v =>
    match c.marshal v with
    | some b => .ok b
    | none => .err .msg
  | _, .other _, _, _ => .err .msg

/-- structEncoder.encode over the fields (syntax/encode.go:267-271); omitted fields write nothing. -/
def Fields.encode : {α : Type} → Fields α → α → Res Bytes
  | _, .nil, _ => .ok []
  | _, .cons o t fs, (a, b) =>
    (if o.skip then .ok [] else t.encode o a).bind fun x =>
      (fs.encode b).bind fun y => .ok (x ++ y)

end

/-- syntax/encode.go:11-18 `Marshal`. -/
def marshal {α : Type} (t : Ty α) (v : α) : Res Bytes :=
  if t.tagsOk then t.encode {} v else .err .msg

/-! ### Decoding -/

/-- syntax/decode.go:199-206 `decodeUintFromBuffer`: accumulates in a uint64. -/
def decodeUint (bs : Bytes) : Nat := beNat bs % 2 ^ 64

/-- syntax/decode.go:178-197 `readVarint`: bytes read, value, remaining buffer. -/
def readVarint : Bytes → Res (Nat × Nat × Bytes)
  | [] => .err .msg
  | first :: tail =>
    let len := 1 <<< (first.toNat >>> 6)
    let rest := tail.take (len - 1)
    if rest.length = len - 1 then
      .ok (len, decodeUint (UInt8.ofNat (first.toNat &&& 0x3f) :: rest), tail.drop (len - 1))
    else .err .msg

/-- `int(x)` for a uint64 `x`. -/
def toInt64 (x : Nat) : Int := if x < 2 ^ 63 then (x : Int) else (x : Int) - 2 ^ 64

/-- The header part of decodeLength (syntax/decode.go:236-258): bytes read, length, remaining buffer. -/
def readHeader (o : Opts) (bs : Bytes) : Res (Nat × Int × Bytes) :=
  if o.omitHeader then .ok (0, (bs.length : Int), bs)
  else if o.varintHeader then
    (readVarint bs).bind fun (r, l, rest) => .ok (r, toInt64 l, rest)
  else if o.headerSize > 0 then
    let n := o.headerSize.toNat
    if (bs.take n).length = n then
      .ok (n, toInt64 (decodeUint (bs.take n)), bs.drop n)
    else .err .msg
  else .err .msg

/-- syntax/decode.go:235-269 `decodeLength`. -/
def decodeLength (o : Opts) (bs : Bytes) : Res (Nat × Int × Bytes) :=
  (readHeader o bs).bind fun (r, l, rest) =>
    if o.maxSize > 0 ∧ l > o.maxSize then .err .msg
    else if l < o.minSize then .err .msg
    else .ok (r, l, rest)

/-- `d.Next(length)` followed by the length check (syntax/decode.go:283-286, 326-329). A negative
length is a slice-bounds panic inside bytes.Buffer.Next. -/
def nextExact (l : Int) (bs : Bytes) : Res (Bytes × Bytes) :=
  if l < 0 then .panic
  else if (bs.take l.toNat).length = l.toNat then .ok (bs.take l.toNat, bs.drop l.toNat)
  else .err .msg

/-- The loops `for elemBuf.Len() > 0` (syntax/decode.go:291-295, 336-345). An iteration that
consumes nothing leaves the same buffer for the next one, so the loop never ends. -/
def decodeMany {β : Type} (f : Bytes → Res (β × Nat × Bytes)) (bs : Bytes) : Res (List β × Nat) :=
  match bs with
  | [] => .ok ([], 0)
  | b :: bt =>
    match f (b :: bt) with
    | .ok (x, n, rest) =>
      if rest.length < (b :: bt).length then
        (decodeMany f rest).bind fun (xs, m) => .ok (x :: xs, n + m)
      else .diverge
    | .err e => .err e
    | .panic => .panic
    | .diverge => .diverge
termination_by bs.length

/-- syntax/decode.go:219-226 `arrayDecoder.decode`. -/
def decodeN {β : Type} (f : Bytes → Res (β × Nat × Bytes)) :
    (n : Nat) → Bytes → Res ({ l : List β // l.length = n } × Nat × Bytes)
  | 0, bs => .ok (⟨[], rfl⟩, 0, bs)
  | n + 1, bs =>
    (f bs).bind fun (x, r, bs1) =>
      (decodeN f n bs1).bind fun (xs, r', bs2) =>
        .ok (⟨x :: xs.1, by simp [xs.2]⟩, r + r', bs2)

/-- `v.Elem().SetMapIndex(key, val)` (syntax/decode.go:344): overwrites an existing key. -/
def mapSet {κ ν : Type} [DecidableEq κ] : List (κ × ν) → κ → ν → List (κ × ν)
  | [], k, v => [(k, v)]
  | (k', v') :: m, k, v => if k' = k then (k, v) :: m else (k', v') :: mapSet m k v

/-- Building the map from the decoded entries in order. -/
def mapOfList {κ ν : Type} [DecidableEq κ] (es : List (κ × ν)) : List (κ × ν) :=
  es.foldl (fun m e => mapSet m e.1 e.2) []

mutual

/-- newTypeDecoder (syntax/decode.go:73-101) and the per-kind decoders: value, bytes read, remaining
buffer. -/
def Ty.decode : {α : Type} → Ty α → Opts → Bytes → Res (α × Nat × Bytes)
  -- uintDecoder, varintDecoder, syntax/decode.go:151-176
  | _, .uint w, o, bs =>
    if o.varint then
      (readVarint bs).bind fun (l, v, rest) =>
        if w.bytes < l then .err .msg else .ok (w.setNat v, l, rest)
    else if (bs.take w.bytes).length = w.bytes then
      .ok (w.setNat (decodeUint (bs.take w.bytes)), w.bytes, bs.drop w.bytes)
    else .err .msg
  | _, .array n t, o, bs => decodeN (fun b => t.decode o b) n bs
  -- sliceDecoder, syntax/decode.go:278-302
  | _, .slice t, o, bs =>
    (decodeLength o bs).bind fun (r, l, bs1) =>
      (nextExact l bs1).bind fun (body, rest) =>
        (decodeMany (fun b => t.decode o b) body).bind fun (vs, m) => .ok (vs, r + m, rest)
  -- mapDecoder, syntax/decode.go:321-348
  | _, @Ty.map _ _ _ k t, o, bs =>
    (decodeLength o bs).bind fun (r, l, bs1) =>
      (nextExact l bs1).bind fun (body, rest) =>
        (decodeMany (fun b =>
          (k.decode {} b).bind fun (x, n, b1) =>
            (t.decode {} b1).bind fun (y, n', b2) => .ok ((x, y), n + n', b2)) body).bind
          fun (es, m) => .ok (mapOfList es, r + m, rest)
  | _, .struct fs, _, bs => fs.decode bs
  -- pointerDecoder, syntax/decode.go:410-431; `flag[0]` on an exhausted buffer is a runtime panic
  | _, .ptr t, o, bs =>
    if o.optional then
      match bs with
      | [] => .panic
      | flag :: bs1 =>
        if flag = 0 then .ok (none, 1, bs1)
        else if flag = 1 then
          (t.decode o bs1).bind fun (x, n, bs2) => .ok (some x, 1 + n, bs2)
        else .err .msg
    else (t.decode o bs).bind fun (x, n, bs2) => .ok (some x, n, bs2)
  -- validatorDecoder, syntax/decode.go:132-147
  | _, .validated t p, o, bs =>
    (t.decode o bs).bind fun (x, n, rest) => if p x then .ok (x, n, rest) else .err .msg
  -- unmarshalerDecoder, syntax/decode.go:111-128
  | _, .custom c, _, bs =>
    match c.unmarshal bs with
    | some (x, n) => if n > bs.length then .err .msg else .ok (x, n, bs.drop n)
    | none => .err .msg
  | _, .other _, _, _ => .err .msg

/-- structDecoder.decode (syntax/decode.go:368-374); omitted fields stay zero. -/
def Fields.decode : {α : Type} → Fields α → Bytes → Res (α × Nat × Bytes)
  | _, .nil, bs => .ok ((), 0, bs)
  | _, .cons o t fs, bs =>
    (if o.skip then .ok (t.zero, 0, bs) else t.decode o bs).bind fun (a, n, bs1) =>
      (fs.decode bs1).bind fun (b, m, bs2) => .ok ((a, b), n + m, bs2)

end

/-- syntax/decode.go:10-17 `Unmarshal`: the value and the number of bytes read. -/
def unmarshal {α : Type} (t : Ty α) (bs : Bytes) : Res (α × Nat) :=
  if t.tagsOk then (t.decode {} bs).bind fun (v, n, _) => .ok (v, n) else .err .msg

end Verif.Syntax
