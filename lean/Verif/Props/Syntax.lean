import Verif.Syntax.Safety
import Verif.Syntax.Canonical
import Verif.Syntax.MapOrder
import Verif.Spec.Tags

/-
Properties C01–C10: the `syntax` package.
-/

namespace Verif.Syntax

open Verif

/-! ### Schemas used in the examples -/

/-- `uint16` -/
abbrev u8 : Ty UInt8 := .uint .w1
abbrev u16 : Ty UInt16 := .uint .w2

/-- `struct { A uint16; B []byte "head=2,min=1,max=300"; C *uint8 "optional"; D map[uint8]uint16 "head=1" }` -/
def demoTy : Ty (UInt16 × List UInt8 × Option UInt8 × List (UInt8 × UInt16) × Unit) :=
  .struct (.cons {} u16 (.cons { headerSize := 2, minSize := 1, maxSize := 300 } (.slice u8)
    (.cons { optional := true } (.ptr u8) (.cons { headerSize := 1 } (.map u8 u16) .nil))))

def demoVal : UInt16 × List UInt8 × Option UInt8 × List (UInt8 × UInt16) × Unit :=
  (0x1234, [7, 8, 9], some 5, [(2, 0x0a0b), (1, 0xffff)], ())

def demoBytes : Bytes := [0x12, 0x34, 0, 3, 7, 8, 9, 1, 5, 6, 1, 0xff, 0xff, 2, 0x0a, 0x0b]

theorem sortEntries_two {a b : Bytes × Bytes} (h : bytesLe a.1 b.1 = false) :
    sortEntries [a, b] = [b, a] := by
  have h' : ((fun a b : Bytes × Bytes => bytesLe a.1 b.1) a b) = false := h
  simp [sortEntries, List.mergeSort, List.MergeSort.Internal.splitInTwo, List.merge, h]

theorem demo_marshal : marshal demoTy demoVal = .ok demoBytes := by
  have hs : sortEntries [([2], [0x0a, 0x0b]), ([1], [0xff, 0xff])] =
      [([1], [0xff, 0xff]), ([2], [0x0a, 0x0b])] := sortEntries_two (by decide)
  have ht : demoTy.tagsOk = true := by decide
  rw [marshal, if_pos ht]
  simp only [demoTy, demoVal, demoBytes, Ty.encode, Fields.encode, encodeEntries, encodeAll, Res.bind_ok, u8, u16]
  have e1 : beBytes Width.w1.bytes (Width.w1.getNat 2) = [2] := by decide
  have e2 : beBytes Width.w1.bytes (Width.w1.getNat 1) = [1] := by decide
  have e3 : beBytes Width.w2.bytes (Width.w2.getNat 0x0a0b) = [0x0a, 0x0b] := by decide
  have e4 : beBytes Width.w2.bytes (Width.w2.getNat 0xffff) = [0xff, 0xff] := by decide
  simp only [Bool.false_eq_true, if_false, Res.bind_ok, e1, e2, e3, e4, hs]
  decide

theorem demo_selfDelim : demoTy.selfDelim {} := by
  simp [demoTy, u8, u16, Ty.selfDelim, Fields.selfDelim, Ty.nonEmpty, Ty.same]

theorem demo_good : demoTy.good {} demoVal := by
  simp [demoTy, demoVal, u8, u16, Ty.good, Fields.good]

/-! ### C01 -/

/-- C01. What `Marshal` produced, followed by anything, is read back by `Unmarshal` to the same value,
consuming exactly what was produced. `2^63` is the largest length of a Go slice. -/
theorem C01_roundtrip {α : Type} (t : Ty α) (v : α) (bs rest : Bytes) (hd : t.selfDelim {})
    (hg : t.good {} v) (h : marshal t v = .ok bs) (hl : bs.length < 2 ^ 63) :
    ∃ v', unmarshal t (bs ++ rest) = .ok (v', bs.length) ∧ t.same v v' := by
  unfold marshal at h
  split at h
  · rename_i ht
    obtain ⟨v', h1, h2⟩ := Ty.roundTrip t {} v bs rest hd hg h hl
    refine ⟨v', ?_, h2⟩
    simp [unmarshal, ht, h1]
  · simp at h

example : ∃ v', unmarshal demoTy (demoBytes ++ [1, 2, 3]) = .ok (v', 16) ∧ demoTy.same demoVal v' :=
  C01_roundtrip demoTy demoVal demoBytes [1, 2, 3] demo_selfDelim demo_good demo_marshal (by decide)

/-! ### C02 -/

/-- C02. A successful `Unmarshal` consumed no more than its input, and (without head=none vectors) anything
may follow the consumed bytes without changing the outcome. -/
theorem C02_prefix_determinacy {α : Type} (t : Ty α) (bs : Bytes) (v : α) (n : Nat)
    (h : unmarshal t bs = .ok (v, n)) :
    n ≤ bs.length ∧
      (t.headed {} → t.local' → ∀ suffix, unmarshal t (bs.take n ++ suffix) = .ok (v, n)) := by
  unfold unmarshal at h
  split at h
  · rename_i ht
    simp only [Res.bind_eq_ok] at h
    obtain ⟨⟨v', n', rest⟩, h1, h2⟩ := h
    simp only [Res.ok.injEq, Prod.mk.injEq] at h2
    obtain ⟨rfl, rfl⟩ := h2
    obtain ⟨pre, rfl, rfl, hp⟩ := Ty.consumes t {} _ _ _ _ h1
    refine ⟨by simp, fun hh hl suffix => ?_⟩
    rw [take_append_length]
    simp [unmarshal, ht, hp ⟨hh, hl⟩ suffix]
  · simp at h

/-- A `head=none` vector really is excluded for a reason: it swallows the suffix. -/
theorem C02_headless_depends_on_suffix :
    let t : Ty (List UInt8 × Unit) := .struct (.cons { omitHeader := true } (.slice u8) .nil)
    unmarshal t [1] = .ok (([1], ()), 1) ∧ unmarshal t [1, 2] = .ok (([1, 2], ()), 2) := by
  have key : ∀ bs : Bytes, decodeMany (fun b => u8.decode { omitHeader := true } b) bs = .ok (bs, bs.length) := by
    intro bs
    induction bs with
    | nil => exact decodeMany_nil _
    | cons b bs ih =>
      have h1 : u8.decode { omitHeader := true } (b :: bs) = .ok (b, 1, bs) := by
        simp [u8, Ty.decode, Width.bytes, Width.setNat, decodeUint, beNat_cons]
      rw [decodeMany_step h1 (by simp), ih]
      simp [Nat.add_comm]
  have gen : ∀ bs : Bytes,
      (Ty.struct (.cons { omitHeader := true } (.slice u8) .nil) : Ty (List UInt8 × Unit)).decode {} bs
        = .ok ((bs, ()), bs.length, []) := by
    intro bs
    have h1 : decodeLength { omitHeader := true } bs = .ok (0, bs.length, bs) := by
      simp [decodeLength, readHeader]
    have h2 : nextExact (bs.length : Int) bs = .ok (bs, []) := by simp [nextExact]
    rw [Ty.decode, Fields.decode, if_neg (by decide), Ty.decode, h1]
    simp only [Res.bind_ok, h2, key]
    simp [Fields.decode]
  have ht : (Ty.struct (.cons { omitHeader := true } (.slice u8) .nil) : Ty (List UInt8 × Unit)).tagsOk = true := by
    decide
  constructor <;> rw [unmarshal, if_pos ht, gen] <;> rfl

example : ∃ v', unmarshal demoTy (demoBytes ++ [1, 2, 3]) = .ok (v', 16) ∧
    unmarshal demoTy (demoBytes ++ [9]) = .ok (v', 16) := by
  obtain ⟨v', h, -⟩ := C01_roundtrip demoTy demoVal demoBytes [1, 2, 3] demo_selfDelim demo_good
    demo_marshal (by decide)
  exact ⟨v', h, (C02_prefix_determinacy demoTy _ v' _ h).2
    (by simp [demoTy, u8, u16, Ty.headed, Fields.headed])
    (by simp [demoTy, u8, u16, Ty.local', Fields.local']) [9]⟩

/-! ### C03 -/

/-- C03, encoding. An encoded vector is a header and a body; the body length is within the limits and
is what the header says. -/
theorem C03_encode_limits {α : Type} (t : Ty α) (o : Opts) (v : List α) (bs : Bytes)
    (h : (Ty.slice t).encode o v = .ok bs) :
    ∃ hdr body, bs = hdr ++ body ∧ o.minSize ≤ body.length ∧
      (o.maxSize > 0 → (body.length : Int) ≤ o.maxSize) ∧
      (o.omitHeader = true → hdr = []) ∧
      (o.omitHeader = false → o.varintHeader = false →
        (hdr.length : Int) = o.headerSize ∧ beNat hdr = body.length) := by
  simp only [Ty.encode, Res.bind_eq_ok, Res.ok.injEq] at h
  obtain ⟨body, -, hdr, hh, rfl⟩ := h
  obtain ⟨h1, h2, h3⟩ := encodeLength_ok hh
  refine ⟨hdr, body, rfl, h2, h1, ?_, ?_⟩
  · intro ho
    rcases h3 with h3 | h3 | h3
    · exact h3.2
    · simp [ho] at h3
    · simp [ho] at h3
  · intro ho hv
    rcases h3 with h3 | h3 | h3
    · simp [ho] at h3
    · simp [hv] at h3
    · obtain ⟨-, -, hs, hlt, rfl⟩ := h3
      refine ⟨?_, beNat_beBytes_of_lt hlt⟩
      simp; omega

/-- C03, decoding. Whatever vector is accepted, the bytes consumed are a header and a body whose length is
within the limits and is what the header says. -/
theorem C03_decode_limits {α : Type} (t : Ty α) (o : Opts) (v : List α) (bs rest : Bytes) (n : Nat)
    (h : (Ty.slice t).decode o bs = .ok (v, n, rest)) :
    ∃ hdr body, bs = hdr ++ body ++ rest ∧ n = hdr.length + body.length ∧ o.minSize ≤ body.length ∧
      (o.maxSize > 0 → (body.length : Int) ≤ o.maxSize) ∧
      (o.omitHeader = true → hdr = []) ∧
      (o.omitHeader = false → o.varintHeader = false → o.headerSize ≤ 8 →
        (hdr.length : Int) = o.headerSize ∧ beNat hdr = body.length) := by
  obtain ⟨pre, rfl, hn, -⟩ := Ty.consumes _ _ _ _ _ _ h
  simp only [Ty.decode, Res.bind_eq_ok] at h
  obtain ⟨⟨r, l, bs1⟩, h1, ⟨body, rest'⟩, h2, ⟨vs, m⟩, h3, h4⟩ := h
  simp only [Res.ok.injEq, Prod.mk.injEq] at h4
  obtain ⟨rfl, rfl, rfl⟩ := h4
  dsimp only at h2 h3
  obtain ⟨hl, rfl, hlen⟩ := nextExact_ok h2
  obtain ⟨hr, hmax, hmin⟩ := decodeLength_ok h1
  obtain ⟨hdr, he, rfl, -⟩ := decodeLength_consumes h1
  rw [← List.append_assoc, List.append_cancel_right_eq] at he
  subst he
  refine ⟨hdr, body, rfl, by rw [← hn]; simp, by omega, by omega, ?_, ?_⟩
  · intro ho
    simp only [readHeader, ho, if_true, Res.ok.injEq, Prod.mk.injEq] at hr
    exact List.eq_nil_of_length_eq_zero hr.1.symm
  · intro ho hv h8
    simp only [readHeader, ho, hv, Bool.false_eq_true, if_false] at hr
    split at hr
    · rename_i hs
      split at hr
      · rename_i htl
        simp only [Res.ok.injEq, Prod.mk.injEq] at hr
        obtain ⟨hlen', hll, -⟩ := hr
        refine ⟨by omega, ?_⟩
        rw [List.append_assoc, take_append_of_len hlen'.symm, decodeUint_of_length_le (by omega)] at hll
        unfold toInt64 at hll
        split at hll
        · omega
        · have h3 := beNat_lt hdr
          have h4 : 256 ^ hdr.length ≤ 256 ^ 8 := Nat.pow_le_pow_right (by decide) (by omega)
          have h5 : (256 : Nat) ^ 8 = 2 ^ 64 := by decide
          omega
      · simp at hr
    · simp at hr

example : ∃ bs, (Ty.slice u16).encode { headerSize := 1, minSize := 2, maxSize := 4 } [5, 6] = .ok bs :=
  ⟨_, rfl⟩

/-! ### C04 -/

/-- C04. The encoding of a map does not depend on the iteration order. -/
theorem C04_map_order_independent {κ ν : Type} [DecidableEq κ] (k : Ty κ) (t : Ty ν) (o : Opts)
    (v v' : List (κ × ν)) (bs : Bytes) (hs : k.selfDelim {}) (hstrict : ∀ a b, k.same a b → a = b)
    (hg : (Ty.map k t).good o v) (hp : v.Perm v') (hl : bs.length < 2 ^ 63) :
    (Ty.map k t).encode o v = .ok bs ↔ (Ty.map k t).encode o v' = .ok bs := by
  constructor
  · intro h; exact map_encode_perm hs hstrict hg hp h hl
  · intro h
    refine map_encode_perm hs hstrict ?_ hp.symm h hl
    simp only [Ty.good] at hg ⊢
    exact ⟨((hp.map Prod.fst).nodup_iff).mp hg.1, fun e he => hg.2 e (hp.mem_iff.mpr he)⟩

/-- C04. The entries are written in strictly increasing order of encoded keys, each exactly once. -/
theorem C04_map_sorted {κ ν : Type} [DecidableEq κ] (k : Ty κ) (t : Ty ν) (o : Opts)
    (v : List (κ × ν)) (bs : Bytes) (hs : k.selfDelim {}) (hstrict : ∀ a b, k.same a b → a = b)
    (hg : (Ty.map k t).good o v) (h : (Ty.map k t).encode o v = .ok bs) (hl : bs.length < 2 ^ 63) :
    ∃ (hdr : Bytes) (es : List ((κ × ν) × Bytes × Bytes)),
      bs = hdr ++ (es.map fun e => e.2.1 ++ e.2.2).flatten ∧
      (es.map Prod.fst).Perm v ∧
      (∀ e ∈ es, k.encode {} e.1.1 = .ok e.2.1 ∧ t.encode {} e.1.2 = .ok e.2.2) ∧
      es.Pairwise (fun a b => bytesLe a.2.1 b.2.1 = true ∧ a.2.1 ≠ b.2.1) := by
  obtain ⟨hdr, es, he, hn, hh, rfl⟩ := map_encode_ok hs hstrict hg h hl
  have hcomp : Relation.Comp (List.Forall₂ fun (e : _ × _) (b : Bytes × Bytes) =>
      k.encode {} e.1 = .ok b.1 ∧ t.encode {} e.2 = .ok b.2) List.Perm v (sortEntries es) :=
    ⟨es, encodeEntries_forall₂ he, (sortEntries_perm es).symm⟩
  rw [List.forall₂_comp_perm_eq_perm_comp_forall₂] at hcomp
  obtain ⟨l, hperm, hF⟩ := hcomp
  have hnod : ((sortEntries es).map Prod.fst).Nodup :=
    (((sortEntries_perm es).map Prod.fst).nodup_iff).mpr hn
  have hlen := hF.length_eq
  refine ⟨hdr, l.zip (sortEntries es), ?_, ?_, ?_, ?_⟩
  · congr 1
    unfold flattenEntries
    have : (l.zip (sortEntries es)).map (fun e => e.2.1 ++ e.2.2) =
        ((l.zip (sortEntries es)).map Prod.snd).map (fun e => e.1 ++ e.2) := by simp
    rw [this, List.map_snd_zip (by omega)]
  · rw [List.map_fst_zip (by omega)]; exact hperm.symm
  · intro e he'
    exact (List.forall₂_iff_zip.mp hF).2 he'
  · have hp2 : (sortEntries es).Pairwise (fun a b => bytesLe a.1 b.1 = true ∧ a.1 ≠ b.1) :=
      (sortEntries_sorted es).and (List.pairwise_map.mp hnod)
    have : ((l.zip (sortEntries es)).map Prod.snd).Pairwise
        (fun a b => bytesLe a.1 b.1 = true ∧ a.1 ≠ b.1) := by
      rwa [List.map_snd_zip (by omega)]
    exact List.pairwise_map.mp this

example : (Ty.map u8 u16).good {} [(2, 0x0a0b), (1, 0xffff)] ∧
    [((2 : UInt8), (0x0a0b : UInt16)), (1, 0xffff)].Perm [(1, 0xffff), (2, 0x0a0b)] :=
  ⟨by simp [u8, u16, Ty.good], List.Perm.swap _ _ _⟩

/-! ### C05 -/

/-- C05. Varints: exactly the values below 2^62 are accepted, in the shortest form, and read back. -/
theorem C05_varint_exact (u : Nat) :
    ((∃ bs, writeVarint u = .ok bs) ↔ u < 2 ^ 62) ∧
    (∀ bs, writeVarint u = .ok bs →
      (bs.length = 1 ∨ bs.length = 2 ∨ bs.length = 4 ∨ bs.length = 8) ∧
      (bs.length ≤ 1 ↔ u < 2 ^ 6) ∧ (bs.length ≤ 2 ↔ u < 2 ^ 14) ∧ (bs.length ≤ 4 ↔ u < 2 ^ 30) ∧
      ∀ rest, readVarint (bs ++ rest) = .ok (bs.length, u, rest)) := by
  refine ⟨writeVarint_ok_iff u, fun bs h => ?_⟩
  obtain ⟨hu, hlen, -⟩ := writeVarint_eq h
  refine ⟨?_, ?_, ?_, ?_, readVarint_writeVarint h⟩ <;> rw [hlen] <;>
    rcases varintLen_cases u hu with h | h | h | h <;> rw [h.1] <;> omega

/-- C05, last clause, holds for every value that fits the varint range of the integer type. Missing:
the other values that Marshal accepts (see `C05_varint_field_fails`). -/
theorem C05_varint_field_partial (w : Width) (v : w.T) (rest : Bytes)
    (hv : w.getNat v < 2 ^ (8 * w.bytes - 2)) :
    ∃ bs, (Ty.uint w).encode { varint := true } v = .ok bs ∧
      (Ty.uint w).decode { varint := true } (bs ++ rest) = .ok (v, bs.length, rest) := by
  have hlt : w.getNat v < 2 ^ 62 := by
    rcases w.bytes_cases with h | h | h | h <;> rw [h] at hv <;> simp at hv <;> omega
  obtain ⟨bs, hbs⟩ := (writeVarint_ok_iff _).mpr hlt
  refine ⟨bs, by simp [Ty.encode, hbs], ?_⟩
  have hfit : bs.length ≤ w.bytes := by
    refine varint_fits hbs ⟨?_, ?_, ?_⟩ <;> intro h <;> rw [h] at hv <;> simpa using hv
  simp only [Ty.decode, if_true, readVarint_writeVarint hbs, Res.bind_ok]
  rw [if_neg (by omega), w.setNat_getNat]

/-- C05 is violated by the code: a `uint8` varint field holding 64 is marshalled (to two bytes) but
its own encoding is refused by Unmarshal (syntax/decode.go:168-171). -/
theorem C05_varint_field_fails :
    ∃ (t : Ty (UInt8 × Unit)) (v : UInt8 × Unit) (bs : Bytes),
      marshal t v = .ok bs ∧ unmarshal t bs = .err .msg :=
  ⟨.struct (.cons { varint := true } u8 .nil), (64, ()), [0x40, 0x40], by decide, by decide⟩

example : Width.w2.getNat 16383 < 2 ^ (8 * Width.w2.bytes - 2) := by decide

/-! ### C06 -/

/-- C06 for schemas without `optional` pointers, zero-width vector elements and negative `min` tags.
Missing: those schemas (see `C06_crash_fails`, `C06_hang_fails`). -/
theorem C06_unmarshal_safe_partial {α : Type} (t : Ty α) (hr : t.robust {}) (bs : Bytes) :
    (unmarshal t bs).Safe := by
  unfold unmarshal
  split
  · exact Res.safe_bind (Ty.decode_safe t {} hr bs) fun _ _ => trivial
  · trivial

/-- Marshal never crashes, for any schema and value. -/
theorem C06_marshal_safe {α : Type} (t : Ty α) (v : α) : (marshal t v).Safe := by
  unfold marshal
  split
  · exact Ty.encode_safe t {} v
  · trivial

/-- C06 is violated: an `optional` pointer field at the end of the input crashes the decoder
(syntax/decode.go:414-415 indexes `flag[0]` of an empty slice). -/
theorem C06_crash_fails : ∃ (t : Ty (Option UInt8 × Unit)), t.tagsOk = true ∧ unmarshal t [] = .panic :=
  ⟨.struct (.cons { optional := true } (.ptr u8) .nil), by decide, by decide⟩

/-- C06 is violated: a vector of empty structs makes the decoder loop forever on a non-empty body. -/
theorem C06_hang_fails :
    ∃ (t : Ty (List Unit × Unit)), t.tagsOk = true ∧ unmarshal t [1, 0] = .diverge := by
  refine ⟨.struct (.cons { headerSize := 1 } (.slice (.struct .nil)) .nil), by decide, ?_⟩
  have hm : decodeMany (fun b => (Ty.struct Fields.nil).decode { headerSize := 1 } b) [0] = .diverge := by
    rw [decodeMany]
    simp [Ty.decode, Fields.decode]
  have ht : (Ty.struct (.cons { headerSize := 1 } (.slice (.struct .nil)) .nil) : Ty (List Unit × Unit)).tagsOk
      = true := by decide
  rw [unmarshal, if_pos ht]
  have h1 : decodeLength { headerSize := 1 } [1, 0] = .ok (1, 1, [0]) := by decide
  have h2 : nextExact 1 [0] = .ok ([0], []) := by decide
  simp only [Ty.decode, Fields.decode, Bool.false_eq_true, if_false, h1, Res.bind_ok, h2]
  simp only [Ty.decode, Fields.decode] at hm
  rw [hm]
  rfl

example : (Ty.struct (.cons {} u16 (.cons { headerSize := 2, minSize := 1 } (.slice u8) .nil)) :
    Ty (UInt16 × List UInt8 × Unit)).robust {} := by
  simp [u8, u16, Ty.robust, Fields.robust, Ty.nonEmpty]

/-! ### C08 -/

/-- C08, sending. -/
theorem C08_marshal_validates {α : Type} (t : Ty α) (v : α) (bs : Bytes)
    (h : marshal t v = .ok bs) : t.allValid v := by
  unfold marshal at h
  split at h
  · exact Ty.encode_allValid t {} v bs h
  · simp at h

/-- C08, receiving. -/
theorem C08_unmarshal_validates {α : Type} (t : Ty α) (bs : Bytes) (v : α) (n : Nat)
    (h : unmarshal t bs = .ok (v, n)) : t.allValid v := by
  unfold unmarshal at h
  split at h
  · simp only [Res.bind_eq_ok] at h
    obtain ⟨⟨v', n', rest⟩, h1, h2⟩ := h
    simp only [Res.ok.injEq, Prod.mk.injEq] at h2
    obtain ⟨rfl, rfl⟩ := h2
    exact Ty.decode_allValid t {} _ _ _ _ h1
  · simp at h

/-- A validator two levels down: valid values pass, invalid ones are refused in both directions. -/
example :
    let t : Ty (List UInt8 × Unit) :=
      .struct (.cons { headerSize := 1 } (.slice (.validated u8 (fun b => b != 0))) .nil)
    marshal t ([1, 2], ()) = .ok [2, 1, 2] ∧ marshal t ([1, 0], ()) = .err .msg := by decide

/-! ### C09 -/

/-- C09. Equal encodings — more generally an encoding that starts like another one — come from values
that are the same to any receiver. -/
theorem C09_unambiguous {α : Type} (t : Ty α) (v w : α) (bs cs suffix : Bytes) (hd : t.selfDelim {})
    (hv : t.good {} v) (hw : t.good {} w) (h1 : marshal t v = .ok bs) (h2 : marshal t w = .ok cs)
    (hp : cs = bs ++ suffix) (hl : cs.length < 2 ^ 63) :
    suffix = [] ∧ ∃ x, t.same v x ∧ t.same w x := by
  subst hp
  have hl' : bs.length < 2 ^ 63 := by simp at hl; omega
  obtain ⟨x, hx1, hx2⟩ := C01_roundtrip t v bs suffix hd hv h1 hl'
  obtain ⟨y, hy1, hy2⟩ := C01_roundtrip t w (bs ++ suffix) [] hd hw h2 hl
  rw [List.append_nil, hx1] at hy1
  simp only [Res.ok.injEq, Prod.mk.injEq, List.length_append] at hy1
  obtain ⟨rfl, hlen⟩ := hy1
  exact ⟨List.eq_nil_of_length_eq_zero (by omega), x, hx2, hy2⟩

example : ∃ x, demoTy.same demoVal x ∧ demoTy.same demoVal x :=
  (C09_unambiguous demoTy demoVal demoVal demoBytes demoBytes [] demo_selfDelim demo_good demo_good
    demo_marshal demo_marshal (by simp) (by decide)).2

/-! ### C10 -/

/-- C10. Re-encoding what was decoded reproduces the consumed bytes. -/
theorem C10_canonical {α : Type} (t : Ty α) (hf : t.fixed {}) (bs : Bytes) (v : α) (n : Nat)
    (h : unmarshal t bs = .ok (v, n)) : marshal t v = .ok (bs.take n) := by
  unfold unmarshal at h
  split at h
  · rename_i ht
    simp only [Res.bind_eq_ok] at h
    obtain ⟨⟨v', n', rest⟩, h1, h2⟩ := h
    simp only [Res.ok.injEq, Prod.mk.injEq] at h2
    obtain ⟨rfl, rfl⟩ := h2
    obtain ⟨pre, rfl, hp⟩ := Ty.reenc t {} hf _ _ _ _ h1
    obtain ⟨pre', he, rfl, -⟩ := Ty.consumes t {} _ _ _ _ h1
    rw [List.append_cancel_right_eq] at he
    subst he
    rw [take_append_length, marshal, if_pos ht, hp]
  · simp at h

/-- C10, consequence: no two inputs that are consumed completely decode to the same value. -/
theorem C10_injective {α : Type} (t : Ty α) (hf : t.fixed {}) (bs cs : Bytes) (v : α)
    (h1 : unmarshal t bs = .ok (v, bs.length)) (h2 : unmarshal t cs = .ok (v, cs.length)) : bs = cs := by
  have e1 := C10_canonical t hf bs v _ h1
  have e2 := C10_canonical t hf cs v _ h2
  rw [e1] at e2
  simpa using e2

example : (Ty.struct (.cons {} u16 (.cons { headerSize := 2, minSize := 1 } (.slice u8) .nil)) :
    Ty (UInt16 × List UInt8 × Unit)).fixed {} := by
  simp [u8, u16, Ty.fixed, Fields.fixed]

/-! ### C07 -/

theorem digitsVal_eq (ds : List Char) (h : ∀ c ∈ ds, c.isDigit = true) (acc : Nat) :
    digitsVal acc ds = some (ds.foldl (fun n c => n * 10 + (c.toNat - 48)) acc) := by
  induction ds generalizing acc with
  | nil => rfl
  | cons c cs ih =>
    have hc := h c (by simp)
    have h1 : '0' ≤ c ∧ c ≤ '9' := by
      simp only [Char.isDigit, Bool.and_eq_true, decide_eq_true_eq] at hc
      exact hc
    rw [digitsVal, if_pos h1, ih fun c hc => h c (by simp [hc])]
    rfl

theorem decVal_lt (ds : List Char) (h : ∀ c ∈ ds, c.isDigit = true) : decVal ds < 10 ^ ds.length := by
  have key : ∀ (ds : List Char) (acc : Nat), (∀ c ∈ ds, c.isDigit = true) →
      ds.foldl (fun n c => n * 10 + (c.toNat - 48)) acc < (acc + 1) * 10 ^ ds.length := by
    intro ds
    induction ds with
    | nil => intro acc _; simp
    | cons c cs ih =>
      intro acc h
      have hc := h c (by simp)
      have h9 : c.toNat ≤ 57 := by
        simp only [Char.isDigit, Bool.and_eq_true, decide_eq_true_eq] at hc
        exact hc.2
      simp only [List.foldl_cons, List.length_cons]
      refine Nat.lt_of_lt_of_le (ih _ fun c hc => h c (by simp [hc])) ?_
      rw [Nat.pow_succ, Nat.mul_comm (10 ^ cs.length) 10, ← Nat.mul_assoc]
      apply Nat.mul_le_mul_right
      omega
  have := key ds 0 h
  simpa [decVal] using this

theorem isDigit_ne {c : Char} (h : c.isDigit = true) : c ≠ '-' ∧ c ≠ '+' ∧ c ≠ ',' ∧ c ≠ '=' ∧ c ≠ 'n' ∧ c ≠ 'v' := by
  refine ⟨?_, ?_, ?_, ?_, ?_, ?_⟩ <;> rintro rfl <;> revert h <;> decide

theorem atoi_digits (ds : List Char) (h0 : ds ≠ []) (h : ∀ c ∈ ds, c.isDigit = true)
    (hl : ds.length ≤ 18) : atoi ds = some (decVal ds : Int) := by
  have hlt : decVal ds < 2 ^ 63 := by
    refine Nat.lt_of_lt_of_le (decVal_lt ds h) ?_
    exact Nat.le_trans (Nat.pow_le_pow_right (by decide) hl) (by decide)
  have hv : digitsVal 0 ds = some (decVal ds) := digitsVal_eq ds h 0
  cases ds with
  | nil => exact absurd rfl h0
  | cons c cs =>
    obtain ⟨h1, h2, -⟩ := isDigit_ne (h c (by simp))
    unfold atoi
    split
    · rename_i heq; simp at heq; exact absurd heq.1 h1
    · rename_i heq; simp at heq; exact absurd heq.1 h2
    · simp [hv, hlt]

theorem applyToken_render (o : Opts) (s : Setting) (hw : s.wf) :
    applyToken o s.render = .ok (s.apply o) := by
  have num : ∀ (name ds : List Char), '=' ∉ name → ds ≠ [] → (∀ c ∈ ds, c.isDigit = true) →
      splitC '=' (name ++ '=' :: ds) = [name, ds] := by
    intro name ds hn h0 hd
    rw [splitC_append hn, splitC_no_sep]
    intro hmem
    exact (isDigit_ne (hd _ hmem)).2.2.2.1 rfl
  cases s with
  | varint => rfl
  | optional => rfl
  | «omit» => rfl
  | headNone => rfl
  | headVarint => rfl
  | head ds =>
    obtain ⟨h0, hd, hl⟩ := hw
    have hr : (Setting.head ds).render = "head".toList ++ '=' :: ds := rfl
    rw [hr, applyToken, num _ _ (by decide) h0 hd]
    have hnone : ds ≠ "none".toList := by
      rintro rfl; have := hd 'n' (by decide); revert this; decide
    have hvar : ds ≠ "varint".toList := by
      rintro rfl; have := hd 'v' (by decide); revert this; decide
    dsimp only
    rw [if_neg (by simp [h0]), if_pos rfl, if_neg hnone, if_neg hvar, atoi_digits ds h0 hd hl]
    rfl
  | min ds =>
    obtain ⟨h0, hd, hl⟩ := hw
    have hr : (Setting.min ds).render = "min".toList ++ '=' :: ds := rfl
    rw [hr, applyToken, num _ _ (by decide) h0 hd]
    dsimp only
    rw [if_neg (by simp [h0]), if_neg (by decide), if_pos rfl, atoi_digits ds h0 hd hl]
    rfl
  | max ds =>
    obtain ⟨h0, hd, hl⟩ := hw
    have hr : (Setting.max ds).render = "max".toList ++ '=' :: ds := rfl
    rw [hr, applyToken, num _ _ (by decide) h0 hd]
    dsimp only
    rw [if_neg (by simp [h0]), if_neg (by decide), if_neg (by decide), if_pos rfl, atoi_digits ds h0 hd hl]
    rfl

theorem render_no_comma (s : Setting) (hw : s.wf) : ',' ∉ s.render := by
  have num : ∀ (name ds : List Char), ',' ∉ name → (∀ c ∈ ds, c.isDigit = true) → ',' ∉ name ++ ds := by
    intro name ds hn hd hmem
    rcases List.mem_append.mp hmem with h | h
    · exact hn h
    · exact (isDigit_ne (hd _ h)).2.2.1 rfl
  cases s with
  | head ds => exact num _ _ (by decide) hw.2.1
  | min ds => exact num _ _ (by decide) hw.2.1
  | max ds => exact num _ _ (by decide) hw.2.1
  | _ => decide

/-- C07. A well-formed tag is read as exactly the settings it lists (later ones win), and refused
exactly when the code's consistency check fails. -/
theorem parse_faithful (ss : List Setting) (hw : ∀ s ∈ ss, s.wf) :
    parseTag (renderTag ss) =
      (if (ss.foldl Setting.apply {}).consistent then .ok (ss.foldl Setting.apply {}) else .err .msg) := by
  have hsplit : ss ≠ [] → splitC ',' (renderTag ss) = ss.map Setting.render := by
    intro h0
    induction ss with
    | nil => exact absurd rfl h0
    | cons s ss ih =>
      cases ss with
      | nil => exact splitC_no_sep (render_no_comma s (hw s (by simp)))
      | cons s' ss' =>
        rw [renderTag, splitC_append (render_no_comma s (hw s (by simp))),
          ih (fun s hs => hw s (by simp [hs])) (by simp)]
        · rfl
        · simp
  have happly : ∀ (ss : List Setting) (o : Opts), (∀ s ∈ ss, s.wf) →
      applyTokens o (ss.map Setting.render) = .ok (ss.foldl Setting.apply o) := by
    intro ss
    induction ss with
    | nil => intro o _; rfl
    | cons s ss ih =>
      intro o hw
      simp only [List.map_cons, applyTokens, applyToken_render o s (hw s (by simp)), Res.bind_ok,
        List.foldl_cons]
      exact ih _ fun s hs => hw s (by simp [hs])
  unfold parseTag
  cases ss with
  | nil => rfl
  | cons s ss =>
    rw [hsplit (by simp), happly _ _ hw]
    rfl

/-- C07. A tag with a malformed part (two `=`, or an empty name or value) is refused. -/
theorem C07_malformed_refused (before after : List (List Char)) (bad : List Char)
    (hb : ∀ p ∈ before, ',' ∉ p) (ha : ∀ p ∈ after, ',' ∉ p) (hc : ',' ∉ bad)
    (hbad : 2 ≤ bad.count '=' ∨ (∃ v, bad = '=' :: v) ∨ (∃ n, bad = n ++ ['='])) :
    ∀ o, parseTag ((before ++ bad :: after).intersperse [',']).flatten ≠ .ok o := by
  have hsplit : ∀ (ps : List (List Char)), ps ≠ [] → (∀ p ∈ ps, ',' ∉ p) →
      splitC ',' (ps.intersperse [',']).flatten = ps := by
    intro ps
    induction ps with
    | nil => intro h _; exact absurd rfl h
    | cons p ps ih =>
      intro _ h
      cases ps with
      | nil => simp [splitC_no_sep (h p (by simp))]
      | cons q qs =>
        have e : ((p :: q :: qs).intersperse [',']).flatten =
            p ++ ',' :: ((q :: qs).intersperse [',']).flatten := by
          simp [List.intersperse]
        rw [e, splitC_append (h p (by simp)), ih (by simp) fun r hr => h r (by simp [hr])]
  have hbadtok : ∀ o o', applyToken o bad ≠ .ok o' := by
    intro o o' h
    unfold applyToken at h
    rcases hbad with hb | ⟨v, rfl⟩ | ⟨n, rfl⟩
    · have hlen := splitC_length '=' bad
      split at h
      · rename_i heq; rw [heq] at hlen; simp at hlen; omega
      · rename_i heq; rw [heq] at hlen; simp at hlen; omega
      · simp at h
    · have e : splitC '=' ('=' :: v) = [] :: splitC '=' v := by simp [splitC]
      rw [e] at h
      split at h
      · rename_i heq; simp [splitC_ne_nil] at heq
      · rename_i heq
        simp only [List.cons.injEq] at heq
        simp [← heq.1] at h
      · simp at h
    · by_cases hn : '=' ∈ n
      · have hlen := splitC_length '=' (n ++ ['='])
        have : 1 ≤ n.count '=' := List.one_le_count_iff.mpr hn
        simp at hlen
        split at h
        · rename_i heq; rw [heq] at hlen; simp at hlen
        · rename_i heq; rw [heq] at hlen; simp at hlen; omega
        · simp at h
      · rw [splitC_append hn] at h
        simp [splitC] at h
  intro o h
  unfold parseTag at h
  rw [hsplit _ (by simp) (by
    intro p hp
    rcases List.mem_append.mp hp with h | h
    · exact hb p h
    · rcases List.mem_cons.mp h with rfl | h
      · exact hc
      · exact ha p h)] at h
  simp only [Res.bind_eq_ok] at h
  obtain ⟨o1, h1, -⟩ := h
  rw [applyTokens_append] at h1
  simp only [applyTokens, Res.bind_eq_ok] at h1
  obtain ⟨o2, -, o3, h3, -⟩ := h1
  exact hbadtok _ _ h3

theorem consistent_iff (o : Opts) (h1 : o.headerSize ≠ 1) : o.consistent = true ↔ ¬ o.conflict := by
  unfold Opts.consistent Opts.conflict
  have hgt : o.headerSize > 0 ↔ o.headerSize > 1 := by omega
  rw [hgt]
  rcases o with ⟨oh, vh, hs, mn, mx, vi, op, sk⟩
  dsimp only
  by_cases a1 : hs > 1 <;> by_cases a2 : mx > 0 <;> by_cases a3 : mn > 0 <;> by_cases a4 : mn > mx <;>
    cases oh <;> cases vh <;> cases vi <;> cases op <;> cases sk <;>
    simp [mutuallyExclusive, a1, a2, a3, a4]

/-- C07. Contradictory options are refused, provided the fixed header size is not 1. Missing: `head=1`
(see `C07_conflict_fails`). -/
theorem C07_no_conflict_partial (tag : List Char) (o : Opts) (h : parseTag tag = .ok o)
    (h1 : o.headerSize ≠ 1) : ¬ o.conflict := by
  unfold parseTag at h
  simp only [Res.bind_eq_ok] at h
  obtain ⟨o', -, h2⟩ := h
  split at h2
  · rename_i hc
    simp only [Res.ok.injEq] at h2
    subst h2
    exact (consistent_iff o' h1).mp hc
  · simp at h2

/-- C07. A tag made of well-formed settings is read as exactly those settings (later ones win), and is
refused exactly when they contradict each other — for header sizes other than 1. Missing: `head=1`. -/
theorem C07_parse_exact_partial (ss : List Setting) (hw : ∀ s ∈ ss, s.wf)
    (h1 : (ss.foldl Setting.apply {}).headerSize ≠ 1) :
    (¬ (ss.foldl Setting.apply {}).conflict → parseTag (renderTag ss) = .ok (ss.foldl Setting.apply {})) ∧
    ((ss.foldl Setting.apply {}).conflict → parseTag (renderTag ss) = .err .msg) := by
  have h := parse_faithful ss hw
  have hc := consistent_iff _ h1
  refine ⟨fun hn => ?_, fun hn => ?_⟩
  · rw [h, if_pos (hc.mpr hn)]
  · rw [h, if_neg (fun hh => hc.mp hh hn)]

/-- C07. Whatever a tag made of well-formed settings is read as, it is those settings. -/
theorem C07_parse_sound (ss : List Setting) (hw : ∀ s ∈ ss, s.wf) (o : Opts)
    (h : parseTag (renderTag ss) = .ok o) : o = ss.foldl Setting.apply {} := by
  rw [parse_faithful ss hw] at h
  split at h
  · simpa using h.symm
  · simp at h

/-- C07 is violated: because `Consistent` tests `headerSize > 1` (syntax/tags.go:45,56), `head=1` may be
combined with any other header form. -/
theorem C07_conflict_fails :
    ∃ tag o, parseTag tag = .ok o ∧ o.conflict :=
  ⟨"head=1,head=varint".toList, { headerSize := 1, varintHeader := true }, by decide,
    by simp [Opts.conflict]⟩

example : (∀ s ∈ [Setting.head ['2'], .min ['7'], .max ['3', '0', '0']], s.wf) ∧
    parseTag "head=2,min=7,max=300".toList = .ok { headerSize := 2, minSize := 7, maxSize := 300 } := by
  refine ⟨?_, by decide⟩
  intro s hs
  simp only [List.mem_cons, List.not_mem_nil, or_false] at hs
  rcases hs with rfl | rfl | rfl <;> simp [Setting.wf]

end Verif.Syntax
