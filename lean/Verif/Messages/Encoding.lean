import Verif.Messages.Lemmas
import Verif.Spec.Messages

/-
Explicit encodings of the parts of a ClientHello that Truncated depends on.
-/

namespace Verif.Messages

open Verif Verif.Syntax

theorem encodeAll_append {α : Type} {f : α → Res Bytes} : ∀ {xs ys : List α} {bs : Bytes},
    encodeAll f (xs ++ ys) = .ok bs ↔ ∃ a b, encodeAll f xs = .ok a ∧ encodeAll f ys = .ok b ∧ bs = a ++ b
  | [], ys, bs => by simp [encodeAll]
  | x :: xs, ys, bs => by
    simp only [List.cons_append, encodeAll, Res.bind_eq_ok, Res.ok.injEq, encodeAll_append (xs := xs)]
    constructor
    · rintro ⟨c, hc, d, ⟨a, b, ha, hb, rfl⟩, rfl⟩
      exact ⟨c ++ a, b, ⟨c, hc, a, ha, rfl⟩, hb, by simp⟩
    · rintro ⟨_, b, ⟨c, hc, a, ha, rfl⟩, hb, rfl⟩
      exact ⟨c, hc, a ++ b, ⟨a, b, ha, hb, rfl⟩, by simp⟩

theorem encodeAll_bytes (o : Opts) (ho : o.varint = false) : ∀ bs : Bytes,
    encodeAll (fun a => Ty.encode (.uint .w1) o a) bs = .ok bs
  | [] => rfl
  | b :: bs => by
    have h1 : Ty.encode (.uint .w1) o b = .ok [b] := by
      simp only [Ty.encode, ho, Bool.false_eq_true, if_false, Width.bytes, Width.getNat]
      have : beBytes 1 b.toNat = [b] := by simp [beBytes]
      rw [this]
    simp [encodeAll, h1, encodeAll_bytes o ho bs]

theorem encodeLength_fixed {n : Nat} {k : Nat} {mn mx : Int} (hk : 0 < k) {l : Bytes} :
    encodeLength n { headerSize := (k : Int), minSize := mn, maxSize := mx } = .ok l ↔
      ¬ (mx > 0 ∧ (n : Int) > mx) ∧ mn ≤ n ∧ n < 256 ^ k ∧ l = beBytes k n := by
  have hp : (256 : Nat) ^ k = 2 ^ (8 * k) := by rw [show 256 = 2 ^ 8 from rfl, ← Nat.pow_mul]
  unfold encodeLength
  dsimp only
  split
  · rename_i h; simp [h]
  · rename_i h
    split
    · rename_i h2; simp; omega
    · rename_i h2
      simp only [Bool.false_eq_true, if_false, show ((k : Int) > 0) from by omega, if_true, Int.toNat_natCast]
      rw [Nat.shiftRight_eq_div_pow, hp]
      split
      · rename_i h3
        have : ¬ n < 2 ^ (8 * k) := fun h4 => by rw [Nat.div_eq_of_lt h4] at h3; omega
        simp [this]
      · rename_i h3
        have : n < 2 ^ (8 * k) := by
          have h4 : n / 2 ^ (8 * k) = 0 := Nat.le_zero.1 (Nat.not_lt.1 h3)
          rcases Nat.div_eq_zero_iff.1 h4 with h5 | h5
          · exact absurd h5 (Nat.pos_iff_ne_zero.1 (Nat.pow_pos (by decide)))
          · exact h5
        simp only [Res.ok.injEq, h, not_false_eq_true, this, true_and]
        constructor
        · rintro rfl; exact ⟨by omega, rfl⟩
        · rintro ⟨-, rfl⟩; rfl

/-- A byte vector with a header of `k` bytes. -/
theorem bytesTy_encode {k : Nat} {mn mx : Int} (hk : 0 < k) {d x : Bytes} :
    bytesTy.encode { headerSize := (k : Int), minSize := mn, maxSize := mx } d = .ok x ↔
      ¬ (mx > 0 ∧ (d.length : Int) > mx) ∧ mn ≤ d.length ∧ d.length < 256 ^ k ∧ x = beBytes k d.length ++ d := by
  rw [show bytesTy = .slice (.uint .w1) from rfl, Ty.encode, encodeAll_bytes _ rfl]
  simp only [Res.bind_ok, Res.bind_eq_ok, encodeLength_fixed hk, Res.ok.injEq]
  constructor
  · rintro ⟨l, ⟨h1, h2, h3, rfl⟩, rfl⟩; exact ⟨h1, h2, h3, rfl⟩
  · rintro ⟨h1, h2, h3, rfl⟩; exact ⟨_, ⟨h1, h2, h3, rfl⟩, rfl⟩

theorem extTy_encode {o : Opts} {t : UInt16} {d x : Bytes} :
    extTy.encode o (t, d, ()) = .ok x ↔ d.length < 65536 ∧ x = beBytes 2 t.toNat ++ (beBytes 2 d.length ++ d) := by
  have h := fun y => @bytesTy_encode 2 0 0 (by decide) d y
  have hu : Ty.encode (.uint .w2) {} t = .ok (beBytes 2 t.toNat) := rfl
  simp only [Int.cast_ofNat_Int] at h
  simp only [extTy, Ty.encode.eq_5, Fields.encode, Bool.false_eq_true, if_false, hu, Res.bind_eq_ok, Res.ok.injEq]
  constructor
  · rintro ⟨a, rfl, y, ⟨z, hz, w, rfl, rfl⟩, rfl⟩
    obtain ⟨-, -, h3, rfl⟩ := (h _).1 hz
    exact ⟨by simpa using h3, by simp⟩
  · rintro ⟨h3, rfl⟩
    exact ⟨_, rfl, _, ⟨_, (h _).2 ⟨by simp, by omega, by simpa using h3, rfl⟩, [], rfl, rfl⟩, by simp⟩

/-- The ClientHello schemas without their last field. -/
def chTlsHeadTy : Ty (UInt16 × Random × Bytes × List UInt16 × Bytes × Unit) :=
  .struct (.cons {} (.uint .w2) (.cons {} randomTy (.cons { headerSize := 1, maxSize := 32 } bytesTy
    (.cons { headerSize := 2, minSize := 2 } (.slice (.uint .w2)) (.cons { headerSize := 1, minSize := 1 } bytesTy .nil)))))

def chDtlsHeadTy : Ty (UInt16 × Random × Bytes × UInt8 × List UInt16 × Bytes × Unit) :=
  .struct (.cons {} (.uint .w2) (.cons {} randomTy (.cons { headerSize := 1, maxSize := 32 } bytesTy
    (.cons {} (.uint .w1)
      (.cons { headerSize := 2, minSize := 2 } (.slice (.uint .w2)) (.cons { headerSize := 1, minSize := 1 } bytesTy .nil))))))

/-- Encoding of the elements of an extension list. -/
abbrev encExts (exts : List Ext) : Res Bytes := encodeAll (fun a => extTy.encode { headerSize := 2 } a) exts

theorem extsField {exts : List Ext} {x : Bytes} : Ty.encode (.slice extTy) { headerSize := 2 } exts = .ok x ↔
    ∃ E, encExts exts = .ok E ∧ E.length < 65536 ∧ x = beBytes 2 E.length ++ E := by
  have h := fun n y => @encodeLength_fixed n 2 0 0 (by decide) y
  simp only [Int.cast_ofNat_Int] at h
  simp only [Ty.encode, Res.bind_eq_ok, Res.ok.injEq, h]
  constructor
  · rintro ⟨E, hE, l, ⟨-, -, h3, rfl⟩, rfl⟩; exact ⟨E, hE, by simpa using h3, rfl⟩
  · rintro ⟨E, hE, h3, rfl⟩; exact ⟨E, hE, _, ⟨by simp, by omega, by simpa using h3, rfl⟩, rfl⟩

theorem chTls_split {v : UInt16} {r : Random} {sid : Bytes} {cs : List UInt16} {comp : Bytes} {exts : List Ext} {bs : Bytes} :
    marshal chTlsTy (v, r, sid, cs, comp, exts, ()) = .ok bs ↔ ∃ h E, marshal chTlsHeadTy (v, r, sid, cs, comp, ()) = .ok h ∧
      encExts exts = .ok E ∧ E.length < 65536 ∧ bs = h ++ (beBytes 2 E.length ++ E) := by
  have t1 : chTlsTy.tagsOk = true := by decide
  have t2 : chTlsHeadTy.tagsOk = true := by decide
  unfold marshal
  rw [if_pos t1, if_pos t2]
  simp only [chTlsTy, chTlsHeadTy, Ty.encode.eq_5, Fields.encode, Bool.false_eq_true, if_false, Res.bind_eq_ok, Res.ok.injEq, extsField]
  constructor
  · rintro ⟨a, ha, _, ⟨b, hb, _, ⟨c, hc, _, ⟨d, hd, _, ⟨e, he, _, ⟨f, ⟨E, hE, hl, rfl⟩, _, rfl, rfl⟩, rfl⟩, rfl⟩, rfl⟩, rfl⟩, rfl⟩
    exact ⟨_, E, ⟨a, ha, _, ⟨b, hb, _, ⟨c, hc, _, ⟨d, hd, _, ⟨e, he, _, rfl, rfl⟩, rfl⟩, rfl⟩, rfl⟩, rfl⟩, hE, hl, by simp⟩
  · rintro ⟨_, E, ⟨a, ha, _, ⟨b, hb, _, ⟨c, hc, _, ⟨d, hd, _, ⟨e, he, _, rfl, rfl⟩, rfl⟩, rfl⟩, rfl⟩, rfl⟩, hE, hl, rfl⟩
    exact ⟨a, ha, _, ⟨b, hb, _, ⟨c, hc, _, ⟨d, hd, _, ⟨e, he, _, ⟨_, ⟨E, hE, hl, rfl⟩, _, rfl, rfl⟩, rfl⟩, rfl⟩, rfl⟩, rfl⟩, by simp⟩

theorem chDtls_split {v : UInt16} {r : Random} {sid : Bytes} {ck : UInt8} {cs : List UInt16} {comp : Bytes} {exts : List Ext}
    {bs : Bytes} :
    marshal chDtlsTy (v, r, sid, ck, cs, comp, exts, ()) = .ok bs ↔
      ∃ h E, marshal chDtlsHeadTy (v, r, sid, ck, cs, comp, ()) = .ok h ∧
      encExts exts = .ok E ∧ E.length < 65536 ∧ bs = h ++ (beBytes 2 E.length ++ E) := by
  have t1 : chDtlsTy.tagsOk = true := by decide
  have t2 : chDtlsHeadTy.tagsOk = true := by decide
  unfold marshal
  rw [if_pos t1, if_pos t2]
  simp only [chDtlsTy, chDtlsHeadTy, Ty.encode.eq_5, Fields.encode, Bool.false_eq_true, if_false, Res.bind_eq_ok, Res.ok.injEq, extsField]
  constructor
  · rintro ⟨a, ha, _, ⟨b, hb, _, ⟨c, hc, _, ⟨k, hk, _, ⟨d, hd, _, ⟨e, he, _, ⟨f, ⟨E, hE, hl, rfl⟩, _, rfl, rfl⟩, rfl⟩, rfl⟩, rfl⟩, rfl⟩, rfl⟩, rfl⟩
    exact ⟨_, E, ⟨a, ha, _, ⟨b, hb, _, ⟨c, hc, _, ⟨k, hk, _, ⟨d, hd, _, ⟨e, he, _, rfl, rfl⟩, rfl⟩, rfl⟩, rfl⟩, rfl⟩, rfl⟩, hE, hl, by simp⟩
  · rintro ⟨_, E, ⟨a, ha, _, ⟨b, hb, _, ⟨c, hc, _, ⟨k, hk, _, ⟨d, hd, _, ⟨e, he, _, rfl, rfl⟩, rfl⟩, rfl⟩, rfl⟩, rfl⟩, rfl⟩, hE, hl, rfl⟩
    exact ⟨a, ha, _, ⟨b, hb, _, ⟨c, hc, _, ⟨k, hk, _, ⟨d, hd, _, ⟨e, he, _, ⟨_, ⟨E, hE, hl, rfl⟩, _, rfl, rfl⟩, rfl⟩, rfl⟩, rfl⟩, rfl⟩, rfl⟩, by simp⟩

/-- A ClientHello is a part that does not depend on the extensions, followed by the extensions. -/
theorem ClientHello.marshal_split (v : UInt16) (r : Random) (sid : Bytes) (cs : List UInt16) :
    ∃ hd : Res Bytes, ∀ (exts : List Ext) (bs : Bytes), ClientHello.marshal ⟨v, r, sid, cs, exts⟩ = .ok bs ↔
      ∃ h E, hd = .ok h ∧ encExts exts = .ok E ∧ E.length < 65536 ∧ bs = h ++ (beBytes 2 E.length ++ E) := by
  by_cases hv : v = tls12Version
  · refine ⟨Syntax.marshal chTlsHeadTy (v, r, [], cs, [0], ()), fun exts bs => ?_⟩
    simp only [ClientHello.marshal, hv, if_true]
    exact chTls_split
  · refine ⟨Syntax.marshal chDtlsHeadTy (v, r, [], 0, cs, [0], ()), fun exts bs => ?_⟩
    simp only [ClientHello.marshal, hv, if_false]
    exact chDtls_split

theorem binder_encode {o : Opts} {b x : Bytes} : binderTy.encode o (b, ()) = .ok x ↔
    32 ≤ b.length ∧ b.length < 256 ∧ x = beBytes 1 b.length ++ b := by
  have h := fun y => @bytesTy_encode 1 32 0 (by decide) b y
  rw [show ((1 : Nat) : Int) = 1 from rfl] at h
  simp only [binderTy, Ty.encode.eq_5, Fields.encode, Bool.false_eq_true, if_false, Res.bind_eq_ok, Res.ok.injEq]
  constructor
  · rintro ⟨y, hy, z, rfl, rfl⟩
    obtain ⟨-, h2, h3, rfl⟩ := (h _).1 hy
    exact ⟨by omega, by simpa using h3, by simp⟩
  · rintro ⟨h2, h3, rfl⟩
    exact ⟨_, (h _).2 ⟨by simp, by omega, by simpa using h3, rfl⟩, [], rfl, by simp⟩

theorem binders_encodeAll {o : Opts} : ∀ {bl : List BinderEntry} {x : Bytes},
    encodeAll (fun a => binderTy.encode o a) bl = .ok x ↔
      (∀ b ∈ bl, 32 ≤ b.1.length ∧ b.1.length < 256) ∧ x = (bl.map fun b => beBytes 1 b.1.length ++ b.1).flatten
  | [], x => by simp [encodeAll, eq_comm]
  | (b, ()) :: bl, x => by
    simp only [encodeAll, Res.bind_eq_ok, Res.ok.injEq, binders_encodeAll (bl := bl), binder_encode]
    constructor
    · rintro ⟨y, ⟨h1, h2, rfl⟩, z, ⟨h3, rfl⟩, rfl⟩
      exact ⟨by simpa [h1, h2] using h3, by simp⟩
    · rintro ⟨h1, rfl⟩
      have := h1 (b, ()) (by simp)
      exact ⟨_, ⟨this.1, this.2, rfl⟩, _, ⟨fun c hc => h1 c (by simp [hc]), rfl⟩, by simp⟩

theorem bindersField {bl : List BinderEntry} {x : Bytes} :
    Ty.encode (.slice binderTy) { headerSize := 2, minSize := 33 } bl = .ok x ↔
      (∀ b ∈ bl, 32 ≤ b.1.length ∧ b.1.length < 256) ∧ 33 ≤ x.length - 2 ∧ x.length - 2 < 65536 ∧
        x = Spec.binderList (bl.map (·.1)) := by
  have h := fun n y => @encodeLength_fixed n 2 33 0 (by decide) y
  simp only [Int.cast_ofNat_Int] at h
  simp only [Ty.encode, Res.bind_eq_ok, Res.ok.injEq, h, binders_encodeAll]
  constructor
  · rintro ⟨E, ⟨h1, rfl⟩, l, ⟨-, h2, h3, rfl⟩, rfl⟩
    refine ⟨h1, ?_, ?_, ?_⟩
    · rw [List.length_append, beBytes_length]; omega
    · rw [List.length_append, beBytes_length]; simpa using h3
    · simp [Spec.binderList, Function.comp_def]
  · rintro ⟨h1, h2, h3, rfl⟩
    simp only [Spec.binderList, List.length_append, beBytes_length, List.map_map, Function.comp_def, Nat.add_sub_cancel_left] at h2 h3 ⊢
    exact ⟨_, ⟨h1, rfl⟩, _, ⟨by simp, by omega, by simpa using h3, rfl⟩, rfl⟩

/-- The struct of Truncated marshals to the wire format of the binder list. -/
theorem binders_marshal {bl : List BinderEntry} {x : Bytes} : marshal bindersTy (bl, ()) = .ok x ↔
    Ty.encode (.slice binderTy) { headerSize := 2, minSize := 33 } bl = .ok x := by
  have t1 : bindersTy.tagsOk = true := by decide
  unfold marshal
  rw [if_pos t1]
  simp [bindersTy, Ty.encode.eq_5, Fields.encode, Res.bind_eq_ok]

/-- A ClientHello pre_shared_key extension ends in its binder list. -/
theorem pskClient_split {ids : List PskIdentity} {bl : List BinderEntry} {x : Bytes} :
    marshal pskClientTy (ids, bl, ()) = .ok x ↔
      ∃ a b, Ty.encode (.slice pskIdentityTy) { headerSize := 2, minSize := 7 } ids = .ok a ∧
        Ty.encode (.slice binderTy) { headerSize := 2, minSize := 33 } bl = .ok b ∧ x = a ++ b := by
  have t1 : pskClientTy.tagsOk = true := by decide
  unfold marshal
  rw [if_pos t1]
  simp only [pskClientTy, Ty.encode.eq_5, Fields.encode, Bool.false_eq_true, if_false, Res.bind_eq_ok, Res.ok.injEq]
  constructor
  · rintro ⟨a, ha, _, ⟨b, hb, _, rfl, rfl⟩, rfl⟩; exact ⟨a, b, ha, hb, by simp⟩
  · rintro ⟨a, b, ha, hb, rfl⟩; exact ⟨a, ha, _, ⟨b, hb, _, rfl, rfl⟩, by simp⟩

end Verif.Messages
