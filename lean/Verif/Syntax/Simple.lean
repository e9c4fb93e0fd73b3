import Verif.Props.Syntax

/-
The plain schemas used by all handshake messages: fixed-width integers, arrays, vectors with a fixed-size
header, structs. For these the general codec theorems need no side conditions on values.
-/

namespace Verif.Syntax

open Verif

mutual

/-- Decidable version of `Ty.nonEmpty`. -/
def Ty.wide : {α : Type} → Ty α → Opts → Bool
  | _, .uint _, _ => true
  | _, .array n t, o => n != 0 && t.wide o
  | _, .slice _, o => !o.omitHeader
  | _, @Ty.map _ _ _ _ _, _ => false
  | _, .struct fs, _ => fs.wide
  | _, .ptr _, _ => false
  | _, .validated _ _, _ => false
  | _, .custom _, _ => false
  | _, .other _, _ => false

def Fields.wide : {α : Type} → Fields α → Bool
  | _, .nil => false
  | _, .cons o t fs => (!o.skip && t.wide o) || fs.wide

end

mutual

/-- Plain schemas. -/
def Ty.simple : {α : Type} → Ty α → Opts → Bool
  | _, .uint _, o => !o.varint
  | _, .array _ t, o => t.simple o
  | _, .slice t, o => !o.omitHeader && !o.varintHeader && decide (0 ≤ o.minSize) && decide (o.headerSize ≤ 8)
      && t.simple o && t.wide o
  | _, @Ty.map _ _ _ _ _, _ => false
  | _, .struct fs, _ => fs.simple
  | _, .ptr _, _ => false
  | _, .validated _ _, _ => false
  | _, .custom _, _ => false
  | _, .other _, _ => false

def Fields.simple : {α : Type} → Fields α → Bool
  | _, .nil => true
  | _, .cons o t fs => !o.skip && t.simple o && fs.simple

end

mutual

/-- The longest encoding a plain schema can produce. -/
def Ty.maxLen : {α : Type} → Ty α → Opts → Nat
  | _, .uint w, _ => w.bytes
  | _, .array n t, o => n * t.maxLen o
  | _, .slice _, o => o.headerSize.toNat + 256 ^ o.headerSize.toNat
  | _, @Ty.map _ _ _ _ _, _ => 0
  | _, .struct fs, _ => fs.maxLen
  | _, .ptr _, _ => 0
  | _, .validated _ _, _ => 0
  | _, .custom _, _ => 0
  | _, .other _, _ => 0

def Fields.maxLen : {α : Type} → Fields α → Nat
  | _, .nil => 0
  | _, .cons o t fs => t.maxLen o + fs.maxLen

end

mutual

theorem Ty.wide_nonEmpty : {α : Type} → (t : Ty α) → (o : Opts) → t.wide o = true → t.nonEmpty o
  | _, .uint _, _, _ => by simp [Ty.nonEmpty]
  | _, .array n t, o, h => by
    simp only [Ty.wide, Bool.and_eq_true, bne_iff_ne] at h
    exact ⟨h.1, t.wide_nonEmpty o h.2⟩
  | _, .slice _, o, h => by simpa [Ty.wide, Ty.nonEmpty] using h
  | _, @Ty.map _ _ _ _ _, _, h => by simp [Ty.wide] at h
  | _, .struct fs, _, h => by
    rw [Ty.nonEmpty]
    exact fs.wide_nonEmpty (by simpa [Ty.wide] using h)
  | _, .ptr _, _, h => by simp [Ty.wide] at h
  | _, .validated _ _, _, h => by simp [Ty.wide] at h
  | _, .custom _, _, h => by simp [Ty.wide] at h
  | _, .other _, _, h => by simp [Ty.wide] at h

theorem Fields.wide_nonEmpty : {α : Type} → (fs : Fields α) → fs.wide = true → fs.nonEmpty
  | _, .nil, h => by simp [Fields.wide] at h
  | _, .cons o t fs, h => by
    simp only [Fields.wide, Bool.or_eq_true, Bool.and_eq_true, Bool.not_eq_true'] at h
    rw [Fields.nonEmpty]
    exact h.imp (fun h => ⟨h.1, t.wide_nonEmpty o h.2⟩) fs.wide_nonEmpty

end

mutual

theorem Ty.simple_selfDelim : {α : Type} → (t : Ty α) → (o : Opts) → t.simple o = true → t.selfDelim o
  | _, .uint _, _, _ => by simp [Ty.selfDelim]
  | _, .array _ t, o, h => by
    rw [Ty.selfDelim]; exact t.simple_selfDelim o (by simpa [Ty.simple] using h)
  | _, .slice t, o, h => by
    simp only [Ty.simple, Bool.and_eq_true, Bool.not_eq_true', decide_eq_true_eq] at h
    rw [Ty.selfDelim]
    exact ⟨h.1.1.1.1.1, t.simple_selfDelim o h.1.2, t.wide_nonEmpty o h.2⟩
  | _, @Ty.map _ _ _ _ _, _, h => by simp [Ty.simple] at h
  | _, .struct fs, _, h => by
    rw [Ty.selfDelim]; exact fs.simple_selfDelim (by simpa [Ty.simple] using h)
  | _, .ptr _, _, h => by simp [Ty.simple] at h
  | _, .validated _ _, _, h => by simp [Ty.simple] at h
  | _, .custom _, _, h => by simp [Ty.simple] at h
  | _, .other _, _, h => by simp [Ty.simple] at h

theorem Fields.simple_selfDelim : {α : Type} → (fs : Fields α) → fs.simple = true → fs.selfDelim
  | _, .nil, _ => by simp [Fields.selfDelim]
  | _, .cons o t fs, h => by
    simp only [Fields.simple, Bool.and_eq_true, Bool.not_eq_true'] at h
    rw [Fields.selfDelim]
    exact ⟨.inr (t.simple_selfDelim o h.1.2), fs.simple_selfDelim h.2⟩

end

mutual

theorem Ty.simple_robust : {α : Type} → (t : Ty α) → (o : Opts) → t.simple o = true → t.robust o
  | _, .uint _, _, _ => by simp [Ty.robust]
  | _, .array _ t, o, h => by
    rw [Ty.robust]; exact t.simple_robust o (by simpa [Ty.simple] using h)
  | _, .slice t, o, h => by
    simp only [Ty.simple, Bool.and_eq_true, Bool.not_eq_true', decide_eq_true_eq] at h
    rw [Ty.robust]
    exact ⟨h.1.1.1.2, t.simple_robust o h.1.2, t.wide_nonEmpty o h.2⟩
  | _, @Ty.map _ _ _ _ _, _, h => by simp [Ty.simple] at h
  | _, .struct fs, _, h => by
    rw [Ty.robust]; exact fs.simple_robust (by simpa [Ty.simple] using h)
  | _, .ptr _, _, h => by simp [Ty.simple] at h
  | _, .validated _ _, _, h => by simp [Ty.simple] at h
  | _, .custom _, _, h => by simp [Ty.simple] at h
  | _, .other _, _, h => by simp [Ty.simple] at h

theorem Fields.simple_robust : {α : Type} → (fs : Fields α) → fs.simple = true → fs.robust
  | _, .nil, _ => by simp [Fields.robust]
  | _, .cons o t fs, h => by
    simp only [Fields.simple, Bool.and_eq_true, Bool.not_eq_true'] at h
    rw [Fields.robust]
    exact ⟨.inr (t.simple_robust o h.1.2), fs.simple_robust h.2⟩

end

mutual

theorem Ty.simple_good : {α : Type} → (t : Ty α) → (o : Opts) → (v : α) → t.simple o = true → t.good o v
  | _, .uint _, _, _, h => by
    simp only [Ty.simple, Bool.not_eq_true'] at h
    simp [Ty.good, h]
  | _, .array _ t, o, v, h => by
    rw [Ty.good]; exact fun a _ => t.simple_good o a (by simpa [Ty.simple] using h)
  | _, .slice t, o, v, h => by
    simp only [Ty.simple, Bool.and_eq_true, Bool.not_eq_true', decide_eq_true_eq] at h
    rw [Ty.good]
    exact fun a _ => t.simple_good o a h.1.2
  | _, @Ty.map _ _ _ _ _, _, _, h => by simp [Ty.simple] at h
  | _, .struct fs, _, v, h => by
    rw [Ty.good]; exact fs.simple_good v (by simpa [Ty.simple] using h)
  | _, .ptr _, _, _, h => by simp [Ty.simple] at h
  | _, .validated _ _, _, _, h => by simp [Ty.simple] at h
  | _, .custom _, _, _, h => by simp [Ty.simple] at h
  | _, .other _, _, _, h => by simp [Ty.simple] at h

theorem Fields.simple_good : {α : Type} → (fs : Fields α) → (v : α) → fs.simple = true → fs.good v
  | _, .nil, _, _ => by simp [Fields.good]
  | _, .cons o t fs, v, h => by
    simp only [Fields.simple, Bool.and_eq_true, Bool.not_eq_true'] at h
    rw [Fields.good]
    exact ⟨.inr (t.simple_good o v.1 h.1.2), fs.simple_good v.2 h.2⟩

end

mutual

theorem Ty.simple_fixed : {α : Type} → (t : Ty α) → (o : Opts) → t.simple o = true → t.fixed o
  | _, .uint _, _, h => by simpa [Ty.simple, Ty.fixed] using h
  | _, .array _ t, o, h => by
    rw [Ty.fixed]; exact t.simple_fixed o (by simpa [Ty.simple] using h)
  | _, .slice t, o, h => by
    simp only [Ty.simple, Bool.and_eq_true, Bool.not_eq_true', decide_eq_true_eq] at h
    rw [Ty.fixed]
    exact ⟨h.1.1.1.1.2, h.1.1.2, t.simple_fixed o h.1.2⟩
  | _, @Ty.map _ _ _ _ _, _, h => by simp [Ty.simple] at h
  | _, .struct fs, _, h => by
    rw [Ty.fixed]; exact fs.simple_fixed (by simpa [Ty.simple] using h)
  | _, .ptr _, _, h => by simp [Ty.simple] at h
  | _, .validated _ _, _, h => by simp [Ty.simple] at h
  | _, .custom _, _, h => by simp [Ty.simple] at h
  | _, .other _, _, h => by simp [Ty.simple] at h

theorem Fields.simple_fixed : {α : Type} → (fs : Fields α) → fs.simple = true → fs.fixed
  | _, .nil, _ => by simp [Fields.fixed]
  | _, .cons o t fs, h => by
    simp only [Fields.simple, Bool.and_eq_true, Bool.not_eq_true'] at h
    rw [Fields.fixed]
    exact ⟨h.1.1, t.simple_fixed o h.1.2, fs.simple_fixed h.2⟩

end

theorem forall₂_imp_eq {α : Type} {R : α → α → Prop} (hR : ∀ a b, R a b → a = b) :
    ∀ {l l' : List α}, List.Forall₂ R l l' → l = l'
  | _, _, .nil => rfl
  | _, _, .cons h t => by rw [hR _ _ h, forall₂_imp_eq hR t]

mutual

theorem Ty.simple_same : {α : Type} → (t : Ty α) → (o : Opts) → t.simple o = true → (a b : α) → t.same a b → a = b
  | _, .uint _, _, _, _, _, hs => by simpa [Ty.same] using hs
  | _, .array _ t, o, h, a, b, hs => by
    rw [Ty.same] at hs
    exact Subtype.ext (forall₂_imp_eq (t.simple_same o (by simpa [Ty.simple] using h)) hs)
  | _, .slice t, o, h, a, b, hs => by
    simp only [Ty.simple, Bool.and_eq_true, Bool.not_eq_true', decide_eq_true_eq] at h
    rw [Ty.same] at hs
    exact forall₂_imp_eq (t.simple_same o h.1.2) hs
  | _, @Ty.map _ _ _ _ _, _, h, _, _, _ => by simp [Ty.simple] at h
  | _, .struct fs, _, h, a, b, hs => by
    rw [Ty.same] at hs
    exact fs.simple_same (by simpa [Ty.simple] using h) a b hs
  | _, .ptr _, _, h, _, _, _ => by simp [Ty.simple] at h
  | _, .validated _ _, _, h, _, _, _ => by simp [Ty.simple] at h
  | _, .custom _, _, h, _, _, _ => by simp [Ty.simple] at h
  | _, .other _, _, h, _, _, _ => by simp [Ty.simple] at h

theorem Fields.simple_same : {α : Type} → (fs : Fields α) → fs.simple = true → (a b : α) → fs.same a b → a = b
  | _, .nil, _, _, _, _ => rfl
  | _, .cons o t fs, h, a, b, hs => by
    simp only [Fields.simple, Bool.and_eq_true, Bool.not_eq_true'] at h
    rw [Fields.same] at hs
    simp only [h.1.1, Bool.false_eq_true, if_false] at hs
    exact Prod.ext (t.simple_same o h.1.2 _ _ hs.1) (fs.simple_same h.2 _ _ hs.2)

end

theorem encodeAll_length_le {α : Type} {f : α → Res Bytes} {m : Nat} (hf : ∀ a bs, f a = .ok bs → bs.length ≤ m) :
    ∀ {l : List α} {bs}, encodeAll f l = .ok bs → bs.length ≤ l.length * m
  | [], bs, h => by
    simp only [encodeAll, Res.ok.injEq] at h
    simp [← h]
  | a :: l, bs, h => by
    simp only [encodeAll, Res.bind_eq_ok, Res.ok.injEq] at h
    obtain ⟨x, hx, y, hy, rfl⟩ := h
    have h1 := hf a x hx
    have h2 := encodeAll_length_le hf hy
    simp only [List.length_append, List.length_cons, Nat.add_mul]
    omega

mutual

theorem Ty.simple_maxLen : {α : Type} → (t : Ty α) → (o : Opts) → (v : α) → (bs : Bytes) → t.simple o = true →
    t.encode o v = .ok bs → bs.length ≤ t.maxLen o
  | _, .uint w, o, v, bs, h, he => by
    simp only [Ty.simple, Bool.not_eq_true'] at h
    simp only [Ty.encode, h, Bool.false_eq_true, if_false, Res.ok.injEq] at he
    simp [← he, Ty.maxLen, beBytes_length]
  | _, .array n t, o, v, bs, h, he => by
    rw [Ty.encode] at he
    have h1 := encodeAll_length_le (fun a bs h' => t.simple_maxLen o a bs (by simpa [Ty.simple] using h) h') he
    rw [v.2] at h1
    simpa [Ty.maxLen] using h1
  | _, .slice t, o, v, bs, h, he => by
    simp only [Ty.simple, Bool.and_eq_true, Bool.not_eq_true', decide_eq_true_eq] at h
    obtain ⟨hdr, body, rfl, -, -, -, h4⟩ := C03_encode_limits t o v bs he
    obtain ⟨h5, h6⟩ := h4 h.1.1.1.1.1 h.1.1.1.1.2
    have h7 : hdr.length = o.headerSize.toNat := by omega
    have h8 : beNat hdr < 256 ^ hdr.length := beNat_lt hdr
    rw [h7, h6] at h8
    simp only [List.length_append, Ty.maxLen]
    omega
  | _, @Ty.map _ _ _ _ _, _, _, _, h, _ => by simp [Ty.simple] at h
  | _, .struct fs, _, v, bs, h, he => by
    rw [Ty.encode] at he
    rw [Ty.maxLen]
    exact fs.simple_maxLen v bs (by simpa [Ty.simple] using h) he
  | _, .ptr _, _, _, _, h, _ => by simp [Ty.simple] at h
  | _, .validated _ _, _, _, _, h, _ => by simp [Ty.simple] at h
  | _, .custom _, _, _, _, h, _ => by simp [Ty.simple] at h
  | _, .other _, _, _, _, h, _ => by simp [Ty.simple] at h

theorem Fields.simple_maxLen : {α : Type} → (fs : Fields α) → (v : α) → (bs : Bytes) → fs.simple = true →
    fs.encode v = .ok bs → bs.length ≤ fs.maxLen
  | _, .nil, _, bs, _, he => by
    simp only [Fields.encode, Res.ok.injEq] at he
    simp [← he]
  | _, .cons o t fs, (a, b), bs, h, he => by
    simp only [Fields.simple, Bool.and_eq_true, Bool.not_eq_true'] at h
    simp only [Fields.encode, h.1.1, Bool.false_eq_true, if_false, Res.bind_eq_ok, Res.ok.injEq] at he
    obtain ⟨x, hx, y, hy, rfl⟩ := he
    have h1 := t.simple_maxLen o a x h.1.2 hx
    have h2 := fs.simple_maxLen b y h.2 hy
    simp only [List.length_append, Fields.maxLen]
    omega

end

/-- A plain schema whose encodings stay within Go's slice lengths. -/
def Ty.plain {α : Type} (t : Ty α) : Bool := t.simple {} && decide (t.maxLen {} < 2 ^ 63)

theorem plain_length {α : Type} {t : Ty α} (ht : t.plain = true) {v : α} {bs : Bytes} (h : marshal t v = .ok bs) :
    bs.length ≤ t.maxLen {} := by
  simp only [Ty.plain, Bool.and_eq_true, decide_eq_true_eq] at ht
  unfold marshal at h
  split at h
  · exact t.simple_maxLen {} v bs ht.1 h
  · simp at h

/-- Plain schemas round trip exactly. -/
theorem plain_roundtrip {α : Type} {t : Ty α} (ht : t.plain = true) {v : α} {bs : Bytes} (h : marshal t v = .ok bs)
    (rest : Bytes) : unmarshal t (bs ++ rest) = .ok (v, bs.length) := by
  have hl := plain_length ht h
  simp only [Ty.plain, Bool.and_eq_true, decide_eq_true_eq] at ht
  obtain ⟨v', h1, h2⟩ := C01_roundtrip t v bs rest (t.simple_selfDelim {} ht.1) (t.simple_good {} v ht.1) h (by omega)
  rw [h1, t.simple_same {} ht.1 v v' h2]

/-- Parsing a plain schema neither panics nor diverges. -/
theorem plain_safe {α : Type} {t : Ty α} (ht : t.plain = true) (bs : Bytes) : (unmarshal t bs).Safe := by
  simp only [Ty.plain, Bool.and_eq_true, decide_eq_true_eq] at ht
  exact C06_unmarshal_safe_partial t (t.simple_robust {} ht.1) bs

/-- What was parsed encodes to exactly the bytes that were read. -/
theorem plain_canonical {α : Type} {t : Ty α} (ht : t.plain = true) {bs : Bytes} {v : α} {n : Nat}
    (h : unmarshal t bs = .ok (v, n)) : marshal t v = .ok (bs.take n) ∧ n ≤ bs.length := by
  simp only [Ty.plain, Bool.and_eq_true, decide_eq_true_eq] at ht
  exact ⟨C10_canonical t (t.simple_fixed {} ht.1) bs v n h, (C02_prefix_determinacy t bs v n h).1⟩

end Verif.Syntax
