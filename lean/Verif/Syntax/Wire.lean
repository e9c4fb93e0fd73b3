import Verif.Syntax.Fits

/-
What the encoder of a plain schema writes, as a total function of the value.
-/

namespace Verif.Syntax

open Verif

mutual

/-- The bytes of a value. -/
def Ty.wire : {α : Type} → Ty α → Opts → α → Bytes
  | _, .uint w, _, v => beBytes w.bytes (w.getNat v)
  | _, .array _ t, o, v => (v.1.map fun a => t.wire o a).flatten
  | _, .slice t, o, v =>
    beBytes o.headerSize.toNat (v.map fun a => t.wire o a).flatten.length ++ (v.map fun a => t.wire o a).flatten
  | _, @Ty.map _ _ _ _ _, _, _ => []
  | _, .struct fs, _, v => fs.wire v
  | _, .ptr _, _, _ => []
  | _, .validated _ _, _, _ => []
  | _, .custom _, _, _ => []
  | _, .other _, _, _ => []

def Fields.wire : {α : Type} → Fields α → α → Bytes
  | _, .nil, _ => []
  | _, .cons o t fs, (a, b) => t.wire o a ++ fs.wire b

end

theorem encodeAll_wire {α : Type} {f : α → Res Bytes} {g : α → Bytes} : ∀ {l : List α} {bs : Bytes},
    (∀ a ∈ l, ∀ b, f a = .ok b → b = g a) → encodeAll f l = .ok bs → bs = (l.map g).flatten
  | [], bs, _, h => by simp only [encodeAll, Res.ok.injEq] at h; simp [← h]
  | a :: l, bs, hf, h => by
    simp only [encodeAll, Res.bind_eq_ok, Res.ok.injEq] at h
    obtain ⟨x, hx, y, hy, rfl⟩ := h
    rw [hf a (by simp) x hx, encodeAll_wire (fun b hb => hf b (by simp [hb])) hy]
    simp

mutual

theorem Ty.encode_wire : {α : Type} → (t : Ty α) → (o : Opts) → (v : α) → (bs : Bytes) → t.simple o = true →
    t.encode o v = .ok bs → bs = t.wire o v
  | _, .uint w, o, v, bs, hs, h => by
    simp only [Ty.simple, Bool.not_eq_true'] at hs
    simp only [Ty.encode, hs, Bool.false_eq_true, if_false, Res.ok.injEq] at h
    rw [Ty.wire, ← h]
  | _, .array n t, o, v, bs, hs, h => by
    simp only [Ty.simple] at hs
    simp only [Ty.encode] at h
    rw [Ty.wire]
    exact encodeAll_wire (fun a _ b hb => Ty.encode_wire t o a b hs hb) h
  | _, .slice t, o, v, bs, hs, h => by
    simp only [Ty.simple, Bool.and_eq_true, Bool.not_eq_true', decide_eq_true_eq] at hs
    simp only [Ty.encode, Res.bind_eq_ok, Res.ok.injEq] at h
    obtain ⟨body, hb, hdr, hh, rfl⟩ := h
    have hbody := encodeAll_wire (g := fun a => t.wire o a) (fun a _ b hb => Ty.encode_wire t o a b hs.1.2 hb) hb
    have hhdr : hdr = beBytes o.headerSize.toNat body.length := by
      unfold encodeLength at hh
      rw [hs.1.1.1.1.1, hs.1.1.1.1.2] at hh
      simp only [Bool.false_eq_true, if_false] at hh
      repeat' split at hh
      all_goals simp only [reduceCtorEq, Res.ok.injEq] at hh
      exact hh.symm
    rw [Ty.wire, hhdr, hbody]
  | _, @Ty.map _ _ _ _ _, _, _, _, hs, _ => by simp [Ty.simple] at hs
  | _, .struct fs, o, v, bs, hs, h => by
    simp only [Ty.simple] at hs
    simp only [Ty.encode] at h
    rw [Ty.wire]
    exact Fields.encode_wire fs v bs hs h
  | _, .ptr _, _, _, _, hs, _ => by simp [Ty.simple] at hs
  | _, .validated _ _, _, _, _, hs, _ => by simp [Ty.simple] at hs
  | _, .custom _, _, _, _, hs, _ => by simp [Ty.simple] at hs
  | _, .other _, _, _, _, hs, _ => by simp [Ty.simple] at hs

theorem Fields.encode_wire : {α : Type} → (fs : Fields α) → (v : α) → (bs : Bytes) → fs.simple = true →
    fs.encode v = .ok bs → bs = fs.wire v
  | _, .nil, _, bs, _, h => by simp only [Fields.encode, Res.ok.injEq] at h; rw [Fields.wire, ← h]
  | _, .cons o t fs, (a, b), bs, hs, h => by
    simp only [Fields.simple, Bool.and_eq_true, Bool.not_eq_true'] at hs
    simp only [Fields.encode, hs.1.1, Bool.false_eq_true, if_false, Res.bind_eq_ok, Res.ok.injEq] at h
    obtain ⟨x, hx, y, hy, rfl⟩ := h
    rw [Fields.wire, Ty.encode_wire t o a x hs.1.2 hx, Fields.encode_wire fs b y hs.2 hy]

end

theorem marshal_wire {α : Type} {t : Ty α} (ht : t.plain = true) {v : α} {bs : Bytes} (h : marshal t v = .ok bs) :
    bs = t.wire {} v := by
  simp only [Ty.plain, Bool.and_eq_true] at ht
  unfold marshal at h
  split at h
  · exact Ty.encode_wire t {} v bs ht.1 h
  · cases h

mutual

theorem Ty.wire_size : {α : Type} → (t : Ty α) → (o : Opts) → (v : α) → (t.wire o v).length = t.size o v
  | _, .uint w, o, v => by simp [Ty.wire, Ty.size]
  | _, .array n t, o, v => by
    simp only [Ty.wire, Ty.size, List.length_flatten, List.map_map, sumBy]
    exact congrArg _ (List.map_congr_left fun a _ => Ty.wire_size t o a)
  | _, .slice t, o, v => by
    simp only [Ty.wire, Ty.size, List.length_flatten, List.map_map, sumBy, List.length_append, beBytes_length]
    exact congrArg _ (congrArg _ (List.map_congr_left fun a _ => Ty.wire_size t o a))
  | _, @Ty.map _ _ _ _ _, _, _ => by simp [Ty.wire, Ty.size]
  | _, .struct fs, o, v => by rw [Ty.wire, Ty.size]; exact Fields.wire_size fs v
  | _, .ptr _, _, _ => by simp [Ty.wire, Ty.size]
  | _, .validated _ _, _, _ => by simp [Ty.wire, Ty.size]
  | _, .custom _, _, _ => by simp [Ty.wire, Ty.size]
  | _, .other _, _, _ => by simp [Ty.wire, Ty.size]

theorem Fields.wire_size : {α : Type} → (fs : Fields α) → (v : α) → (fs.wire v).length = fs.size v
  | _, .nil, _ => by simp [Fields.wire, Fields.size]
  | _, .cons o t fs, (a, b) => by
    rw [Fields.wire, Fields.size, List.length_append, Ty.wire_size t o a, Fields.wire_size fs b]

end

/-- A vector fits if its contents have a length that its tag allows. -/
theorem slice_fits {α : Type} {t : Ty α} {o : Opts} {v : List α} (h0 : ∀ a ∈ v, t.fits o a) {n : Nat}
    (hn : (v.map fun a => t.wire o a).flatten.length = n) (h1 : ¬ (o.maxSize > 0 ∧ (n : Int) > o.maxSize))
    (h2 : o.minSize ≤ (n : Int)) (h3 : 0 < o.headerSize) (h4 : n < 256 ^ o.headerSize.toNat) : Ty.fits (.slice t) o v := by
  have : sumBy (fun a => t.size o a) v = n := by
    rw [← hn, List.length_flatten, List.map_map, sumBy]
    exact congrArg _ (List.map_congr_left fun a _ => (Ty.wire_size t o a).symm)
  simp only [Ty.fits, this]
  exact ⟨h0, h1, h2, h3, h4⟩

/-- A value that fits is encoded as the bytes it should be. -/
theorem marshal_fits_wire {α : Type} {t : Ty α} (ht : t.plain = true) (hg : t.tagsOk = true) {v : α} (hf : t.fits {} v) :
    marshal t v = .ok (t.wire {} v) := by
  obtain ⟨bs, h, -⟩ := marshal_fits ht hg hf
  rw [h, marshal_wire ht h]

theorem encodeAll_ok {α : Type} {f : α → Res Bytes} : ∀ {l : List α} {bs : Bytes}, encodeAll f l = .ok bs →
    ∀ a ∈ l, ∃ b, f a = .ok b
  | [], _, _ => by simp
  | a :: l, bs, h => by
    simp only [encodeAll, Res.bind_eq_ok, Res.ok.injEq] at h
    obtain ⟨x, hx, y, hy, -⟩ := h
    intro c hc
    rcases List.mem_cons.1 hc with rfl | hc
    · exact ⟨x, hx⟩
    · exact encodeAll_ok hy c hc

mutual

theorem Ty.encode_ok_fits : {α : Type} → (t : Ty α) → (o : Opts) → (v : α) → (bs : Bytes) → t.simple o = true →
    t.encode o v = .ok bs → t.fits o v
  | _, .uint w, o, v, bs, hs, h => by simp only [Ty.fits]
  | _, .array n t, o, v, bs, hs, h => by
    simp only [Ty.simple] at hs
    simp only [Ty.encode] at h
    rw [Ty.fits]
    intro a ha
    obtain ⟨b, hb⟩ := encodeAll_ok h a ha
    exact Ty.encode_ok_fits t o a b hs hb
  | _, .slice t, o, v, bs, hs, h => by
    simp only [Ty.simple, Bool.and_eq_true, Bool.not_eq_true', decide_eq_true_eq] at hs
    simp only [Ty.encode, Res.bind_eq_ok, Res.ok.injEq] at h
    obtain ⟨body, hb, hdr, hh, -⟩ := h
    have hbody := encodeAll_wire (g := fun a => t.wire o a) (fun a _ b hb => Ty.encode_wire t o a b hs.1.2 hb) hb
    unfold encodeLength at hh
    rw [hs.1.1.1.1.1, hs.1.1.1.1.2] at hh
    simp only [Bool.false_eq_true, if_false] at hh
    split at hh
    · cases hh
    rename_i h1
    split at hh
    · cases hh
    rename_i h2
    split at hh
    · rename_i h3
      split at hh
      · cases hh
      rename_i h4
      refine slice_fits (fun a ha => ?_) (by rw [← hbody]) h1 (by omega) h3 ?_
      · obtain ⟨b, hb⟩ := encodeAll_ok hb a ha
        exact Ty.encode_ok_fits t o a b hs.1.2 hb
      · have hp : (256 : Nat) ^ o.headerSize.toNat = 2 ^ (8 * o.headerSize.toNat) := by
          rw [show 256 = 2 ^ 8 from rfl, ← Nat.pow_mul]
        rw [Nat.shiftRight_eq_div_pow, ← hp] at h4
        have h5 : body.length / 256 ^ o.headerSize.toNat = 0 := Nat.le_zero.1 (Nat.not_lt.1 h4)
        rcases Nat.div_eq_zero_iff.1 h5 with h6 | h6
        · exact absurd h6 (Nat.pos_iff_ne_zero.1 (Nat.pow_pos (by decide)))
        · exact h6
    · cases hh
  | _, @Ty.map _ _ _ _ _, _, _, _, hs, _ => by simp [Ty.simple] at hs
  | _, .struct fs, o, v, bs, hs, h => by
    simp only [Ty.simple] at hs
    simp only [Ty.encode] at h
    rw [Ty.fits]
    exact Fields.encode_ok_fits fs v bs hs h
  | _, .ptr _, _, _, _, hs, _ => by simp [Ty.simple] at hs
  | _, .validated _ _, _, _, _, hs, _ => by simp [Ty.simple] at hs
  | _, .custom _, _, _, _, hs, _ => by simp [Ty.simple] at hs
  | _, .other _, _, _, _, hs, _ => by simp [Ty.simple] at hs

theorem Fields.encode_ok_fits : {α : Type} → (fs : Fields α) → (v : α) → (bs : Bytes) → fs.simple = true →
    fs.encode v = .ok bs → fs.fits v
  | _, .nil, _, bs, _, h => by simp only [Fields.fits]
  | _, .cons o t fs, (a, b), bs, hs, h => by
    simp only [Fields.simple, Bool.and_eq_true, Bool.not_eq_true'] at hs
    simp only [Fields.encode, hs.1.1, Bool.false_eq_true, if_false, Res.bind_eq_ok, Res.ok.injEq] at h
    obtain ⟨x, hx, y, hy, rfl⟩ := h
    rw [Fields.fits]
    exact ⟨Ty.encode_ok_fits t o a x hs.1.2 hx, Fields.encode_ok_fits fs b y hs.2 hy⟩

end

/-- What the codec writes for a value, and when. -/
theorem marshal_iff {α : Type} {t : Ty α} (ht : t.plain = true) (hg : t.tagsOk = true) {v : α} {bs : Bytes} :
    marshal t v = .ok bs ↔ t.fits {} v ∧ bs = t.wire {} v := by
  constructor
  · intro h
    have h' := h
    rw [marshal, if_pos hg] at h'
    have hs := ht
    simp only [Ty.plain, Bool.and_eq_true] at hs
    exact ⟨Ty.encode_ok_fits t {} v bs hs.1 h', marshal_wire ht h⟩
  · rintro ⟨h, rfl⟩; exact marshal_fits_wire ht hg h

/-- What the codec reads from a complete input. -/
theorem unmarshal_iff {α : Type} {t : Ty α} (ht : t.plain = true) (hg : t.tagsOk = true) {v : α} {bs : Bytes} :
    unmarshal t bs = .ok (v, bs.length) ↔ t.fits {} v ∧ bs = t.wire {} v := by
  rw [← marshal_iff ht hg]
  constructor
  · intro h
    have := (plain_canonical ht h).1
    rwa [List.take_length] at this
  · intro h
    simpa using plain_roundtrip ht h []

/-- A vector fits exactly if its elements do and its contents have a length that its tag allows. -/
theorem slice_fits_iff {α : Type} {t : Ty α} {o : Opts} {v : List α} : Ty.fits (.slice t) o v ↔
    (∀ a ∈ v, t.fits o a) ∧ ¬ (o.maxSize > 0 ∧ ((v.map fun a => t.wire o a).flatten.length : Int) > o.maxSize) ∧
      o.minSize ≤ ((v.map fun a => t.wire o a).flatten.length : Int) ∧ 0 < o.headerSize ∧
      (v.map fun a => t.wire o a).flatten.length < 256 ^ o.headerSize.toNat := by
  have : sumBy (fun a => t.size o a) v = (v.map fun a => t.wire o a).flatten.length := by
    rw [List.length_flatten, List.map_map, sumBy]
    exact congrArg _ (List.map_congr_left fun a _ => (Ty.wire_size t o a).symm)
  simp only [Ty.fits, this]

end Verif.Syntax
