import Verif.Syntax.Simple
import Verif.Messages.Encoding

/-
When encoding succeeds, and how long the encoding is: both in terms of the value alone.
-/

namespace Verif.Syntax

open Verif

/-- Sum over a list. -/
def sumBy {α : Type} (f : α → Nat) (l : List α) : Nat := (l.map f).sum

@[simp] theorem sumBy_nil {α : Type} (f : α → Nat) : sumBy f [] = 0 := rfl
@[simp] theorem sumBy_cons {α : Type} (f : α → Nat) (a : α) (l : List α) : sumBy f (a :: l) = f a + sumBy f l := by simp [sumBy]
@[simp] theorem sumBy_append {α : Type} (f : α → Nat) (l l' : List α) : sumBy f (l ++ l') = sumBy f l + sumBy f l' := by
  simp [sumBy]

theorem sumBy_map {α β : Type} (f : β → Nat) (g : α → β) (l : List α) : sumBy f (l.map g) = sumBy (fun a => f (g a)) l := by
  simp [sumBy, Function.comp_def]

theorem sumBy_const {α : Type} (k : Nat) (l : List α) : sumBy (fun _ => k) l = k * l.length := by
  induction l with
  | nil => simp
  | cons a l ih => simp only [sumBy_cons, ih, List.length_cons, Nat.mul_succ]; omega

theorem sumBy_le {α : Type} {f : α → Nat} {k : Nat} {l : List α} (h : ∀ a ∈ l, f a ≤ k) : sumBy f l ≤ k * l.length := by
  induction l with
  | nil => simp
  | cons a l ih =>
    have h1 := h a (by simp)
    have h2 := ih fun b hb => h b (by simp [hb])
    simp only [sumBy_cons, List.length_cons, Nat.mul_succ]; omega

theorem sumBy_ge {α : Type} {f : α → Nat} {k : Nat} {l : List α} (h : ∀ a ∈ l, k ≤ f a) : k * l.length ≤ sumBy f l := by
  induction l with
  | nil => simp
  | cons a l ih =>
    have h1 := h a (by simp)
    have h2 := ih fun b hb => h b (by simp [hb])
    simp only [sumBy_cons, List.length_cons, Nat.mul_succ]; omega

theorem sumBy_congr {α : Type} {f g : α → Nat} {l : List α} (h : ∀ a ∈ l, f a = g a) : sumBy f l = sumBy g l := by
  rw [sumBy, sumBy, List.map_congr_left h]

mutual

/-- The length of the encoding of a value. -/
def Ty.size : {α : Type} → Ty α → Opts → α → Nat
  | _, .uint w, _, _ => w.bytes
  | _, .array _ t, o, v => sumBy (fun a => t.size o a) v.1
  | _, .slice t, o, v => o.headerSize.toNat + sumBy (fun a => t.size o a) v
  | _, @Ty.map _ _ _ _ _, _, _ => 0
  | _, .struct fs, _, v => fs.size v
  | _, .ptr _, _, _ => 0
  | _, .validated _ _, _, _ => 0
  | _, .custom _, _, _ => 0
  | _, .other _, _, _ => 0

def Fields.size : {α : Type} → Fields α → α → Nat
  | _, .nil, _ => 0
  | _, .cons o t fs, (a, b) => t.size o a + fs.size b

end

mutual

/-- Every vector in the value is as long as its tag allows. -/
def Ty.fits : {α : Type} → Ty α → Opts → α → Prop
  | _, .uint _, _, _ => True
  | _, .array _ t, o, v => ∀ a ∈ v.1, t.fits o a
  | _, .slice t, o, v => (∀ a ∈ v, t.fits o a) ∧ ¬ (o.maxSize > 0 ∧ (sumBy (fun a => t.size o a) v : Int) > o.maxSize) ∧
      o.minSize ≤ (sumBy (fun a => t.size o a) v : Int) ∧ 0 < o.headerSize ∧
      sumBy (fun a => t.size o a) v < 256 ^ o.headerSize.toNat
  | _, @Ty.map _ _ _ _ _, _, _ => False
  | _, .struct fs, _, v => fs.fits v
  | _, .ptr _, _, _ => False
  | _, .validated _ _, _, _ => False
  | _, .custom _, _, _ => False
  | _, .other _, _, _ => False

def Fields.fits : {α : Type} → Fields α → α → Prop
  | _, .nil, _ => True
  | _, .cons o t fs, (a, b) => t.fits o a ∧ fs.fits b

end

theorem encodeAll_fits {α : Type} {f : α → Res Bytes} {g : α → Nat} : ∀ {l : List α},
    (∀ a ∈ l, ∃ bs, f a = .ok bs ∧ bs.length = g a) → ∃ bs, encodeAll f l = .ok bs ∧ bs.length = sumBy g l
  | [], _ => ⟨[], rfl, rfl⟩
  | a :: l, h => by
    obtain ⟨x, hx, hl⟩ := h a (by simp)
    obtain ⟨y, hy, hm⟩ := encodeAll_fits (l := l) fun b hb => h b (by simp [hb])
    exact ⟨x ++ y, by simp [encodeAll, hx, hy], by simp [hl, hm]⟩

mutual

theorem Ty.encode_fits : {α : Type} → (t : Ty α) → (o : Opts) → (v : α) → t.simple o = true → t.fits o v →
    ∃ bs, t.encode o v = .ok bs ∧ bs.length = t.size o v
  | _, .uint w, o, v, hs, _ => by
    simp only [Ty.simple, Bool.not_eq_true'] at hs
    exact ⟨_, by simp only [Ty.encode, hs, Bool.false_eq_true, if_false]; rfl, by simp [Ty.size]⟩
  | _, .array n t, o, v, hs, hf => by
    simp only [Ty.simple] at hs
    simp only [Ty.fits] at hf
    simp only [Ty.encode, Ty.size]
    exact encodeAll_fits fun a ha => Ty.encode_fits t o a hs (hf a ha)
  | _, .slice t, o, v, hs, hf => by
    simp only [Ty.simple, Bool.and_eq_true, Bool.not_eq_true', decide_eq_true_eq] at hs
    simp only [Ty.fits] at hf
    obtain ⟨h1, h2, h3, h4, h5⟩ := hf
    obtain ⟨body, hb, hl⟩ := encodeAll_fits (f := fun a => t.encode o a) (g := fun a => t.size o a)
      fun a ha => Ty.encode_fits t o a hs.1.2 (h1 a ha)
    have hlen : encodeLength body.length o = .ok (beBytes o.headerSize.toNat body.length) := by
      unfold encodeLength
      have hz : body.length >>> (8 * o.headerSize.toNat) = 0 := by
        rw [Nat.shiftRight_eq_div_pow]
        have hp : (256 : Nat) ^ o.headerSize.toNat = 2 ^ (8 * o.headerSize.toNat) := by
          rw [show 256 = 2 ^ 8 from rfl, ← Nat.pow_mul]
        exact Nat.div_eq_of_lt (by rw [← hp, hl]; exact h5)
      rw [if_neg (by rw [hl]; exact h2), if_neg (by rw [hl]; omega), hs.1.1.1.1.1, hs.1.1.1.1.2, if_pos h4, hz]
      simp
    refine ⟨_, by simp only [Ty.encode, hb, hlen, Res.bind_ok]; rfl, ?_⟩
    simp [Ty.size, hl]
  | _, @Ty.map _ _ _ _ _, _, _, hs, _ => by simp [Ty.simple] at hs
  | _, .struct fs, o, v, hs, hf => by
    simp only [Ty.simple] at hs
    simp only [Ty.fits] at hf
    simp only [Ty.encode, Ty.size]
    exact Fields.encode_fits fs v hs hf
  | _, .ptr _, _, _, hs, _ => by simp [Ty.simple] at hs
  | _, .validated _ _, _, _, hs, _ => by simp [Ty.simple] at hs
  | _, .custom _, _, _, hs, _ => by simp [Ty.simple] at hs
  | _, .other _, _, _, hs, _ => by simp [Ty.simple] at hs

theorem Fields.encode_fits : {α : Type} → (fs : Fields α) → (v : α) → fs.simple = true → fs.fits v →
    ∃ bs, fs.encode v = .ok bs ∧ bs.length = fs.size v
  | _, .nil, _, _, _ => ⟨[], rfl, rfl⟩
  | _, .cons o t fs, (a, b), hs, hf => by
    simp only [Fields.simple, Bool.and_eq_true, Bool.not_eq_true'] at hs
    simp only [Fields.fits] at hf
    obtain ⟨x, hx, hl⟩ := Ty.encode_fits t o a hs.1.2 hf.1
    obtain ⟨y, hy, hm⟩ := Fields.encode_fits fs b hs.2 hf.2
    exact ⟨x ++ y, by simp [Fields.encode, hs.1.1, hx, hy], by simp [Fields.size, hl, hm]⟩

end

/-- A value that fits is encoded, and the encoding has the length it should. -/
theorem marshal_fits {α : Type} {t : Ty α} (ht : t.plain = true) (hg : t.tagsOk = true) {v : α} (hf : t.fits {} v) :
    ∃ bs, marshal t v = .ok bs ∧ bs.length = t.size {} v := by
  simp only [Ty.plain, Bool.and_eq_true] at ht
  obtain ⟨bs, h1, h2⟩ := Ty.encode_fits t {} v ht.1 hf
  exact ⟨bs, by rw [marshal, if_pos hg]; exact h1, h2⟩

end Verif.Syntax
