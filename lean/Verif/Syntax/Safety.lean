import Verif.Syntax.Local

namespace Verif.Syntax

open Verif

/-! ### Decoders of non-empty types consume at least one byte -/

mutual

theorem Ty.decode_pos : {α : Type} → (t : Ty α) → (o : Opts) → (bs : Bytes) → (v : α) → (n : Nat) →
    (rest : Bytes) → t.nonEmpty o → t.decode o bs = .ok (v, n, rest) → 0 < n
  | _, .uint w, o, bs, v, n, rest => fun _ h => by
    simp only [Ty.decode] at h
    split at h
    · simp only [Res.bind_eq_ok] at h
      obtain ⟨⟨r', l', rest'⟩, h1, h2⟩ := h
      dsimp only at h2
      split at h2
      · simp at h2
      · simp only [Res.ok.injEq, Prod.mk.injEq] at h2
        obtain ⟨rfl, rfl, rfl⟩ := h2
        obtain ⟨f, more, -, -, rfl, -⟩ := readVarint_ok h1
        omega
    · split at h
      · simp only [Res.ok.injEq, Prod.mk.injEq] at h
        obtain ⟨rfl, rfl, rfl⟩ := h
        rcases w.bytes_cases with h | h | h | h <;> omega
      · simp at h
  | _, .array k t, o, bs, v, n, rest => fun hn h => by
    simp only [Ty.decode] at h
    simp only [Ty.nonEmpty] at hn
    obtain ⟨hk, hn⟩ := hn
    cases k with
    | zero => exact absurd rfl hk
    | succ k =>
      simp only [decodeN, Res.bind_eq_ok] at h
      obtain ⟨⟨x, r, bs1⟩, h1, ⟨ys, r', bs2⟩, h2, h3⟩ := h
      simp only [Res.ok.injEq, Prod.mk.injEq] at h3
      obtain ⟨rfl, rfl, rfl⟩ := h3
      have := Ty.decode_pos t o _ _ _ _ hn h1
      omega
  | _, .slice t, o, bs, v, n, rest => fun hn h => by
    simp only [Ty.decode, Res.bind_eq_ok] at h
    obtain ⟨⟨r, l, bs1⟩, h1, ⟨body, rest'⟩, h2, ⟨vs, m⟩, h3, h4⟩ := h
    simp only [Res.ok.injEq, Prod.mk.injEq] at h4
    obtain ⟨rfl, rfl, rfl⟩ := h4
    obtain ⟨pre, -, -, hp⟩ := decodeLength_consumes h1
    have := (hp hn).1
    omega
  | _, @Ty.map _ _ _ k t, o, bs, v, n, rest => fun hn h => by
    simp only [Ty.decode, Res.bind_eq_ok] at h
    obtain ⟨⟨r, l, bs1⟩, h1, ⟨body, rest'⟩, h2, ⟨vs, m⟩, h3, h4⟩ := h
    simp only [Res.ok.injEq, Prod.mk.injEq] at h4
    obtain ⟨rfl, rfl, rfl⟩ := h4
    obtain ⟨pre, -, -, hp⟩ := decodeLength_consumes h1
    have := (hp hn).1
    omega
  | _, .struct fs, o, bs, v, n, rest => fun hn h => by
    simp only [Ty.decode] at h
    exact Fields.decode_pos fs bs v n rest hn h
  | _, .ptr t, o, bs, v, n, rest => fun hn h => by
    simp only [Ty.decode] at h
    split at h
    · split at h
      · simp at h
      · split at h
        · simp only [Res.ok.injEq, Prod.mk.injEq] at h
          omega
        · split at h
          · simp only [Res.bind_eq_ok] at h
            obtain ⟨⟨x, n', bs2⟩, h1, h2⟩ := h
            simp only [Res.ok.injEq, Prod.mk.injEq] at h2
            omega
          · simp at h
    · rename_i ho
      simp only [Res.bind_eq_ok] at h
      obtain ⟨⟨x, n', bs2⟩, h1, h2⟩ := h
      simp only [Res.ok.injEq, Prod.mk.injEq] at h2
      obtain ⟨rfl, rfl, rfl⟩ := h2
      rcases hn with hn | hn
      · exact absurd hn ho
      · exact Ty.decode_pos t o _ _ _ _ hn h1
  | _, .validated t p, o, bs, v, n, rest => fun hn h => by
    simp only [Ty.decode, Res.bind_eq_ok] at h
    obtain ⟨⟨x, n', bs2⟩, h1, h2⟩ := h
    dsimp only at h2
    split at h2
    · simp only [Res.ok.injEq, Prod.mk.injEq] at h2
      obtain ⟨rfl, rfl, rfl⟩ := h2
      exact Ty.decode_pos t o _ _ _ _ hn h1
    · simp at h2
  | _, .custom c, o, bs, v, n, rest => fun hn h => by
    simp only [Ty.decode] at h
    split at h
    · rename_i x n' hu
      split at h
      · simp at h
      · simp only [Res.ok.injEq, Prod.mk.injEq] at h
        obtain ⟨rfl, rfl, rfl⟩ := h
        exact Nat.pos_of_ne_zero (hn.2 _ _ _ hu)
    · simp at h
  | _, .other z, o, bs, v, n, rest => fun _ h => by simp [Ty.decode] at h

theorem Fields.decode_pos : {α : Type} → (fs : Fields α) → (bs : Bytes) → (v : α) → (n : Nat) →
    (rest : Bytes) → fs.nonEmpty → fs.decode bs = .ok (v, n, rest) → 0 < n
  | _, .nil, bs, v, n, rest => fun hn _ => by simp [Fields.nonEmpty] at hn
  | _, .cons o t fs, bs, v, n, rest => fun hn h => by
    simp only [Fields.decode, Res.bind_eq_ok] at h
    obtain ⟨⟨a, n1, bs1⟩, h1, ⟨b, n2, bs2⟩, h2, h3⟩ := h
    simp only [Res.ok.injEq, Prod.mk.injEq] at h3
    obtain ⟨rfl, rfl, rfl⟩ := h3
    rcases hn with ⟨ho, hn⟩ | hn
    · simp only [ho, Bool.false_eq_true, if_false] at h1
      have := Ty.decode_pos t o _ _ _ _ hn h1
      omega
    · have := Fields.decode_pos fs _ _ _ _ hn h2
      omega

end

/-! ### Safety -/

theorem decodeMany_safe {β : Type} {f : Bytes → Res (β × Nat × Bytes)} (hs : ∀ bs, (f bs).Safe)
    (hp : ∀ bs x n rest, f bs = .ok (x, n, rest) → rest.length < bs.length) (bs : Bytes) :
    (decodeMany f bs).Safe := by
  induction hl : bs.length using Nat.strongRecOn generalizing bs with
  | _ len ih =>
    cases bs with
    | nil => rw [decodeMany_nil]; trivial
    | cons b bt =>
      have hsb := hs (b :: bt)
      rw [decodeMany]
      split
      · rename_i x n rest hf
        have hlt := hp _ _ _ _ hf
        rw [if_pos hlt]
        exact Res.safe_bind (ih _ (by omega) _ rfl) (fun _ _ => trivial)
      · trivial
      · rename_i hf; rw [hf] at hsb; exact hsb
      · rename_i hf; rw [hf] at hsb; exact hsb

theorem decodeN_safe {β : Type} {f : Bytes → Res (β × Nat × Bytes)} (hs : ∀ bs, (f bs).Safe) (n : Nat)
    (bs : Bytes) : (decodeN f n bs).Safe := by
  induction n generalizing bs with
  | zero => trivial
  | succ n ih =>
    exact Res.safe_bind (hs bs) fun a _ => Res.safe_bind (ih _) fun _ _ => trivial

theorem decodeLength_safe (o : Opts) (bs : Bytes) : (decodeLength o bs).Safe := by
  unfold decodeLength
  apply Res.safe_bind
  · unfold readHeader
    split
    · trivial
    · split
      · exact Res.safe_bind (readVarint_safe bs) fun _ _ => trivial
      · split
        · dsimp only; split <;> trivial
        · trivial
  · rintro ⟨r, l, rest⟩ -
    dsimp only
    split
    · trivial
    · split <;> trivial

theorem nextExact_safe {l : Int} (hl : 0 ≤ l) (bs : Bytes) : (nextExact l bs).Safe := by
  unfold nextExact
  rw [if_neg (by omega)]
  split <;> trivial

mutual

theorem Ty.decode_safe : {α : Type} → (t : Ty α) → (o : Opts) → t.robust o → (bs : Bytes) →
    (t.decode o bs).Safe
  | _, .uint w, o, _, bs => by
    simp only [Ty.decode]
    split
    · refine Res.safe_bind (readVarint_safe bs) ?_
      rintro ⟨l, v, rest⟩ -
      dsimp only
      split <;> trivial
    · split <;> trivial
  | _, .array k t, o, hr, bs => by
    simp only [Ty.decode]
    exact decodeN_safe (fun b => Ty.decode_safe t o hr b) k bs
  | _, .slice t, o, hr, bs => by
    simp only [Ty.robust] at hr
    simp only [Ty.decode]
    refine Res.safe_bind (decodeLength_safe o bs) ?_
    rintro ⟨r, l, bs1⟩ h1
    have hl := (decodeLength_ok h1).2.2
    refine Res.safe_bind (nextExact_safe (by dsimp only; omega) _) ?_
    rintro ⟨body, rest⟩ -
    refine Res.safe_bind (decodeMany_safe (fun b => Ty.decode_safe t o hr.2.1 b) ?_ _) fun _ _ => trivial
    intro b x n rest' hx
    have hpos := Ty.decode_pos t o _ _ _ _ hr.2.2 hx
    obtain ⟨p, rfl, rfl, -⟩ := Ty.consumes t o _ _ _ _ hx
    simp; omega
  | _, @Ty.map _ _ _ k t, o, hr, bs => by
    simp only [Ty.robust] at hr
    simp only [Ty.decode]
    refine Res.safe_bind (decodeLength_safe o bs) ?_
    rintro ⟨r, l, bs1⟩ h1
    have hl := (decodeLength_ok h1).2.2
    refine Res.safe_bind (nextExact_safe (by dsimp only; omega) _) ?_
    rintro ⟨body, rest⟩ -
    refine Res.safe_bind (decodeMany_safe ?_ ?_ _) fun _ _ => trivial
    · intro b
      exact Res.safe_bind (Ty.decode_safe k {} hr.2.1 b) fun _ _ =>
        Res.safe_bind (Ty.decode_safe t {} hr.2.2.1 _) fun _ _ => trivial
    · intro b x n rest' hx
      simp only [Res.bind_eq_ok] at hx
      obtain ⟨⟨x1, n1, b1⟩, hx1, ⟨x2, n2, b2⟩, hx2, hx3⟩ := hx
      simp only [Res.ok.injEq, Prod.mk.injEq] at hx3
      obtain ⟨rfl, rfl, rfl⟩ := hx3
      dsimp only at hx2
      have hpos : 0 < n1 ∨ 0 < n2 := by
        rcases hr.2.2.2 with hne | hne
        · exact .inl (Ty.decode_pos k {} _ _ _ _ hne hx1)
        · exact .inr (Ty.decode_pos t {} _ _ _ _ hne hx2)
      obtain ⟨p, rfl, rfl, -⟩ := Ty.consumes k {} _ _ _ _ hx1
      obtain ⟨q, rfl, rfl, -⟩ := Ty.consumes t {} _ _ _ _ hx2
      simp; omega
  | _, .struct fs, o, hr, bs => by
    simp only [Ty.decode]
    exact Fields.decode_safe fs hr bs
  | _, .ptr t, o, hr, bs => by
    simp only [Ty.robust] at hr
    simp only [Ty.decode, hr.1, Bool.false_eq_true, if_false]
    exact Res.safe_bind (Ty.decode_safe t o hr.2 bs) fun _ _ => trivial
  | _, .validated t p, o, hr, bs => by
    simp only [Ty.decode]
    refine Res.safe_bind (Ty.decode_safe t o hr bs) fun _ _ => ?_
    split <;> trivial
  | _, .custom c, o, _, bs => by
    simp only [Ty.decode]
    split
    · split <;> trivial
    · trivial
  | _, .other z, o, _, bs => by simp only [Ty.decode]; trivial

theorem Fields.decode_safe : {α : Type} → (fs : Fields α) → fs.robust → (bs : Bytes) →
    (fs.decode bs).Safe
  | _, .nil, _, bs => by simp only [Fields.decode]; trivial
  | _, .cons o t fs, hr, bs => by
    simp only [Fields.robust] at hr
    simp only [Fields.decode]
    refine Res.safe_bind ?_ fun _ _ => Res.safe_bind (Fields.decode_safe fs hr.2 _) fun _ _ => trivial
    split
    · trivial
    · rename_i ho
      rcases hr.1 with h | h
      · exact absurd h ho
      · exact Ty.decode_safe t o h bs

end

/-! ### Encoding never crashes -/

theorem encodeAll_safe {α : Type} {f : α → Res Bytes} (hs : ∀ a, (f a).Safe) (as : List α) :
    (encodeAll f as).Safe := by
  induction as with
  | nil => trivial
  | cons a as ih => exact Res.safe_bind (hs a) fun _ _ => Res.safe_bind ih fun _ _ => trivial

theorem encodeEntries_safe {κ ν : Type} {f : κ → Res Bytes} {g : ν → Res Bytes}
    (hf : ∀ a, (f a).Safe) (hg : ∀ a, (g a).Safe) (es : List (κ × ν)) :
    (encodeEntries f g es).Safe := by
  induction es with
  | nil => trivial
  | cons e es ih =>
    exact Res.safe_bind (hf _) fun _ _ => Res.safe_bind (hg _) fun _ _ =>
      Res.safe_bind ih fun _ _ => trivial

theorem writeVarint_safe (u : Nat) : (writeVarint u).Safe := by
  unfold writeVarint; split <;> trivial

theorem encodeLength_safe (n : Nat) (o : Opts) : (encodeLength n o).Safe := by
  unfold encodeLength
  repeat' split
  all_goals first | trivial | exact writeVarint_safe _

mutual

theorem Ty.encode_safe : {α : Type} → (t : Ty α) → (o : Opts) → (v : α) → (t.encode o v).Safe
  | _, .uint w, o, v => by
    simp only [Ty.encode]
    split
    · exact writeVarint_safe _
    · trivial
  | _, .array k t, o, v => by
    simp only [Ty.encode]
    exact encodeAll_safe (fun a => Ty.encode_safe t o a) _
  | _, .slice t, o, v => by
    simp only [Ty.encode]
    exact Res.safe_bind (encodeAll_safe (fun a => Ty.encode_safe t o a) _) fun _ _ =>
      Res.safe_bind (encodeLength_safe _ _) fun _ _ => trivial
  | _, @Ty.map _ _ _ k t, o, v => by
    simp only [Ty.encode]
    exact Res.safe_bind (encodeEntries_safe (fun a => Ty.encode_safe k {} a)
      (fun a => Ty.encode_safe t {} a) _) fun _ _ =>
      Res.safe_bind (encodeLength_safe _ _) fun _ _ => trivial
  | _, .struct fs, o, v => by
    simp only [Ty.encode]
    exact Fields.encode_safe fs v
  | _, .ptr t, o, v => by
    cases v with
    | none => simp only [Ty.encode]; split <;> trivial
    | some a =>
      simp only [Ty.encode]
      split
      · exact Res.safe_bind (Ty.encode_safe t o a) fun _ _ => trivial
      · exact Ty.encode_safe t o a
  | _, .validated t p, o, v => by
    simp only [Ty.encode]
    split
    · exact Ty.encode_safe t o v
    · trivial
  | _, .custom c, o, v => by
    simp only [Ty.encode]
    split <;> trivial
  | _, .other z, o, v => by simp only [Ty.encode]; trivial

theorem Fields.encode_safe : {α : Type} → (fs : Fields α) → (v : α) → (fs.encode v).Safe
  | _, .nil, v => by simp only [Fields.encode]; trivial
  | _, .cons o t fs, (a, b) => by
    simp only [Fields.encode]
    refine Res.safe_bind ?_ fun _ _ => Res.safe_bind (Fields.encode_safe fs b) fun _ _ => trivial
    split
    · trivial
    · exact Ty.encode_safe t o a

end

end Verif.Syntax
