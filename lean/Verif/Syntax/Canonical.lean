import Verif.Syntax.Valid

namespace Verif.Syntax

open Verif

/-! ### Re-encoding what was decoded -/

/-- `f`-decoding then `g`-encoding reproduces the consumed bytes. -/
def Reenc {α : Type} (f : Bytes → Res (α × Nat × Bytes)) (g : α → Res Bytes) : Prop :=
  ∀ bs v n rest, f bs = .ok (v, n, rest) → ∃ pre, bs = pre ++ rest ∧ g v = .ok pre

theorem decodeMany_reenc {α : Type} {f : Bytes → Res (α × Nat × Bytes)} {g : α → Res Bytes}
    (h : Reenc f g) {bs : Bytes} {xs : List α} {m : Nat} (hd : decodeMany f bs = .ok (xs, m)) :
    encodeAll g xs = .ok bs := by
  refine decodeMany_induct (P := fun bs xs _ => encodeAll g xs = .ok bs) rfl ?_ hd
  intro bs x n rest xs m _ hx _ ih
  obtain ⟨pre, rfl, hg⟩ := h _ _ _ _ hx
  exact encodeAll_cons_ok.mpr ⟨pre, rest, hg, ih, rfl⟩

theorem decodeN_reenc {α : Type} {f : Bytes → Res (α × Nat × Bytes)} {g : α → Res Bytes}
    (h : Reenc f g) {k : Nat} {bs rest : Bytes} {xs : { l : List α // l.length = k }} {m : Nat}
    (hd : decodeN f k bs = .ok (xs, m, rest)) :
    ∃ pre, bs = pre ++ rest ∧ encodeAll g xs.1 = .ok pre := by
  induction k generalizing bs rest m with
  | zero =>
    simp only [decodeN, Res.ok.injEq, Prod.mk.injEq] at hd
    obtain ⟨rfl, rfl, rfl⟩ := hd
    exact ⟨[], rfl, rfl⟩
  | succ k ih =>
    simp only [decodeN, Res.bind_eq_ok] at hd
    obtain ⟨⟨x, r, bs1⟩, h1, ⟨ys, r', bs2⟩, h2, h3⟩ := hd
    simp only [Res.ok.injEq, Prod.mk.injEq] at h3
    obtain ⟨rfl, rfl, rfl⟩ := h3
    obtain ⟨p, rfl, hp⟩ := h _ _ _ _ h1
    obtain ⟨q, rfl, hq⟩ := ih h2
    exact ⟨p ++ q, by simp, encodeAll_cons_ok.mpr ⟨p, q, hp, hq, rfl⟩⟩

/-- A decoded fixed-size (or absent) header is what the encoder writes for that length. -/
theorem encodeLength_decodeLength {o : Opts} {bs body rest : Bytes} {r : Nat} {l : Int}
    (hv : o.varintHeader = false) (hs : o.headerSize ≤ 8)
    (h : decodeLength o bs = .ok (r, l, body ++ rest)) (hl : (body.length : Int) = l) :
    ∃ hdr, bs = hdr ++ (body ++ rest) ∧ encodeLength body.length o = .ok hdr := by
  obtain ⟨h1, hmax, hmin⟩ := decodeLength_ok h
  unfold readHeader at h1
  unfold encodeLength
  rw [if_neg (by omega), if_neg (by omega)]
  split at h1
  · rename_i ho
    simp only [Res.ok.injEq, Prod.mk.injEq] at h1
    obtain ⟨-, -, rfl⟩ := h1
    exact ⟨[], rfl, if_pos ho⟩
  · rename_i ho
    rw [if_neg ho]
    simp only [hv, Bool.false_eq_true, if_false] at h1 ⊢
    split at h1
    · rename_i hpos
      split at h1
      · rename_i hlen
        simp only [Res.ok.injEq, Prod.mk.injEq] at h1
        obtain ⟨-, hll, hrest⟩ := h1
        rw [if_pos hpos]
        have hle8 : (bs.take o.headerSize.toNat).length ≤ 8 := by omega
        rw [decodeUint_of_length_le hle8] at hll
        have hb : beNat (bs.take o.headerSize.toNat) = body.length := by
          unfold toInt64 at hll
          split at hll
          · omega
          · have h3 := beNat_lt (bs.take o.headerSize.toNat)
            have h4 : 256 ^ (bs.take o.headerSize.toNat).length ≤ 256 ^ 8 :=
              Nat.pow_le_pow_right (by decide) hle8
            have h5 : (256 : Nat) ^ 8 = 2 ^ 64 := by decide
            omega
        have hlt : body.length < 256 ^ o.headerSize.toNat := by
          rw [← hb]; conv => rhs; rw [← hlen]
          exact beNat_lt _
        rw [if_neg]
        · refine ⟨bs.take o.headerSize.toNat, ?_, ?_⟩
          · rw [← hrest]; simp
          · rw [← hb]
            congr 1
            have h6 := beBytes_beNat (bs.take o.headerSize.toNat)
            rwa [hlen] at h6
        · rw [Nat.shiftRight_eq_div_pow, Nat.pow_mul, Nat.div_eq_of_lt]
          · omega
          · exact hlt
      · simp at h1
    · simp at h1

mutual

theorem Ty.reenc : {α : Type} → (t : Ty α) → (o : Opts) → t.fixed o →
    Reenc (t.decode o) (t.encode o)
  | _, .uint w, o, hf => by
    intro bs v n rest h
    simp only [Ty.fixed] at hf
    simp only [Ty.decode, hf, Bool.false_eq_true, if_false] at h
    split at h
    · rename_i hlen
      simp only [Res.ok.injEq, Prod.mk.injEq] at h
      obtain ⟨rfl, rfl, rfl⟩ := h
      refine ⟨bs.take w.bytes, by simp, ?_⟩
      simp only [Ty.encode, hf, Bool.false_eq_true, if_false]
      have hle : (bs.take w.bytes).length ≤ 8 := by
        rcases w.bytes_cases with h | h | h | h <;> omega
      rw [decodeUint_of_length_le hle, w.getNat_setNat]
      · conv => lhs; arg 1; arg 1; rw [← hlen]
        rw [beBytes_beNat]
      · conv => rhs; rw [← hlen]
        exact beNat_lt _
    · simp at h
  | _, .array k t, o, hf => by
    intro bs v n rest h
    simp only [Ty.decode] at h
    simp only [Ty.encode]
    exact decodeN_reenc (Ty.reenc t o hf) h
  | _, .slice t, o, hf => by
    intro bs v n rest h
    simp only [Ty.fixed] at hf
    simp only [Ty.decode, Res.bind_eq_ok] at h
    obtain ⟨⟨r, l, bs1⟩, h1, ⟨body, rest'⟩, h2, ⟨vs, m⟩, h3, h4⟩ := h
    simp only [Res.ok.injEq, Prod.mk.injEq] at h4
    obtain ⟨rfl, rfl, rfl⟩ := h4
    dsimp only at h2 h3
    obtain ⟨hl, rfl, hlen⟩ := nextExact_ok h2
    obtain ⟨hdr, rfl, he⟩ := encodeLength_decodeLength hf.1 hf.2.1 h1 hlen
    refine ⟨hdr ++ body, by simp, ?_⟩
    simp only [Ty.encode]
    have := decodeMany_reenc (Ty.reenc t o hf.2.2) h3
    rw [this]
    simp only [Res.bind_ok, he]
  | _, @Ty.map _ _ _ k t, o, hf => by simp [Ty.fixed] at hf
  | _, .struct fs, o, hf => by
    intro bs v n rest h
    simp only [Ty.decode] at h
    simp only [Ty.encode]
    exact Fields.reenc fs hf bs v n rest h
  | _, .ptr t, o, hf => by
    intro bs v n rest h
    simp only [Ty.fixed] at hf
    simp only [Ty.decode] at h
    split at h
    · rename_i ho
      split at h
      · simp at h
      · rename_i flag bs1
        split at h
        · rename_i hz
          simp only [Res.ok.injEq, Prod.mk.injEq] at h
          obtain ⟨rfl, rfl, rfl⟩ := h
          exact ⟨[flag], by simp, by simp [Ty.encode, ho, hz]⟩
        · split at h
          · rename_i h1
            simp only [Res.bind_eq_ok] at h
            obtain ⟨⟨x, n', bs2⟩, hx, h2⟩ := h
            simp only [Res.ok.injEq, Prod.mk.injEq] at h2
            obtain ⟨rfl, rfl, rfl⟩ := h2
            obtain ⟨p, rfl, hp⟩ := Ty.reenc t o hf _ _ _ _ hx
            exact ⟨flag :: p, by simp, by simp [Ty.encode, ho, hp, h1]⟩
          · simp at h
    · rename_i ho
      simp only [Res.bind_eq_ok] at h
      obtain ⟨⟨x, n', bs2⟩, hx, h2⟩ := h
      simp only [Res.ok.injEq, Prod.mk.injEq] at h2
      obtain ⟨rfl, rfl, rfl⟩ := h2
      obtain ⟨p, rfl, hp⟩ := Ty.reenc t o hf _ _ _ _ hx
      exact ⟨p, by simp, by simp [Ty.encode, ho, hp]⟩
  | _, .validated t p, o, hf => by
    intro bs v n rest h
    simp only [Ty.decode, Res.bind_eq_ok] at h
    obtain ⟨⟨x, n', bs2⟩, hx, h2⟩ := h
    dsimp only at h2
    split at h2
    · rename_i hv
      simp only [Res.ok.injEq, Prod.mk.injEq] at h2
      obtain ⟨rfl, rfl, rfl⟩ := h2
      obtain ⟨q, rfl, hq⟩ := Ty.reenc t o hf _ _ _ _ hx
      exact ⟨q, rfl, by simp [Ty.encode, hv, hq]⟩
    · simp at h2
  | _, .custom c, o, hf => by simp [Ty.fixed] at hf
  | _, .other z, o, _ => by intro bs v n rest h; simp [Ty.decode] at h

theorem Fields.reenc : {α : Type} → (fs : Fields α) → fs.fixed → Reenc fs.decode fs.encode
  | _, .nil, _ => by
    intro bs v n rest h
    simp only [Fields.decode, Res.ok.injEq, Prod.mk.injEq] at h
    obtain ⟨-, rfl, rfl⟩ := h
    exact ⟨[], rfl, by simp [Fields.encode]⟩
  | _, .cons o t fs, hf => by
    intro bs v n rest h
    simp only [Fields.fixed] at hf
    simp only [Fields.decode, hf.1, Bool.false_eq_true, if_false, Res.bind_eq_ok] at h
    obtain ⟨⟨a, n1, bs1⟩, h1, ⟨b, n2, bs2⟩, h2, h3⟩ := h
    simp only [Res.ok.injEq, Prod.mk.injEq] at h3
    obtain ⟨rfl, rfl, rfl⟩ := h3
    obtain ⟨p, rfl, hp⟩ := Ty.reenc t o hf.2.1 _ _ _ _ h1
    obtain ⟨q, rfl, hq⟩ := Fields.reenc fs hf.2.2 _ _ _ _ h2
    exact ⟨p ++ q, by simp, by simp [Fields.encode, hf.1, hp, hq]⟩

end

end Verif.Syntax
