import Verif.Syntax.RoundTrip

namespace Verif.Syntax

open Verif

/-! ### What decoders consume -/

/-- `x` consumed exactly the prefix `pre` of its input. -/
def Consumes {α : Type} (f : Bytes → Res (α × Nat × Bytes)) (bs : Bytes) (v : α) (n : Nat)
    (rest : Bytes) (P : Prop) : Prop :=
  ∃ pre, bs = pre ++ rest ∧ pre.length = n ∧ (P → ∀ suf, f (pre ++ suf) = .ok (v, n, suf))

theorem readHeader_ok {o : Opts} {bs rest : Bytes} {r : Nat} {l : Int}
    (h : readHeader o bs = .ok (r, l, rest)) :
    ∃ pre, bs = pre ++ rest ∧ pre.length = r ∧
      (o.omitHeader = false → 0 < r ∧ ∀ suf, readHeader o (pre ++ suf) = .ok (r, l, suf)) := by
  unfold readHeader at h
  split at h
  · rename_i ho
    simp only [Res.ok.injEq, Prod.mk.injEq] at h
    obtain ⟨rfl, rfl, rfl⟩ := h
    exact ⟨[], rfl, rfl, fun h' => by simp [ho] at h'⟩
  · rename_i ho
    split at h
    · rename_i hv
      simp only [Res.bind_eq_ok] at h
      obtain ⟨⟨r', l', rest'⟩, h1, h2⟩ := h
      simp only [Res.ok.injEq, Prod.mk.injEq] at h2
      obtain ⟨rfl, rfl, rfl⟩ := h2
      obtain ⟨f, more, rfl, hm, rfl, rfl⟩ := readVarint_ok h1
      refine ⟨f :: more, by simp, by simp, fun _ => ⟨by omega, fun suf => ?_⟩⟩
      unfold readHeader
      rw [if_neg ho, if_pos hv, List.cons_append, readVarint_cons f more suf hm]
      have hp : 0 < 2 ^ (f.toNat / 64) := Nat.pow_pos (by decide)
      have : more.length + 1 = 2 ^ (f.toNat / 64) := by omega
      simp [this]
    · rename_i hv
      split at h
      · rename_i hs
        dsimp only at h
        split at h
        · rename_i hlen
          simp only [Res.ok.injEq, Prod.mk.injEq] at h
          obtain ⟨rfl, rfl, rfl⟩ := h
          refine ⟨bs.take o.headerSize.toNat, by simp, hlen, fun _ => ⟨by omega, fun suf => ?_⟩⟩
          unfold readHeader
          rw [if_neg ho, if_neg hv, if_pos hs]
          dsimp only
          rw [take_append_of_len hlen, drop_append_of_len hlen, if_pos hlen]
        · simp at h
      · simp at h

theorem decodeLength_ok {o : Opts} {bs rest : Bytes} {r : Nat} {l : Int}
    (h : decodeLength o bs = .ok (r, l, rest)) :
    readHeader o bs = .ok (r, l, rest) ∧ (o.maxSize > 0 → l ≤ o.maxSize) ∧ o.minSize ≤ l := by
  unfold decodeLength at h
  simp only [Res.bind_eq_ok] at h
  obtain ⟨⟨r', l', rest'⟩, h1, h2⟩ := h
  dsimp only at h2
  split at h2
  · simp at h2
  · split at h2
    · simp at h2
    · simp only [Res.ok.injEq, Prod.mk.injEq] at h2
      obtain ⟨rfl, rfl, rfl⟩ := h2
      exact ⟨h1, by omega, by omega⟩

theorem decodeLength_consumes {o : Opts} {bs rest : Bytes} {r : Nat} {l : Int}
    (h : decodeLength o bs = .ok (r, l, rest)) :
    ∃ pre, bs = pre ++ rest ∧ pre.length = r ∧
      (o.omitHeader = false → 0 < r ∧ ∀ suf, decodeLength o (pre ++ suf) = .ok (r, l, suf)) := by
  obtain ⟨h1, h2, h3⟩ := decodeLength_ok h
  obtain ⟨pre, hp1, hp2, hp3⟩ := readHeader_ok h1
  refine ⟨pre, hp1, hp2, fun ho => ⟨(hp3 ho).1, fun suf => ?_⟩⟩
  unfold decodeLength
  rw [(hp3 ho).2 suf]
  simp only [Res.bind_ok]
  rw [if_neg (by omega), if_neg (by omega)]

theorem nextExact_ok {l : Int} {bs body rest : Bytes} (h : nextExact l bs = .ok (body, rest)) :
    0 ≤ l ∧ bs = body ++ rest ∧ (body.length : Int) = l := by
  unfold nextExact at h
  split at h
  · simp at h
  · split at h
    · rename_i hl hlen
      simp only [Res.ok.injEq, Prod.mk.injEq] at h
      obtain ⟨rfl, rfl⟩ := h
      refine ⟨by omega, by simp, by rw [hlen]; omega⟩
    · simp at h

theorem decodeMany_induct {β : Type} {f : Bytes → Res (β × Nat × Bytes)}
    {P : Bytes → List β → Nat → Prop} (h0 : P [] [] 0)
    (hs : ∀ bs x n rest xs m, bs ≠ [] → f bs = .ok (x, n, rest) → rest.length < bs.length → P rest xs m →
      P bs (x :: xs) (n + m)) :
    ∀ {bs xs m}, decodeMany f bs = .ok (xs, m) → P bs xs m := by
  intro bs
  induction hl : bs.length using Nat.strongRecOn generalizing bs with
  | _ len ih =>
    intro xs m h
    cases bs with
    | nil =>
      rw [decodeMany_nil] at h
      simp only [Res.ok.injEq, Prod.mk.injEq] at h
      obtain ⟨rfl, rfl⟩ := h
      exact h0
    | cons b bt =>
      rw [decodeMany] at h
      split at h
      · rename_i x n rest hf
        split at h
        · rename_i hlt
          simp only [Res.bind_eq_ok] at h
          obtain ⟨⟨xs', m'⟩, h1, h2⟩ := h
          simp only [Res.ok.injEq, Prod.mk.injEq] at h2
          obtain ⟨rfl, rfl⟩ := h2
          exact hs _ _ _ _ _ _ (by simp) hf hlt (ih _ (by omega) rfl h1)
        · simp at h
      all_goals simp at h

theorem decodeMany_count {β : Type} {f : Bytes → Res (β × Nat × Bytes)}
    (hf : ∀ bs x n rest, f bs = .ok (x, n, rest) → ∃ pre, bs = pre ++ rest ∧ pre.length = n)
    {bs : Bytes} {xs : List β} {m : Nat} (h : decodeMany f bs = .ok (xs, m)) : m = bs.length := by
  refine decodeMany_induct (P := fun bs _ m => m = bs.length) rfl ?_ h
  intro bs x n rest xs m _ hx _ ih
  obtain ⟨pre, rfl, rfl⟩ := hf _ _ _ _ hx
  simp [ih]

theorem decodeN_consumes {β : Type} {f : Bytes → Res (β × Nat × Bytes)} {P : Prop}
    (hf : ∀ bs x n rest, f bs = .ok (x, n, rest) → Consumes f bs x n rest P)
    {k : Nat} {bs rest : Bytes} {xs : { l : List β // l.length = k }} {m : Nat}
    (h : decodeN f k bs = .ok (xs, m, rest)) : Consumes (decodeN f k) bs xs m rest P := by
  induction k generalizing bs rest m with
  | zero =>
    simp only [decodeN, Res.ok.injEq, Prod.mk.injEq] at h
    obtain ⟨rfl, rfl, rfl⟩ := h
    exact ⟨[], rfl, rfl, fun _ suf => rfl⟩
  | succ k ih =>
    simp only [decodeN, Res.bind_eq_ok] at h
    obtain ⟨⟨x, r, bs1⟩, h1, ⟨ys, r', bs2⟩, h2, h3⟩ := h
    simp only [Res.ok.injEq, Prod.mk.injEq] at h3
    obtain ⟨rfl, rfl, rfl⟩ := h3
    obtain ⟨p1, rfl, rfl, hp1⟩ := hf _ _ _ _ h1
    obtain ⟨p2, rfl, rfl, hp2⟩ := ih h2
    refine ⟨p1 ++ p2, by simp, by simp, fun hP suf => ?_⟩
    simp only [decodeN, List.append_assoc, hp1 hP, Res.bind_ok, hp2 hP]

mutual

theorem Ty.consumes : {α : Type} → (t : Ty α) → (o : Opts) → (bs : Bytes) → (v : α) → (n : Nat) →
    (rest : Bytes) → t.decode o bs = .ok (v, n, rest) →
    Consumes (t.decode o) bs v n rest (t.headed o ∧ t.local')
  | _, .uint w, o, bs, v, n, rest => fun h => by
    simp only [Ty.decode] at h
    split at h
    · rename_i ho
      simp only [Res.bind_eq_ok] at h
      obtain ⟨⟨r', l', rest'⟩, h1, h2⟩ := h
      dsimp only at h2
      split at h2
      · simp at h2
      · rename_i hw
        simp only [Res.ok.injEq, Prod.mk.injEq] at h2
        obtain ⟨rfl, rfl, rfl⟩ := h2
        obtain ⟨f, more, rfl, hm, rfl, rfl⟩ := readVarint_ok h1
        refine ⟨f :: more, by simp, by simp, fun _ suf => ?_⟩
        have hp : 0 < 2 ^ (f.toNat / 64) := Nat.pow_pos (by decide)
        have : more.length + 1 = 2 ^ (f.toNat / 64) := by omega
        rw [this] at hw ⊢
        simp only [Ty.decode]
        rw [if_pos ho, List.cons_append, readVarint_cons f more suf hm]
        simp only [Res.bind_ok]
        rw [if_neg hw]
    · rename_i ho
      split at h
      · rename_i hlen
        simp only [Res.ok.injEq, Prod.mk.injEq] at h
        obtain ⟨rfl, rfl, rfl⟩ := h
        refine ⟨bs.take w.bytes, by simp, hlen, fun _ suf => ?_⟩
        simp only [Ty.decode]
        rw [if_neg ho, take_append_of_len hlen, drop_append_of_len hlen, if_pos hlen]
      · simp at h
  | _, .array k t, o, bs, v, n, rest => fun h => by
    simp only [Ty.decode] at h
    have e : (Ty.array k t).decode o = decodeN (t.decode o) k := by funext b; simp only [Ty.decode]
    rw [e]
    simp only [Ty.headed, Ty.local']
    exact decodeN_consumes (fun bs x n rest hx => Ty.consumes t o bs x n rest hx) h
  | _, .slice t, o, bs, v, n, rest => fun h => by
    simp only [Ty.decode, Res.bind_eq_ok] at h
    obtain ⟨⟨r, l, bs1⟩, h1, ⟨body, rest'⟩, h2, ⟨vs, m⟩, h3, h4⟩ := h
    simp only [Res.ok.injEq, Prod.mk.injEq] at h4
    obtain ⟨rfl, rfl, rfl⟩ := h4
    obtain ⟨pre, rfl, rfl, hp⟩ := decodeLength_consumes h1
    dsimp only at h2 h3
    obtain ⟨hl, rfl, hlen⟩ := nextExact_ok h2
    have hm : m = body.length := decodeMany_count (fun bs x n rest hx => by
      obtain ⟨p, h1, h2, -⟩ := Ty.consumes t o bs x n rest hx
      exact ⟨p, h1, h2⟩) h3
    subst hm
    refine ⟨pre ++ body, by simp, by simp, fun hP suf => ?_⟩
    simp only [Ty.headed] at hP
    simp only [Ty.decode, List.append_assoc]
    rw [(hp hP.1).2]
    simp only [Res.bind_ok]
    rw [← hlen, nextExact_append]
    simp only [Res.bind_ok, h3]
  | _, @Ty.map _ _ _ k t, o, bs, v, n, rest => fun h => by
    simp only [Ty.decode, Res.bind_eq_ok] at h
    obtain ⟨⟨r, l, bs1⟩, h1, ⟨body, rest'⟩, h2, ⟨vs, m⟩, h3, h4⟩ := h
    simp only [Res.ok.injEq, Prod.mk.injEq] at h4
    obtain ⟨rfl, rfl, rfl⟩ := h4
    obtain ⟨pre, rfl, rfl, hp⟩ := decodeLength_consumes h1
    dsimp only at h2 h3
    obtain ⟨hl, rfl, hlen⟩ := nextExact_ok h2
    have hm : m = body.length := decodeMany_count (fun bs x n rest hx => by
      simp only [Res.bind_eq_ok] at hx
      obtain ⟨⟨x1, n1, b1⟩, hx1, ⟨x2, n2, b2⟩, hx2, hx3⟩ := hx
      simp only [Res.ok.injEq, Prod.mk.injEq] at hx3
      obtain ⟨rfl, rfl, rfl⟩ := hx3
      obtain ⟨p, rfl, rfl, -⟩ := Ty.consumes k {} _ _ _ _ hx1
      obtain ⟨q, rfl, rfl, -⟩ := Ty.consumes t {} _ _ _ _ hx2
      exact ⟨p ++ q, by simp, by simp⟩) h3
    subst hm
    refine ⟨pre ++ body, by simp, by simp, fun hP suf => ?_⟩
    simp only [Ty.headed] at hP
    simp only [Ty.decode, List.append_assoc]
    rw [(hp hP.1).2]
    simp only [Res.bind_ok]
    rw [← hlen, nextExact_append]
    simp only [Res.bind_ok, h3]
  | _, .struct fs, o, bs, v, n, rest => fun h => by
    simp only [Ty.decode] at h
    have e : (Ty.struct fs).decode o = fs.decode := by funext b; simp only [Ty.decode]
    rw [e]
    simp only [Ty.headed, Ty.local']
    exact Fields.consumes fs bs v n rest h
  | _, .ptr t, o, bs, v, n, rest => fun h => by
    simp only [Ty.decode] at h
    simp only [Ty.headed, Ty.local']
    split at h
    · rename_i ho
      split at h
      · simp at h
      · rename_i flag bs1
        split at h
        · rename_i hf
          simp only [Res.ok.injEq, Prod.mk.injEq] at h
          obtain ⟨rfl, rfl, rfl⟩ := h
          refine ⟨[flag], by simp, by simp, fun _ suf => ?_⟩
          simp [Ty.decode, ho, hf]
        · rename_i hf
          split at h
          · rename_i hf1
            simp only [Res.bind_eq_ok] at h
            obtain ⟨⟨x, n', bs2⟩, h1, h2⟩ := h
            simp only [Res.ok.injEq, Prod.mk.injEq] at h2
            obtain ⟨rfl, rfl, rfl⟩ := h2
            obtain ⟨p, rfl, rfl, hp⟩ := Ty.consumes t o _ _ _ _ h1
            refine ⟨flag :: p, by simp, by simp [Nat.add_comm], fun hP suf => ?_⟩
            simp only [Ty.decode, List.cons_append]
            rw [if_pos ho, if_neg hf, if_pos hf1, hp hP suf]
            simp
          · simp at h
    · rename_i ho
      simp only [Res.bind_eq_ok] at h
      obtain ⟨⟨x, n', bs2⟩, h1, h2⟩ := h
      simp only [Res.ok.injEq, Prod.mk.injEq] at h2
      obtain ⟨rfl, rfl, rfl⟩ := h2
      obtain ⟨p, rfl, rfl, hp⟩ := Ty.consumes t o _ _ _ _ h1
      refine ⟨p, by simp, by simp, fun hP suf => ?_⟩
      simp only [Ty.decode]
      rw [if_neg ho, hp hP suf]
      simp
  | _, .validated t p, o, bs, v, n, rest => fun h => by
    simp only [Ty.decode, Res.bind_eq_ok] at h
    obtain ⟨⟨x, n', bs2⟩, h1, h2⟩ := h
    dsimp only at h2
    split at h2
    · rename_i hv
      simp only [Res.ok.injEq, Prod.mk.injEq] at h2
      obtain ⟨rfl, rfl, rfl⟩ := h2
      obtain ⟨q, rfl, rfl, hq⟩ := Ty.consumes t o _ _ _ _ h1
      refine ⟨q, by simp, by simp, fun hP suf => ?_⟩
      simp only [Ty.headed, Ty.local'] at hP
      simp only [Ty.decode]
      rw [hq hP suf]
      simp [hv]
    · simp at h2
  | _, .custom c, o, bs, v, n, rest => fun h => by
    simp only [Ty.decode] at h
    split at h
    · rename_i x n' hu
      split at h
      · simp at h
      · rename_i hn
        simp only [Res.ok.injEq, Prod.mk.injEq] at h
        obtain ⟨rfl, rfl, rfl⟩ := h
        have hlen : (bs.take n').length = n' := by rw [List.length_take]; omega
        refine ⟨bs.take n', by simp, hlen, fun hP suf => ?_⟩
        simp only [Ty.local'] at hP
        simp only [Ty.decode, hP.2 bs x n' hu suf]
        rw [if_neg (by simp; omega), drop_append_of_len hlen]
    · simp at h
  | _, .other z, o, bs, v, n, rest => fun h => by simp [Ty.decode] at h

theorem Fields.consumes : {α : Type} → (fs : Fields α) → (bs : Bytes) → (v : α) → (n : Nat) →
    (rest : Bytes) → fs.decode bs = .ok (v, n, rest) →
    Consumes fs.decode bs v n rest (fs.headed ∧ fs.local')
  | _, .nil, bs, v, n, rest => fun h => by
    simp only [Fields.decode, Res.ok.injEq, Prod.mk.injEq] at h
    obtain ⟨-, rfl, rfl⟩ := h
    exact ⟨[], rfl, rfl, fun _ suf => by simp [Fields.decode]⟩
  | _, .cons o t fs, bs, v, n, rest => fun h => by
    simp only [Fields.decode, Res.bind_eq_ok] at h
    obtain ⟨⟨a, n1, bs1⟩, h1, ⟨b, n2, bs2⟩, h2, h3⟩ := h
    simp only [Res.ok.injEq, Prod.mk.injEq] at h3
    obtain ⟨rfl, rfl, rfl⟩ := h3
    obtain ⟨q, rfl, rfl, hq⟩ := Fields.consumes fs _ _ _ _ h2
    simp only [Fields.headed, Fields.local']
    cases ho : o.skip with
    | true =>
      simp only [ho, if_true, Res.ok.injEq, Prod.mk.injEq] at h1
      obtain ⟨rfl, rfl, rfl⟩ := h1
      refine ⟨q, by simp, by simp, fun hP suf => ?_⟩
      simp [Fields.decode, ho, hq ⟨hP.1.2, hP.2.2⟩ suf]
    | false =>
      simp only [ho, Bool.false_eq_true, if_false] at h1
      obtain ⟨p, rfl, rfl, hp⟩ := Ty.consumes t o _ _ _ _ h1
      refine ⟨p ++ q, by simp, by simp, fun hP suf => ?_⟩
      simp only [Bool.false_eq_true, false_or] at hP
      simp [Fields.decode, ho, List.append_assoc, hp ⟨hP.1.1, hP.2.1⟩, hq ⟨hP.1.2, hP.2.2⟩ suf]

end

end Verif.Syntax
