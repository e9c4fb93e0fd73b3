import Verif.Syntax.Local

namespace Verif.Syntax

open Verif

/-! ### Validators -/

theorem encodeAll_forall {α : Type} {f : α → Res Bytes} {as : List α} {bs : Bytes}
    (h : encodeAll f as = .ok bs) : ∀ a ∈ as, ∃ x, f a = .ok x := by
  induction as generalizing bs with
  | nil => simp
  | cons a as ih =>
    obtain ⟨x, y, hx, hy, rfl⟩ := encodeAll_cons_ok.mp h
    intro b hb
    rcases List.mem_cons.mp hb with rfl | hb
    · exact ⟨x, hx⟩
    · exact ih hy b hb

theorem encodeEntries_forall {κ ν : Type} {f : κ → Res Bytes} {g : ν → Res Bytes}
    {es : List (κ × ν)} {r : List (Bytes × Bytes)} (h : encodeEntries f g es = .ok r) :
    ∀ e ∈ es, (∃ x, f e.1 = .ok x) ∧ (∃ y, g e.2 = .ok y) := by
  have hF := encodeEntries_forall₂ h
  clear h
  induction hF with
  | nil => simp
  | cons h _ ih =>
    intro e he
    rcases List.mem_cons.mp he with rfl | he
    · exact ⟨⟨_, h.1⟩, ⟨_, h.2⟩⟩
    · exact ih e he

mutual

theorem Ty.encode_allValid : {α : Type} → (t : Ty α) → (o : Opts) → (v : α) → (bs : Bytes) →
    t.encode o v = .ok bs → t.allValid v
  | _, .uint w, o, v, bs => fun _ => by simp only [Ty.allValid]
  | _, .array k t, o, v, bs => fun h => by
    simp only [Ty.encode] at h
    simp only [Ty.allValid]
    intro a ha
    obtain ⟨x, hx⟩ := encodeAll_forall h a ha
    exact Ty.encode_allValid t o a x hx
  | _, .slice t, o, v, bs => fun h => by
    simp only [Ty.encode, Res.bind_eq_ok] at h
    obtain ⟨body, hb, -⟩ := h
    simp only [Ty.allValid]
    intro a ha
    obtain ⟨x, hx⟩ := encodeAll_forall hb a ha
    exact Ty.encode_allValid t o a x hx
  | _, @Ty.map _ _ _ k t, o, v, bs => fun h => by
    simp only [Ty.encode, Res.bind_eq_ok] at h
    obtain ⟨es, hb, -⟩ := h
    simp only [Ty.allValid]
    intro e he
    obtain ⟨⟨x, hx⟩, ⟨y, hy⟩⟩ := encodeEntries_forall hb e he
    exact ⟨Ty.encode_allValid k {} e.1 x hx, Ty.encode_allValid t {} e.2 y hy⟩
  | _, .struct fs, o, v, bs => fun h => by
    simp only [Ty.encode] at h
    exact Fields.encode_allValid fs v bs h
  | _, .ptr t, o, v, bs => fun h => by
    simp only [Ty.allValid]
    rintro a rfl
    simp only [Ty.encode] at h
    split at h
    · simp only [Res.bind_eq_ok] at h
      obtain ⟨x, hx, -⟩ := h
      exact Ty.encode_allValid t o a x hx
    · exact Ty.encode_allValid t o a bs h
  | _, .validated t p, o, v, bs => fun h => by
    simp only [Ty.encode] at h
    split at h
    · rename_i hp
      exact ⟨hp, Ty.encode_allValid t o v bs h⟩
    · simp at h
  | _, .custom c, o, v, bs => fun _ => by simp only [Ty.allValid]
  | _, .other z, o, v, bs => fun _ => by simp only [Ty.allValid]

theorem Fields.encode_allValid : {α : Type} → (fs : Fields α) → (v : α) → (bs : Bytes) →
    fs.encode v = .ok bs → fs.allValid v
  | _, .nil, _, _ => fun _ => by simp only [Fields.allValid]
  | _, .cons o t fs, (a, b), bs => fun h => by
    simp only [Fields.encode, Res.bind_eq_ok] at h
    obtain ⟨x, hx, y, hy, -⟩ := h
    refine ⟨?_, Fields.encode_allValid fs b y hy⟩
    cases ho : o.skip with
    | true => exact .inl rfl
    | false =>
      simp only [ho, Bool.false_eq_true, if_false] at hx
      exact .inr (Ty.encode_allValid t o a x hx)

end

theorem decodeMany_forall {β : Type} {f : Bytes → Res (β × Nat × Bytes)} {bs : Bytes} {xs : List β}
    {m : Nat} (h : decodeMany f bs = .ok (xs, m)) :
    ∀ x ∈ xs, ∃ b n rest, f b = .ok (x, n, rest) := by
  refine decodeMany_induct (P := fun _ xs _ => ∀ x ∈ xs, ∃ b n rest, f b = .ok (x, n, rest)) (by simp) ?_ h
  intro bs x n rest xs m _ hx _ ih y hy
  rcases List.mem_cons.mp hy with rfl | hy
  · exact ⟨_, _, _, hx⟩
  · exact ih y hy

theorem decodeN_forall {β : Type} {f : Bytes → Res (β × Nat × Bytes)} {k : Nat} {bs rest : Bytes}
    {xs : { l : List β // l.length = k }} {m : Nat} (h : decodeN f k bs = .ok (xs, m, rest)) :
    ∀ x ∈ xs.1, ∃ b n rest, f b = .ok (x, n, rest) := by
  induction k generalizing bs rest m with
  | zero =>
    simp only [decodeN, Res.ok.injEq, Prod.mk.injEq] at h
    obtain ⟨rfl, rfl, rfl⟩ := h
    simp
  | succ k ih =>
    simp only [decodeN, Res.bind_eq_ok] at h
    obtain ⟨⟨x, r, bs1⟩, h1, ⟨ys, r', bs2⟩, h2, h3⟩ := h
    simp only [Res.ok.injEq, Prod.mk.injEq] at h3
    obtain ⟨rfl, rfl, rfl⟩ := h3
    intro y hy
    rcases List.mem_cons.mp hy with rfl | hy
    · exact ⟨_, _, _, h1⟩
    · exact ih h2 y hy

theorem mem_mapSet {κ ν : Type} [DecidableEq κ] {m : List (κ × ν)} {k : κ} {v : ν} {e : κ × ν}
    (h : e ∈ mapSet m k v) : e ∈ m ∨ e = (k, v) := by
  induction m with
  | nil => simp [mapSet] at h; exact .inr h
  | cons e' m ih =>
    obtain ⟨k', v'⟩ := e'
    rw [mapSet] at h
    split at h
    · rcases List.mem_cons.mp h with h | h
      · exact .inr h
      · exact .inl (by simp [h])
    · rcases List.mem_cons.mp h with h | h
      · exact .inl (by simp [h])
      · rcases ih h with h | h
        · exact .inl (by simp [h])
        · exact .inr h

theorem mem_mapOfList {κ ν : Type} [DecidableEq κ] {es : List (κ × ν)} {e : κ × ν}
    (h : e ∈ mapOfList es) : e ∈ es := by
  have key : ∀ (es acc : List (κ × ν)), e ∈ es.foldl (fun m e => mapSet m e.1 e.2) acc →
      e ∈ acc ∨ e ∈ es := by
    intro es
    induction es with
    | nil => intro acc h; exact .inl h
    | cons a es ih =>
      intro acc h
      rcases ih _ h with h | h
      · rcases mem_mapSet h with h | h
        · exact .inl h
        · exact .inr (by simp [h])
      · exact .inr (by simp [h])
  rcases key es [] h with h | h
  · simp at h
  · exact h

mutual

theorem Ty.decode_allValid : {α : Type} → (t : Ty α) → (o : Opts) → (bs : Bytes) → (v : α) →
    (n : Nat) → (rest : Bytes) → t.decode o bs = .ok (v, n, rest) → t.allValid v
  | _, .uint w, o, bs, v, n, rest => fun _ => by simp only [Ty.allValid]
  | _, .array k t, o, bs, v, n, rest => fun h => by
    simp only [Ty.decode] at h
    simp only [Ty.allValid]
    intro a ha
    obtain ⟨b, n, rest, hx⟩ := decodeN_forall h a ha
    exact Ty.decode_allValid t o _ _ _ _ hx
  | _, .slice t, o, bs, v, n, rest => fun h => by
    simp only [Ty.decode, Res.bind_eq_ok] at h
    obtain ⟨⟨r, l, bs1⟩, h1, ⟨body, rest'⟩, h2, ⟨vs, m⟩, h3, h4⟩ := h
    simp only [Res.ok.injEq, Prod.mk.injEq] at h4
    obtain ⟨rfl, rfl, rfl⟩ := h4
    simp only [Ty.allValid]
    intro a ha
    obtain ⟨b, n, rest, hx⟩ := decodeMany_forall h3 a ha
    exact Ty.decode_allValid t o _ _ _ _ hx
  | _, @Ty.map _ _ _ k t, o, bs, v, n, rest => fun h => by
    simp only [Ty.decode, Res.bind_eq_ok] at h
    obtain ⟨⟨r, l, bs1⟩, h1, ⟨body, rest'⟩, h2, ⟨vs, m⟩, h3, h4⟩ := h
    simp only [Res.ok.injEq, Prod.mk.injEq] at h4
    obtain ⟨rfl, rfl, rfl⟩ := h4
    simp only [Ty.allValid]
    intro e he
    obtain ⟨b, n, rest, hx⟩ := decodeMany_forall h3 e (mem_mapOfList he)
    simp only [Res.bind_eq_ok] at hx
    obtain ⟨⟨x1, n1, b1⟩, hx1, ⟨x2, n2, b2⟩, hx2, hx3⟩ := hx
    simp only [Res.ok.injEq, Prod.mk.injEq] at hx3
    obtain ⟨rfl, rfl, rfl⟩ := hx3
    exact ⟨Ty.decode_allValid k {} _ _ _ _ hx1, Ty.decode_allValid t {} _ _ _ _ hx2⟩
  | _, .struct fs, o, bs, v, n, rest => fun h => by
    simp only [Ty.decode] at h
    exact Fields.decode_allValid fs bs v n rest h
  | _, .ptr t, o, bs, v, n, rest => fun h => by
    simp only [Ty.allValid]
    rintro a rfl
    simp only [Ty.decode] at h
    split at h
    · split at h
      · simp at h
      · split at h
        · simp at h
        · split at h
          · simp only [Res.bind_eq_ok] at h
            obtain ⟨⟨x, n', bs2⟩, h1, h2⟩ := h
            simp only [Res.ok.injEq, Prod.mk.injEq, Option.some.injEq] at h2
            obtain ⟨rfl, rfl, rfl⟩ := h2
            exact Ty.decode_allValid t o _ _ _ _ h1
          · simp at h
    · simp only [Res.bind_eq_ok] at h
      obtain ⟨⟨x, n', bs2⟩, h1, h2⟩ := h
      simp only [Res.ok.injEq, Prod.mk.injEq, Option.some.injEq] at h2
      obtain ⟨rfl, rfl, rfl⟩ := h2
      exact Ty.decode_allValid t o _ _ _ _ h1
  | _, .validated t p, o, bs, v, n, rest => fun h => by
    simp only [Ty.decode, Res.bind_eq_ok] at h
    obtain ⟨⟨x, n', bs2⟩, h1, h2⟩ := h
    dsimp only at h2
    split at h2
    · rename_i hp
      simp only [Res.ok.injEq, Prod.mk.injEq] at h2
      obtain ⟨rfl, rfl, rfl⟩ := h2
      exact ⟨hp, Ty.decode_allValid t o _ _ _ _ h1⟩
    · simp at h2
  | _, .custom c, o, bs, v, n, rest => fun _ => by simp only [Ty.allValid]
  | _, .other z, o, bs, v, n, rest => fun _ => by simp only [Ty.allValid]

theorem Fields.decode_allValid : {α : Type} → (fs : Fields α) → (bs : Bytes) → (v : α) →
    (n : Nat) → (rest : Bytes) → fs.decode bs = .ok (v, n, rest) → fs.allValid v
  | _, .nil, bs, v, n, rest => fun _ => by simp only [Fields.allValid]
  | _, .cons o t fs, bs, v, n, rest => fun h => by
    simp only [Fields.decode, Res.bind_eq_ok] at h
    obtain ⟨⟨a, n1, bs1⟩, h1, ⟨b, n2, bs2⟩, h2, h3⟩ := h
    simp only [Res.ok.injEq, Prod.mk.injEq] at h3
    obtain ⟨rfl, rfl, rfl⟩ := h3
    refine ⟨?_, Fields.decode_allValid fs _ _ _ _ h2⟩
    cases ho : o.skip with
    | true => exact .inl rfl
    | false =>
      simp only [ho, Bool.false_eq_true, if_false] at h1
      exact .inr (Ty.decode_allValid t o _ _ _ _ h1)

end

end Verif.Syntax
