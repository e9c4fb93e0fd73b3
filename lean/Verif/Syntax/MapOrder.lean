import Verif.Syntax.RoundTrip

namespace Verif.Syntax

open Verif

/-! ### Order of map entries -/

theorem bytesLe_refl (a : Bytes) : bytesLe a a = true := by
  induction a with
  | nil => rfl
  | cons x a ih => simp [bytesLe, ih]

theorem bytesLe_total (a b : Bytes) : (bytesLe a b || bytesLe b a) = true := by
  induction a generalizing b with
  | nil => simp [bytesLe]
  | cons x a ih =>
    cases b with
    | nil => simp [bytesLe]
    | cons y b =>
      simp only [bytesLe]
      rcases Nat.lt_trichotomy x.toNat y.toNat with h | h | h
      · simp [h]
      · simp only [h, Nat.lt_irrefl, if_false]; exact ih b
      · simp [h]

theorem bytesLe_antisymm {a b : Bytes} (h1 : bytesLe a b = true) (h2 : bytesLe b a = true) :
    a = b := by
  induction a generalizing b with
  | nil => cases b with
    | nil => rfl
    | cons y b => simp [bytesLe] at h2
  | cons x a ih =>
    cases b with
    | nil => simp [bytesLe] at h1
    | cons y b =>
      simp only [bytesLe] at h1 h2
      rcases Nat.lt_trichotomy x.toNat y.toNat with h | h | h
      · have := Nat.lt_asymm h; simp [h, this] at h2
      · simp only [h, Nat.lt_irrefl, if_false] at h1 h2
        rw [ih h1 h2, UInt8.toNat_inj.mp h]
      · have := Nat.lt_asymm h; simp [h, this] at h1

theorem bytesLe_trans {a b c : Bytes} (h1 : bytesLe a b = true) (h2 : bytesLe b c = true) :
    bytesLe a c = true := by
  induction a generalizing b c with
  | nil => simp [bytesLe]
  | cons x a ih =>
    cases b with
    | nil => simp [bytesLe] at h1
    | cons y b =>
      cases c with
      | nil => simp [bytesLe] at h2
      | cons z c =>
        simp only [bytesLe] at h1 h2 ⊢
        rcases Nat.lt_trichotomy x.toNat y.toNat with h | h | h <;>
        rcases Nat.lt_trichotomy y.toNat z.toNat with h' | h' | h'
        · simp [Nat.lt_trans h h']
        · simp [← h', h]
        · simp [h', Nat.lt_asymm h'] at h2
        · simp [h, h']
        · simp only [h, h', Nat.lt_irrefl, if_false] at h1 h2 ⊢; exact ih h1 h2
        · simp [h', Nat.lt_asymm h'] at h2
        · simp [h, Nat.lt_asymm h] at h1
        · simp [h, Nat.lt_asymm h] at h1
        · simp [h, Nat.lt_asymm h] at h1

theorem sortEntries_sorted (es : List (Bytes × Bytes)) :
    (sortEntries es).Pairwise (fun a b => bytesLe a.1 b.1 = true) :=
  List.pairwise_mergeSort (le := fun a b : Bytes × Bytes => bytesLe a.1 b.1)
    (fun _ _ _ h1 h2 => bytesLe_trans h1 h2) (fun a b => bytesLe_total a.1 b.1) es

theorem inj_of_map_nodup {α β : Type} {f : α → β} {l : List α} (h : (l.map f).Nodup) {a b : α}
    (ha : a ∈ l) (hb : b ∈ l) (he : f a = f b) : a = b := by
  induction l with
  | nil => simp at ha
  | cons x l ih =>
    simp only [List.map_cons, List.nodup_cons, List.mem_map, not_exists, not_and] at h
    rcases List.mem_cons.mp ha with ha | ha <;> rcases List.mem_cons.mp hb with hb | hb
    · rw [ha, hb]
    · exact absurd (ha ▸ he.symm) (h.1 b hb)
    · exact absurd (hb ▸ he) (h.1 a ha)
    · exact ih h.2 ha hb

theorem sortEntries_unique {es es' : List (Bytes × Bytes)} (hp : es.Perm es')
    (hn : (es.map Prod.fst).Nodup) : sortEntries es = sortEntries es' := by
  have hperm : (sortEntries es).Perm (sortEntries es') :=
    ((sortEntries_perm es).trans hp).trans (sortEntries_perm es').symm
  refine List.Perm.eq_of_pairwise (le := fun a b => bytesLe a.1 b.1 = true) ?_ (sortEntries_sorted es)
    (sortEntries_sorted es') hperm
  intro a b ha hb h1 h2
  have ha' := (sortEntries_perm es).mem_iff.mp ha
  have hb' := hp.mem_iff.mpr ((sortEntries_perm es').mem_iff.mp hb)
  exact inj_of_map_nodup hn ha' hb' (bytesLe_antisymm h1 h2)

/-- Encodings of distinct keys are distinct when keys round-trip strictly. -/
theorem key_encode_inj {κ : Type} {k : Ty κ} (hs : k.selfDelim {}) (hstrict : ∀ a b, k.same a b → a = b)
    {a b : κ} (ga : k.good {} a) (gb : k.good {} b) {x : Bytes} (ha : k.encode {} a = .ok x)
    (hb : k.encode {} b = .ok x) (hl : x.length < 2 ^ 63) : a = b := by
  obtain ⟨a', h1, h2⟩ := Ty.roundTrip k {} a x [] hs ga ha hl
  obtain ⟨b', h3, h4⟩ := Ty.roundTrip k {} b x [] hs gb hb hl
  rw [h1] at h3
  simp only [Res.ok.injEq, Prod.mk.injEq, and_true] at h3
  rw [hstrict _ _ h2, hstrict _ _ h4, h3]

theorem entries_keys_nodup {κ ν : Type} {f : κ → Res Bytes} {g : ν → Res Bytes} {v : List (κ × ν)}
    {es : List (Bytes × Bytes)}
    (hF : List.Forall₂ (fun e b => f e.1 = .ok b.1 ∧ g e.2 = .ok b.2) v es)
    (hn : (v.map Prod.fst).Nodup)
    (hinj : ∀ e ∈ v, ∀ e' ∈ v, ∀ x, f e.1 = .ok x → f e'.1 = .ok x → (∃ b ∈ es, b.1 = x) → e.1 = e'.1) :
    (es.map Prod.fst).Nodup := by
  induction hF with
  | nil => simp
  | @cons e b v es h hF ih =>
    simp only [List.map_cons, List.nodup_cons] at hn ⊢
    refine ⟨?_, ih hn.2 fun e1 h1 e2 h2 x hx1 hx2 hb => ?_⟩
    · intro hmem
      obtain ⟨b', hb', heq⟩ := List.mem_map.mp hmem
      obtain ⟨e', he', hfe, -⟩ : ∃ e' ∈ v, f e'.1 = .ok b'.1 ∧ g e'.2 = .ok b'.2 := by
        clear ih hinj hn hmem
        induction hF with
        | nil => simp at hb'
        | cons h' _ ih' =>
          rcases List.mem_cons.mp hb' with rfl | hb'
          · exact ⟨_, by simp, h'⟩
          · obtain ⟨e', he', h''⟩ := ih' hb'
            exact ⟨e', by simp [he'], h''⟩
      have := hinj e (by simp) e' (by simp [he']) b.1 h.1 (heq ▸ hfe) ⟨b, by simp, rfl⟩
      exact hn.1 (List.mem_map.mpr ⟨e', he', this.symm⟩)
    · obtain ⟨b', hb', hbx⟩ := hb
      exact hinj e1 (by simp [h1]) e2 (by simp [h2]) x hx1 hx2 ⟨b', by simp [hb'], hbx⟩

theorem length_le_flatten {es : List (Bytes × Bytes)} {b : Bytes × Bytes} (h : b ∈ es) :
    b.1.length ≤ (flattenEntries es).length := by
  induction es with
  | nil => simp at h
  | cons e es ih =>
    simp only [flattenEntries, List.map_cons, List.flatten_cons, List.length_append]
    rcases List.mem_cons.mp h with rfl | h
    · omega
    · have := ih h
      simp only [flattenEntries] at this
      omega

/-- What a successful map encoding looks like. -/
theorem map_encode_ok {κ ν : Type} [DecidableEq κ] {k : Ty κ} {t : Ty ν} {o : Opts}
    {v : List (κ × ν)} {bs : Bytes} (hs : k.selfDelim {}) (hstrict : ∀ a b, k.same a b → a = b)
    (hg : (Ty.map k t).good o v) (h : (Ty.map k t).encode o v = .ok bs) (hl : bs.length < 2 ^ 63) :
    ∃ hdr es, encodeEntries (fun a => k.encode {} a) (fun a => t.encode {} a) v = .ok es ∧
      (es.map Prod.fst).Nodup ∧ encodeLength (flattenEntries (sortEntries es)).length o = .ok hdr ∧
      bs = hdr ++ flattenEntries (sortEntries es) := by
  simp only [Ty.encode, Res.bind_eq_ok, Res.ok.injEq] at h
  obtain ⟨es, he, hdr, hh, rfl⟩ := h
  simp only [Ty.good] at hg
  refine ⟨hdr, es, he, ?_, hh, rfl⟩
  refine entries_keys_nodup (encodeEntries_forall₂ he) hg.1 ?_
  rintro e he1 e' he2 x hx hx' ⟨b, hb, rfl⟩
  refine key_encode_inj hs hstrict (hg.2 e he1).1 (hg.2 e' he2).1 hx hx' ?_
  have := length_le_flatten ((sortEntries_perm es).mem_iff.mpr hb)
  simp only [List.length_append] at hl
  omega

theorem map_encode_perm {κ ν : Type} [DecidableEq κ] {k : Ty κ} {t : Ty ν} {o : Opts}
    {v v' : List (κ × ν)} {bs : Bytes} (hs : k.selfDelim {}) (hstrict : ∀ a b, k.same a b → a = b)
    (hg : (Ty.map k t).good o v) (hp : v.Perm v') (h : (Ty.map k t).encode o v = .ok bs)
    (hl : bs.length < 2 ^ 63) : (Ty.map k t).encode o v' = .ok bs := by
  obtain ⟨hdr, es, he, hn, hh, rfl⟩ := map_encode_ok hs hstrict hg h hl
  have hcomp : Relation.Comp List.Perm (List.Forall₂ fun (e : _ × _) (b : Bytes × Bytes) =>
      k.encode {} e.1 = .ok b.1 ∧ t.encode {} e.2 = .ok b.2) v' es :=
    ⟨v, hp.symm, encodeEntries_forall₂ he⟩
  rw [← List.forall₂_comp_perm_eq_perm_comp_forall₂] at hcomp
  obtain ⟨es', hF', hpe⟩ := hcomp
  have he' := encodeEntries_of_forall₂ hF'
  have hsort := sortEntries_unique hpe.symm hn
  simp only [Ty.encode, he', Res.bind_ok, ← hsort, hh]

end Verif.Syntax
