import Verif.Syntax.Varint
import Verif.Spec.Syntax
import Mathlib.Data.List.Perm.Basic

namespace Verif.Syntax

open Verif

/-! ### Integers -/

theorem Width.bytes_cases (w : Width) : w.bytes = 1 ∨ w.bytes = 2 ∨ w.bytes = 4 ∨ w.bytes = 8 := by
  cases w <;> simp [Width.bytes]

theorem Width.getNat_lt (w : Width) (v : w.T) : w.getNat v < 256 ^ w.bytes := by
  cases w
  · exact UInt8.toNat_lt v
  · exact UInt16.toNat_lt v
  · exact UInt32.toNat_lt v
  · exact UInt64.toNat_lt v

theorem Width.setNat_getNat (w : Width) (v : w.T) : w.setNat (w.getNat v) = v := by
  cases w
  · exact UInt8.ofNat_toNat
  · exact UInt16.ofNat_toNat
  · exact UInt32.ofNat_toNat
  · exact UInt64.ofNat_toNat

theorem Width.getNat_setNat (w : Width) {n : Nat} (h : n < 256 ^ w.bytes) :
    w.getNat (w.setNat n) = n := by
  cases w
  · exact UInt8.toNat_ofNat_of_lt' h
  · exact UInt16.toNat_ofNat_of_lt' h
  · exact UInt32.toNat_ofNat_of_lt' h
  · exact UInt64.toNat_ofNat_of_lt' h

theorem Width.pow_le (w : Width) : 256 ^ w.bytes ≤ 2 ^ 64 := by
  cases w <;> decide

theorem decodeUint_of_length_le {bs : Bytes} (h : bs.length ≤ 8) : decodeUint bs = beNat bs := by
  apply Nat.mod_eq_of_lt
  apply Nat.lt_of_lt_of_le (beNat_lt bs)
  calc 256 ^ bs.length ≤ 256 ^ 8 := Nat.pow_le_pow_right (by decide) h
    _ = 2 ^ 64 := by decide

/-! ### Vector headers -/

theorem encodeLength_ok {n : Nat} {o : Opts} {hdr : Bytes} (h : encodeLength n o = .ok hdr) :
    (o.maxSize > 0 → (n : Int) ≤ o.maxSize) ∧ o.minSize ≤ n ∧
      ((o.omitHeader = true ∧ hdr = []) ∨
       (o.omitHeader = false ∧ o.varintHeader = true ∧ writeVarint n = .ok hdr) ∨
       (o.omitHeader = false ∧ o.varintHeader = false ∧ o.headerSize > 0 ∧
        n < 256 ^ o.headerSize.toNat ∧ hdr = beBytes o.headerSize.toNat n)) := by
  unfold encodeLength at h
  split at h
  · simp at h
  · rename_i h1
    split at h
    · simp at h
    · rename_i h2
      refine ⟨by omega, by omega, ?_⟩
      split at h
      · rename_i h3; left; simp_all
      · rename_i h3
        split at h
        · rename_i h4; right; left; simp_all
        · rename_i h4
          split at h
          · rename_i h5
            split at h
            · simp at h
            · rename_i h6
              right; right
              simp only [Res.ok.injEq] at h
              refine ⟨by simpa using h3, by simpa using h4, h5, ?_, h.symm⟩
              rw [Nat.shiftRight_eq_div_pow, Nat.pow_mul] at h6
              have : n / 256 ^ o.headerSize.toNat = 0 := by
                have : (2 : Nat) ^ 8 = 256 := rfl
                rw [this] at h6; exact Nat.eq_zero_of_not_pos h6
              rcases Nat.div_eq_zero_iff.mp this with h' | h'
              · have : 0 < 256 ^ o.headerSize.toNat := Nat.pow_pos (by decide)
                omega
              · exact h'
          · simp at h

theorem encodeLength_ne_nil {n : Nat} {o : Opts} {hdr : Bytes} (h : encodeLength n o = .ok hdr)
    (ho : o.omitHeader = false) : hdr ≠ [] := by
  obtain ⟨-, -, h | h | h⟩ := encodeLength_ok h
  · simp [ho] at h
  · exact writeVarint_ne_nil h.2.2
  · obtain ⟨-, -, hs, -, rfl⟩ := h
    intro hnil
    have := congrArg List.length hnil
    simp at this
    omega

theorem toInt64_of_lt {n : Nat} (h : n < 2 ^ 63) : toInt64 n = n := by simp [toInt64, h]

theorem decodeLength_encodeLength {n : Nat} {o : Opts} {hdr : Bytes}
    (h : encodeLength n o = .ok hdr) (ho : o.omitHeader = false) (hn : n < 2 ^ 63) (rest : Bytes) :
    decodeLength o (hdr ++ rest) = .ok (hdr.length, (n : Int), rest) := by
  obtain ⟨hmax, hmin, hh⟩ := encodeLength_ok h
  have hr : readHeader o (hdr ++ rest) = .ok (hdr.length, (n : Int), rest) := by
    unfold readHeader
    rcases hh with h | h | h
    · simp [ho] at h
    · obtain ⟨-, hv, hw⟩ := h
      simp [ho, hv, readVarint_writeVarint hw, toInt64_of_lt hn]
    · obtain ⟨-, hv, hs, hlt, rfl⟩ := h
      have hd : decodeUint (beBytes o.headerSize.toNat n) = n := by
        unfold decodeUint
        rw [beNat_beBytes_of_lt hlt, Nat.mod_eq_of_lt (by omega)]
      simp [ho, hv, hs, hd, toInt64_of_lt hn]
  unfold decodeLength
  rw [hr]
  simp only [Res.bind_ok]
  rw [if_neg (by omega), if_neg (by omega)]

theorem nextExact_append (body rest : Bytes) :
    nextExact (body.length : Int) (body ++ rest) = .ok (body, rest) := by
  unfold nextExact
  rw [if_neg (by omega)]
  simp

/-! ### Lists of encodings -/

theorem encodeAll_cons_ok {α : Type} {f : α → Res Bytes} {a : α} {as : List α} {bs : Bytes} :
    encodeAll f (a :: as) = .ok bs ↔
      ∃ x y, f a = .ok x ∧ encodeAll f as = .ok y ∧ bs = x ++ y := by
  simp only [encodeAll, Res.bind_eq_ok, Res.ok.injEq]
  constructor
  · rintro ⟨x, hx, y, hy, rfl⟩; exact ⟨x, y, hx, hy, rfl⟩
  · rintro ⟨x, y, hx, hy, rfl⟩; exact ⟨x, hx, y, hy, rfl⟩

theorem decodeMany_nil {β : Type} (f : Bytes → Res (β × Nat × Bytes)) :
    decodeMany f [] = .ok ([], 0) := by unfold decodeMany; rfl

theorem decodeMany_step {β : Type} {f : Bytes → Res (β × Nat × Bytes)} {bs rest : Bytes} {x : β}
    {n : Nat} (h : f bs = .ok (x, n, rest)) (hlt : rest.length < bs.length) :
    decodeMany f bs = (decodeMany f rest).bind fun (xs, m) => .ok (x :: xs, n + m) := by
  cases bs with
  | nil => simp at hlt
  | cons b bt =>
    rw [decodeMany]
    simp only [h]
    rw [if_pos hlt]

theorem decodeMany_encodeAll {α β : Type} {enc : α → Res Bytes}
    {dec : Bytes → Res (β × Nat × Bytes)} {R : α → β → Prop} (as : List α)
    (hrt : ∀ a ∈ as, ∀ x rest, enc a = .ok x → x.length < 2 ^ 63 →
      ∃ b, dec (x ++ rest) = .ok (b, x.length, rest) ∧ R a b)
    (hne : ∀ a x, enc a = .ok x → x ≠ [])
    {body : Bytes} (h : encodeAll enc as = .ok body) (hl : body.length < 2 ^ 63) :
    ∃ bs, decodeMany dec body = .ok (bs, body.length) ∧ List.Forall₂ R as bs := by
  induction as generalizing body with
  | nil =>
    simp only [encodeAll, Res.ok.injEq] at h
    subst h
    exact ⟨[], decodeMany_nil dec, .nil⟩
  | cons a as ih =>
    obtain ⟨x, y, hx, hy, rfl⟩ := encodeAll_cons_ok.mp h
    simp only [List.length_append] at hl
    obtain ⟨b, hb, hR⟩ := hrt a (by simp) x y hx (by omega)
    obtain ⟨bs, hbs, hF⟩ := ih (fun a ha => hrt a (by simp [ha])) hy (by omega)
    refine ⟨b :: bs, ?_, .cons hR hF⟩
    rw [decodeMany_step hb, hbs]
    · simp
    · have := List.length_pos_of_ne_nil (hne a x hx)
      simp; omega

theorem decodeN_encodeAll {α : Type} {enc : α → Res Bytes}
    {dec : Bytes → Res (α × Nat × Bytes)} {R : α → α → Prop} (as : List α)
    (hrt : ∀ a ∈ as, ∀ x rest, enc a = .ok x → x.length < 2 ^ 63 →
      ∃ b, dec (x ++ rest) = .ok (b, x.length, rest) ∧ R a b)
    {body : Bytes} (h : encodeAll enc as = .ok body) (hl : body.length < 2 ^ 63)
    {n : Nat} (hn : as.length = n) (rest : Bytes) :
    ∃ bs, decodeN dec n (body ++ rest) = .ok (bs, body.length, rest) ∧ List.Forall₂ R as bs.1 := by
  induction as generalizing body n with
  | nil =>
    simp only [encodeAll, Res.ok.injEq] at h
    subst h
    subst hn
    exact ⟨⟨[], rfl⟩, rfl, .nil⟩
  | cons a as ih =>
    obtain ⟨x, y, hx, hy, rfl⟩ := encodeAll_cons_ok.mp h
    subst hn
    simp only [List.length_append] at hl
    obtain ⟨b, hb, hR⟩ := hrt a (by simp) x (y ++ rest) hx (by omega)
    obtain ⟨bs, hbs, hF⟩ := ih (fun a ha => hrt a (by simp [ha])) hy (by omega) rfl
    refine ⟨⟨b :: bs.1, by simp [bs.2]⟩, ?_, .cons hR hF⟩
    simp only [List.length_cons, decodeN, List.append_assoc, hb, Res.bind_ok, hbs, List.length_append]

/-! ### Maps -/

theorem encodeEntries_forall₂ {κ ν : Type} {f : κ → Res Bytes} {g : ν → Res Bytes}
    {es : List (κ × ν)} {r : List (Bytes × Bytes)} (h : encodeEntries f g es = .ok r) :
    List.Forall₂ (fun e b => f e.1 = .ok b.1 ∧ g e.2 = .ok b.2) es r := by
  induction es generalizing r with
  | nil => simp only [encodeEntries, Res.ok.injEq] at h; subst h; exact .nil
  | cons e es ih =>
    obtain ⟨k, v⟩ := e
    simp only [encodeEntries, Res.bind_eq_ok, Res.ok.injEq] at h
    obtain ⟨x, hx, y, hy, r', hr, rfl⟩ := h
    exact .cons ⟨hx, hy⟩ (ih hr)

theorem encodeEntries_of_forall₂ {κ ν : Type} {f : κ → Res Bytes} {g : ν → Res Bytes}
    {es : List (κ × ν)} {r : List (Bytes × Bytes)}
    (h : List.Forall₂ (fun e b => f e.1 = .ok b.1 ∧ g e.2 = .ok b.2) es r) :
    encodeEntries f g es = .ok r := by
  induction h with
  | nil => rfl
  | cons h _ ih => simp [encodeEntries, h.1, h.2, ih]

/-- Encoding of one entry. -/
def pairEnc {κ ν : Type} (f : κ → Res Bytes) (g : ν → Res Bytes) (e : κ × ν) : Res Bytes :=
  (f e.1).bind fun x => (g e.2).bind fun y => .ok (x ++ y)

theorem flatten_eq_encodeAll {κ ν : Type} {f : κ → Res Bytes} {g : ν → Res Bytes}
    {es : List (κ × ν)} {r : List (Bytes × Bytes)}
    (h : List.Forall₂ (fun e b => f e.1 = .ok b.1 ∧ g e.2 = .ok b.2) es r) :
    encodeAll (pairEnc f g) es = .ok (flattenEntries r) := by
  induction h with
  | nil => rfl
  | cons h _ ih => simp [encodeAll, pairEnc, h.1, h.2, ih, flattenEntries]

theorem sortEntries_perm (es : List (Bytes × Bytes)) : (sortEntries es).Perm es :=
  List.mergeSort_perm _ _

theorem mapSet_notMem {κ ν : Type} [DecidableEq κ] (m : List (κ × ν)) (k : κ) (v : ν)
    (h : k ∉ m.map Prod.fst) : mapSet m k v = m ++ [(k, v)] := by
  induction m with
  | nil => rfl
  | cons e m ih =>
    obtain ⟨k', v'⟩ := e
    simp only [List.map_cons, List.mem_cons, not_or] at h
    rw [mapSet, if_neg (fun h' => h.1 h'.symm), ih h.2]
    rfl

theorem mapOfList_nodup {κ ν : Type} [DecidableEq κ] (es : List (κ × ν))
    (h : (es.map Prod.fst).Nodup) : mapOfList es = es := by
  have key : ∀ (es acc : List (κ × ν)), ((acc ++ es).map Prod.fst).Nodup →
      es.foldl (fun m e => mapSet m e.1 e.2) acc = acc ++ es := by
    intro es
    induction es with
    | nil => intro acc _; simp
    | cons e es ih =>
      intro acc hn
      rw [List.foldl_cons, mapSet_notMem, ih]
      · simp
      · simpa using hn
      · simp only [List.map_append, List.map_cons, List.nodup_append, List.nodup_cons] at hn
        intro hmem
        exact hn.2.2 _ hmem e.1 (by simp) rfl
  exact key es [] h

/-! ### Non-empty encodings -/

theorem encodeAll_ne_nil {α : Type} {f : α → Res Bytes} {as : List α} (h0 : as ≠ [])
    (hne : ∀ a x, f a = .ok x → x ≠ []) {bs : Bytes} (h : encodeAll f as = .ok bs) : bs ≠ [] := by
  cases as with
  | nil => exact absurd rfl h0
  | cons a as =>
    obtain ⟨x, y, hx, -, rfl⟩ := encodeAll_cons_ok.mp h
    simp [hne a x hx]

mutual

theorem Ty.encode_ne_nil : {α : Type} → (t : Ty α) → (o : Opts) → (v : α) → (bs : Bytes) →
    t.nonEmpty o → t.encode o v = .ok bs → bs ≠ []
  | _, .uint w, o, v, bs => fun _ h => by
    simp only [Ty.encode] at h
    split at h
    · exact writeVarint_ne_nil h
    · simp only [Res.ok.injEq] at h
      subst h
      intro hn
      have := congrArg List.length hn
      simp at this
      rcases w.bytes_cases with h | h | h | h <;> omega
  | _, .array n t, o, v, bs => fun hn h => by
    simp only [Ty.encode] at h
    simp only [Ty.nonEmpty] at hn
    refine encodeAll_ne_nil ?_ (fun a x hx => Ty.encode_ne_nil t o a x hn.2 hx) h
    intro h0
    have := v.2
    rw [h0] at this
    exact hn.1 this.symm
  | _, .slice t, o, v, bs => fun hn h => by
    simp only [Ty.encode, Res.bind_eq_ok, Res.ok.injEq] at h
    obtain ⟨body, -, hdr, hh, rfl⟩ := h
    have := encodeLength_ne_nil hh hn
    simp [this]
  | _, @Ty.map _ _ _ k t, o, v, bs => fun hn h => by
    simp only [Ty.encode, Res.bind_eq_ok, Res.ok.injEq] at h
    obtain ⟨body, -, hdr, hh, rfl⟩ := h
    have := encodeLength_ne_nil hh hn
    simp [this]
  | _, .struct fs, o, v, bs => fun hn h => by
    simp only [Ty.encode] at h
    exact Fields.encode_ne_nil fs v bs hn h
  | _, .ptr t, o, v, bs => fun hn h => by
    simp only [Ty.encode] at h
    cases v with
    | none =>
      dsimp only at h
      split at h
      · simp only [Res.ok.injEq] at h; subst h; simp
      · simp at h
    | some a =>
      dsimp only at h
      split at h
      · simp only [Res.bind_eq_ok, Res.ok.injEq] at h
        obtain ⟨x, -, rfl⟩ := h
        simp
      · rename_i ho
        rcases hn with hn | hn
        · exact absurd hn ho
        · exact Ty.encode_ne_nil t o a bs hn h
  | _, .validated t p, o, v, bs => fun hn h => by
    simp only [Ty.encode] at h
    split at h
    · exact Ty.encode_ne_nil t o v bs hn h
    · simp at h
  | _, .custom c, o, v, bs => fun hn h => by
    simp only [Ty.encode] at h
    split at h
    · rename_i b hb
      simp only [Res.ok.injEq] at h
      subst h
      exact hn.1 v b hb
    · simp at h
  | _, .other z, o, v, bs => fun _ h => by simp [Ty.encode] at h

theorem Fields.encode_ne_nil : {α : Type} → (fs : Fields α) → (v : α) → (bs : Bytes) →
    fs.nonEmpty → fs.encode v = .ok bs → bs ≠ []
  | _, .nil, _, _ => fun hn _ => by simp [Fields.nonEmpty] at hn
  | _, .cons o t fs, (a, b), bs => fun hn h => by
    simp only [Fields.encode, Res.bind_eq_ok, Res.ok.injEq] at h
    obtain ⟨x, hx, y, hy, rfl⟩ := h
    rcases hn with ⟨ho, hn⟩ | hn
    · rw [ho] at hx
      have := Ty.encode_ne_nil t o a x hn hx
      simp [this]
    · have := Fields.encode_ne_nil fs b y hn hy
      simp [this]

end

/-! ### The round trip -/

theorem varint_fits {w : Width} {v : w.T} {bs : Bytes} (h : writeVarint (w.getNat v) = .ok bs)
    (hg : (w.bytes = 1 → w.getNat v < 2 ^ 6) ∧ (w.bytes = 2 → w.getNat v < 2 ^ 14) ∧
      (w.bytes = 4 → w.getNat v < 2 ^ 30)) : bs.length ≤ w.bytes := by
  obtain ⟨hu, hlen, -⟩ := writeVarint_eq h
  rw [hlen]
  rcases varintLen_cases _ hu with h | h | h | h <;> rcases w.bytes_cases with hw | hw | hw | hw <;>
    simp [hw] at hg <;> omega

mutual

theorem Ty.roundTrip : {α : Type} → (t : Ty α) → (o : Opts) → (v : α) → (bs rest : Bytes) →
    t.selfDelim o → t.good o v → t.encode o v = .ok bs → bs.length < 2 ^ 63 →
    ∃ v', t.decode o (bs ++ rest) = .ok (v', bs.length, rest) ∧ t.same v v'
  | _, .uint w, o, v, bs, rest => fun _ hg h hl => by
    simp only [Ty.encode] at h
    refine ⟨v, ?_, by simp only [Ty.same]⟩
    simp only [Ty.decode]
    split at h
    · rename_i ho
      have hfit := varint_fits h (hg ho)
      rw [if_pos ho, readVarint_writeVarint h]
      simp only [Res.bind_ok]
      rw [if_neg (by omega), w.setNat_getNat]
    · rename_i ho
      simp only [Res.ok.injEq] at h
      subst h
      have hd : decodeUint (beBytes w.bytes (w.getNat v)) = w.getNat v := by
        rw [decodeUint_of_length_le (by rcases w.bytes_cases with h | h | h | h <;> simp [h]),
          beNat_beBytes_of_lt (w.getNat_lt v)]
      rw [if_neg ho, take_append_of_len (by simp), drop_append_of_len (by simp), if_pos (by simp),
        hd, w.setNat_getNat]
      simp
  | _, .array n t, o, v, bs, rest => fun hs hg h hl => by
    simp only [Ty.encode] at h
    simp only [Ty.selfDelim] at hs
    simp only [Ty.good] at hg
    obtain ⟨l, h1, h2⟩ := decodeN_encodeAll (R := fun x y => t.same x y) v.1
      (fun a ha x r hx hxl => Ty.roundTrip t o a x r hs (hg a ha) hx hxl) h hl v.2 rest
    exact ⟨l, by simpa only [Ty.decode] using h1, by simpa only [Ty.same] using h2⟩
  | _, .slice t, o, v, bs, rest => fun hs hg h hl => by
    simp only [Ty.encode, Res.bind_eq_ok, Res.ok.injEq] at h
    obtain ⟨body, hb, hdr, hh, rfl⟩ := h
    simp only [Ty.selfDelim] at hs
    simp only [Ty.good] at hg
    simp only [List.length_append] at hl
    obtain ⟨l, h1, h2⟩ := decodeMany_encodeAll (R := fun x y => t.same x y) v
      (fun a ha x r hx hxl => Ty.roundTrip t o a x r hs.2.1 (hg a ha) hx hxl)
      (fun a x hx => Ty.encode_ne_nil t o a x hs.2.2 hx) hb (by omega)
    refine ⟨l, ?_, by simpa only [Ty.same] using h2⟩
    simp only [Ty.decode]
    rw [List.append_assoc, decodeLength_encodeLength hh hs.1 (by omega)]
    simp only [Res.bind_ok, nextExact_append, h1, List.length_append]
  | _, @Ty.map _ _ _ k t, o, v, bs, rest => fun hs hg h hl => by
    simp only [Ty.encode, Res.bind_eq_ok, Res.ok.injEq] at h
    obtain ⟨es, he, hdr, hh, rfl⟩ := h
    simp only [Ty.selfDelim] at hs
    simp only [Ty.good] at hg
    obtain ⟨ho, hsk, hst, hne, hstrict⟩ := hs
    simp only [List.length_append] at hl
    have hF := encodeEntries_forall₂ he
    -- reorder the entries of the value like the sorted encodings
    have hcomp : Relation.Comp (List.Forall₂ fun (e : _ × _) (b : Bytes × Bytes) =>
        k.encode {} e.1 = .ok b.1 ∧ t.encode {} e.2 = .ok b.2) List.Perm v (sortEntries es) :=
      ⟨es, hF, (sortEntries_perm es).symm⟩
    rw [List.forall₂_comp_perm_eq_perm_comp_forall₂] at hcomp
    obtain ⟨l, hperm, hF'⟩ := hcomp
    have hall := flatten_eq_encodeAll hF'
    have hpair : ∀ e ∈ l, ∀ x r, pairEnc (fun a => k.encode {} a) (fun a => t.encode {} a) e = .ok x →
        x.length < 2 ^ 63 → ∃ e', ((k.decode {} (x ++ r)).bind fun (x, n, b1) =>
            (t.decode {} b1).bind fun (y, n', b2) => .ok ((x, y), n + n', b2)) = .ok (e', x.length, r) ∧
          (k.same e.1 e'.1 ∧ t.same e.2 e'.2) := by
      intro e hmem x r hx hxl
      simp only [pairEnc, Res.bind_eq_ok, Res.ok.injEq] at hx
      obtain ⟨x1, hx1, x2, hx2, rfl⟩ := hx
      simp only [List.length_append] at hxl
      have hge := hg.2 e (hperm.mem_iff.mpr hmem)
      obtain ⟨k', hk1, hk2⟩ := Ty.roundTrip k {} e.1 x1 (x2 ++ r) hsk hge.1 hx1 (by omega)
      obtain ⟨t', ht1, ht2⟩ := Ty.roundTrip t {} e.2 x2 r hst hge.2 hx2 (by omega)
      refine ⟨(k', t'), ?_, hk2, ht2⟩
      rw [List.append_assoc, hk1]
      simp only [Res.bind_ok, ht1, List.length_append]
    obtain ⟨l', h1, h2⟩ := decodeMany_encodeAll
      (dec := fun b => (k.decode {} b).bind fun (x, n, b1) =>
            (t.decode {} b1).bind fun (y, n', b2) => .ok ((x, y), n + n', b2))
      (R := fun (x : _ × _) (y : _ × _) => k.same x.1 y.1 ∧ t.same x.2 y.2) l hpair
      (fun e x hx => by
        simp only [pairEnc, Res.bind_eq_ok, Res.ok.injEq] at hx
        obtain ⟨x1, hx1, x2, hx2, rfl⟩ := hx
        rcases hne with hne | hne
        · have := Ty.encode_ne_nil k {} e.1 x1 hne hx1
          simp [this]
        · have := Ty.encode_ne_nil t {} e.2 x2 hne hx2
          simp [this]) hall (by omega)
    have hkeys : l'.map Prod.fst = l.map Prod.fst := by
      clear h1 hall hpair hF' hperm
      induction h2 with
      | nil => rfl
      | cons h _ ih => simp only [List.map_cons]; rw [ih, hstrict _ _ h.1]
    have hnodup : (l'.map Prod.fst).Nodup := by
      rw [hkeys]
      exact ((hperm.map Prod.fst).nodup_iff).mp hg.1
    refine ⟨l', ?_, ?_⟩
    · simp only [Ty.decode]
      rw [List.append_assoc, decodeLength_encodeLength hh ho (by omega)]
      simp only [Res.bind_ok, nextExact_append, h1, List.length_append, mapOfList_nodup l' hnodup]
    · simp only [Ty.same]
      exact ⟨l, hperm.symm, h2⟩
  | _, .struct fs, o, v, bs, rest => fun hs hg h hl => by
    simp only [Ty.encode] at h
    obtain ⟨v', h1, h2⟩ := Fields.roundTrip fs v bs rest hs hg h hl
    exact ⟨v', by simpa only [Ty.decode] using h1, by simpa only [Ty.same] using h2⟩
  | _, .ptr t, o, v, bs, rest => fun hs hg h hl => by
    simp only [Ty.encode] at h
    simp only [Ty.selfDelim] at hs
    cases v with
    | none =>
      dsimp only at h
      split at h
      · rename_i ho
        simp only [Res.ok.injEq] at h; subst h
        exact ⟨none, by simp [Ty.decode, ho], by simp [Ty.same]⟩
      · simp at h
    | some a =>
      dsimp only at h
      have hga : t.good o a := hg a rfl
      split at h
      · rename_i ho
        simp only [Res.bind_eq_ok, Res.ok.injEq] at h
        obtain ⟨x, hx, rfl⟩ := h
        simp only [List.length_cons] at hl
        obtain ⟨a', h1, h2⟩ := Ty.roundTrip t o a x rest hs hga hx (by omega)
        refine ⟨some a', ?_, by simpa only [Ty.same] using h2⟩
        simp only [Ty.decode, List.cons_append]
        rw [if_pos ho, if_neg (by decide), if_pos trivial, h1]
        simp [Nat.add_comm]
      · rename_i ho
        obtain ⟨a', h1, h2⟩ := Ty.roundTrip t o a bs rest hs hga h hl
        refine ⟨some a', ?_, by simpa only [Ty.same] using h2⟩
        simp only [Ty.decode]
        rw [if_neg ho, h1]
        simp
  | _, .validated t p, o, v, bs, rest => fun hs hg h hl => by
    simp only [Ty.encode] at h
    simp only [Ty.selfDelim] at hs
    simp only [Ty.good] at hg
    split at h
    · rename_i hp
      obtain ⟨v', h1, h2⟩ := Ty.roundTrip t o v bs rest hs.1 hg h hl
      refine ⟨v', ?_, by simpa only [Ty.same] using h2⟩
      simp only [Ty.decode]
      rw [h1]
      simp [hs.2 v v' h2 hp]
    · simp at h
  | _, .custom c, o, v, bs, rest => fun hs _ h hl => by
    simp only [Ty.encode] at h
    simp only [Ty.selfDelim] at hs
    split at h
    · rename_i b hb
      simp only [Res.ok.injEq] at h
      subst h
      refine ⟨v, ?_, by simp only [Ty.same]⟩
      simp only [Ty.decode, hs v b rest hb]
      rw [if_neg (by simp)]
      simp
    · simp at h
  | _, .other z, o, v, bs, rest => fun _ _ h _ => by simp [Ty.encode] at h

theorem Fields.roundTrip : {α : Type} → (fs : Fields α) → (v : α) → (bs rest : Bytes) →
    fs.selfDelim → fs.good v → fs.encode v = .ok bs → bs.length < 2 ^ 63 →
    ∃ v', fs.decode (bs ++ rest) = .ok (v', bs.length, rest) ∧ fs.same v v'
  | _, .nil, _, bs, rest => fun _ _ h _ => by
    simp only [Fields.encode, Res.ok.injEq] at h
    subst h
    exact ⟨(), by simp [Fields.decode], by simp [Fields.same]⟩
  | _, .cons o t fs, (a, b), bs, rest => fun hs hg h hl => by
    simp only [Fields.encode, Res.bind_eq_ok, Res.ok.injEq] at h
    obtain ⟨x, hx, y, hy, rfl⟩ := h
    simp only [Fields.selfDelim] at hs
    simp only [Fields.good] at hg
    simp only [List.length_append] at hl
    obtain ⟨b', hb1, hb2⟩ := Fields.roundTrip fs b y rest hs.2 hg.2 hy (by omega)
    cases ho : o.skip with
    | true =>
      simp only [ho, if_true, Res.ok.injEq] at hx
      subst hx
      refine ⟨(t.zero, b'), ?_, ?_⟩
      · simp [Fields.decode, ho, hb1]
      · simp [Fields.same, ho, hb2]
    | false =>
      simp only [ho, Bool.false_eq_true, if_false] at hx
      simp only [ho, Bool.false_eq_true, false_or] at hs hg
      obtain ⟨a', ha1, ha2⟩ := Ty.roundTrip t o a x (y ++ rest) hs.1 hg.1 hx (by omega)
      refine ⟨(a', b'), ?_, ?_⟩
      · simp only [Fields.decode, ho, Bool.false_eq_true, if_false, List.append_assoc]
        rw [ha1]
        simp only [Res.bind_ok, hb1, List.length_append]
      · simp [Fields.same, ho, ha2, hb2]

end

end Verif.Syntax
