import Verif.Negotiation.Model
import Verif.Crypto.Lemmas
import Verif.Spec.Choice

/-
C25, C26, C28, C29: version, key share, cipher suite, ALPN, PSK mode and certificate negotiation.
-/

namespace Verif.Negotiation

open Verif Verif.Crypto Verif.Spec

theorem any_beq_iff {α : Type} [BEq α] [LawfulBEq α] (a : α) (l : List α) : l.any (a == ·) = true ↔ a ∈ l := by
  simp

/-! ### C25: versions -/

/-- C25: the version negotiated is the first in the client's list that the server supports. -/
theorem C25_first_supported (offered supported : List Nat) (v : Nat) :
    version offered supported = (true, v) ↔ IsFirst (· ∈ supported) offered v := by
  induction offered with
  | nil => simp [version, not_isFirst_nil]
  | cons x xs ih =>
    rw [version, isFirst_cons_iff, ← ih]
    by_cases hx : x ∈ supported
    · rw [if_pos ((any_beq_iff _ _).mpr hx)]; simp [hx, eq_comm]
    · rw [if_neg (by rw [any_beq_iff]; exact hx)]; simp [hx]

/-- C25: negotiation fails exactly when the lists are disjoint. -/
theorem C25_fails_iff_disjoint (offered supported : List Nat) :
    (version offered supported).1 = false ↔ ∀ v ∈ offered, v ∉ supported := by
  induction offered with
  | nil => simp [version]
  | cons x xs ih =>
    rw [version]
    by_cases hx : x ∈ supported
    · rw [if_pos ((any_beq_iff _ _).mpr hx)]; simp [hx]
    · rw [if_neg (by rw [any_beq_iff]; exact hx), ih]; simp [hx]

example : version [0x0303, 0x7f16, 0x0304] [0x0304, 0x7f16] = (true, 0x7f16) ∧
    version [0x0303] [0x0304] = (false, 0) := by decide

/-! ### C26: key shares -/

/-- The group is one for which mint can do key agreement. -/
def KnownGroup (g : Nat) : Prop := g ∈ [23, 24, 25, 29, 256, 257, 258, 259, 260]

instance (g : Nat) : Decidable (KnownGroup g) := inferInstanceAs (Decidable (g ∈ _))

/-- Key generation works for the groups mint knows. -/
def Dh.Works (D : Dh) : Prop := ∀ n g, KnownGroup g → (D.gen n g).isSome = true

/-- The peer's public values for elliptic curve groups, when of the right length, are points of the curve. -/
def PointsValid (D : Dh) (shares : List Share) : Prop :=
  ∀ s ∈ shares, isCurve s.group = true → s.key.length = keyExchangeSize s.group → D.point s.group s.key = true

/-- A share the server can use: supported group, known to mint, public value of the group's length. -/
def Usable (groups : List Nat) (s : Share) : Prop :=
  s.group ∈ groups ∧ KnownGroup s.group ∧ s.key.length = keyExchangeSize s.group

theorem knownGroup_iff (g : Nat) : KnownGroup g ↔ (isCurve g || isFfdhe g || g == 29) = true := by
  simp only [KnownGroup, isCurve, isFfdhe, List.mem_cons, List.not_mem_nil, or_false, Bool.or_eq_true, beq_iff_eq,
    Bool.and_eq_true, decide_eq_true_eq]
  omega

theorem newKeyShare_ok {D : Dh} {n g : Nat} {kp : Bytes × Bytes} (h : newKeyShare D n g = .ok kp) :
    KnownGroup g ∧ D.gen n g = some kp := by
  rw [newKeyShare] at h
  split at h
  · rename_i hk
    refine ⟨(knownGroup_iff g).mpr hk, ?_⟩
    split at h
    · rename_i e; cases h; exact e
    · cases h
  · cases h

theorem newKeyShare_not_ok {D : Dh} {n g : Nat} (h : ∀ kp, newKeyShare D n g ≠ .ok kp) :
    KnownGroup g → D.gen n g = none := by
  intro hk
  cases hg : D.gen n g with
  | none => rfl
  | some kp =>
    exfalso
    apply h kp
    rw [newKeyShare, if_pos ((knownGroup_iff g).mp hk), hg]

theorem keyAgreement_ok {D : Dh} {g : Nat} {pub priv sec : Bytes} (h : keyAgreement D g pub priv = .ok sec) :
    KnownGroup g ∧ pub.length = keyExchangeSize g ∧ sec = D.mul g pub priv ∧
      (isCurve g = true → D.point g pub = true) := by
  rw [knownGroup_iff]
  rw [keyAgreement] at h
  split at h
  · rename_i hc
    split at h
    · cases h
    · rename_i hl
      split at h
      · rename_i hp
        cases h
        exact ⟨by simp [hc], Classical.not_not.mp hl, rfl, fun _ => hp⟩
      · cases h
  · rename_i hc
    split at h
    · rename_i hf
      split at h
      · cases h
      · rename_i hl
        cases h
        exact ⟨by simp [hf], Classical.not_not.mp hl, rfl, fun h => absurd h hc⟩
    · split at h
      · rename_i hx
        split at h
        · cases h
        · rename_i hl
          cases h
          exact ⟨by simp [hx], Classical.not_not.mp hl, rfl, fun h => absurd h hc⟩
      · cases h

theorem keyAgreement_cases (D : Dh) (g : Nat) (pub priv : Bytes) (hk : KnownGroup g)
    (hl : pub.length = keyExchangeSize g) :
    keyAgreement D g pub priv =
      if isCurve g = true ∧ D.point g pub = false then .panic else .ok (D.mul g pub priv) := by
  rw [knownGroup_iff] at hk
  rw [keyAgreement]
  by_cases hc : isCurve g = true
  · rw [if_pos hc, if_neg (by simp [hl])]
    cases hp : D.point g pub <;> simp [hc]
  · rw [if_neg hc]
    by_cases hf : isFfdhe g = true
    · rw [if_pos hf, if_neg (by simp [hl])]; simp [hc]
    · rw [if_neg hf]
      have hx : g = 29 := by simpa [hc, hf] using hk
      rw [if_pos hx, if_neg (by simp [hl])]; simp [hc]

theorem keyAgreement_unusable (D : Dh) (g : Nat) (pub priv : Bytes)
    (h : ¬ (KnownGroup g ∧ pub.length = keyExchangeSize g)) : keyAgreement D g pub priv = .err .msg := by
  rw [keyAgreement]
  have e := knownGroup_iff g
  by_cases hl : pub.length = keyExchangeSize g
  · have hk : ¬ KnownGroup g := fun hk => h ⟨hk, hl⟩
    rw [e] at hk
    simp only [Bool.or_eq_true, beq_iff_eq, not_or] at hk
    rw [if_neg (by simpa using hk.1.1), if_neg (by simpa using hk.1.2), if_neg hk.2]
  · simp [hl]

/-- One share, all groups. -/
theorem dhGroups_spec (D : Dh) (s : Share) (groups : List Nat) (n : Nat) :
    (∃ k pub priv, Usable groups s ∧ D.gen k s.group = some (pub, priv) ∧
      (isCurve s.group = true → D.point s.group s.key = true) ∧
      dhGroups D s n groups = .ok (some (s.group, pub, D.mul s.group s.key priv), k + 1)) ∨
    ((∃ k, dhGroups D s n groups = .ok (none, k)) ∧ (Usable groups s → ∃ k, D.gen k s.group = none)) ∨
    (dhGroups D s n groups = .panic ∧ Usable groups s ∧ isCurve s.group = true ∧ D.point s.group s.key = false) := by
  induction groups generalizing n with
  | nil => exact .inr (.inl ⟨⟨n, rfl⟩, fun h => by simp [Usable] at h⟩)
  | cons g gs ih =>
    rw [dhGroups]
    by_cases hg : g = s.group
    · rw [if_neg (by simp [hg])]
      cases hk : newKeyShare D n s.group with
      | ok kp =>
        obtain ⟨pub, priv⟩ := kp
        dsimp only
        obtain ⟨hkn, hgen⟩ := newKeyShare_ok hk
        by_cases hl : s.key.length = keyExchangeSize s.group
        · have hus : Usable (g :: gs) s := ⟨by simp [hg], hkn, hl⟩
          rw [keyAgreement_cases D _ _ _ hkn hl]
          by_cases hp : isCurve s.group = true ∧ D.point s.group s.key = false
          · rw [if_pos hp]
            exact .inr (.inr ⟨rfl, hus, hp⟩)
          · rw [if_neg hp]
            refine .inl ⟨n, pub, priv, hus, hgen, fun hc => ?_, by rw [hg]⟩
            cases h : D.point s.group s.key with
            | true => rfl
            | false => exact absurd ⟨hc, h⟩ hp
        · rw [keyAgreement_unusable D _ _ _ (fun h => hl h.2)]
          dsimp only
          rcases ih (n + 1) with ⟨k, pub, priv, hu, _⟩ | ⟨h1, h2⟩ | ⟨_, hu, _⟩
          · exact absurd hu.2.2 hl
          · exact .inr (.inl ⟨h1, fun hu => absurd hu.2.2 hl⟩)
          · exact absurd hu.2.2 hl
      | _ =>
        dsimp only
        have hnone : Usable (g :: gs) s → ∃ k, D.gen k s.group = none := fun hu =>
          ⟨n, newKeyShare_not_ok (by rw [hk]; simp) hu.2.1⟩
        rcases ih (n + 1) with ⟨k, pub, priv, hu, h⟩ | ⟨h1, _⟩ | ⟨h, hu, h'⟩
        · exact .inl ⟨k, pub, priv, ⟨by simp [hu.1], hu.2⟩, h⟩
        · exact .inr (.inl ⟨h1, hnone⟩)
        · exact .inr (.inr ⟨h, ⟨by simp [hu.1], hu.2⟩, h'⟩)
    · rw [if_pos hg]
      have hiff : Usable (g :: gs) s ↔ Usable gs s := by
        simp only [Usable, List.mem_cons, show (s.group = g) ↔ False from ⟨fun h => hg h.symm, False.elim⟩, false_or]
      rw [hiff]
      exact ih n

/-- C26, for every behaviour of key generation: whatever is selected was offered with a share of the right size for a
supported group, the secret is the agreed one, and each earlier offer of that sort was passed over only because
generating a key for it failed. -/
theorem C26_selected_offer (D : Dh) (groups : List Nat) (n : Nat) (shares : List Share) (g : Nat) (pub sec : Bytes)
    (h : dh D groups n shares = .ok (some (g, pub, sec))) :
    ∃ pre s post k priv, shares = pre ++ s :: post ∧ s.group = g ∧ Usable groups s ∧
      D.gen k g = some (pub, priv) ∧ sec = D.mul g s.key priv ∧ (isCurve g = true → D.point g s.key = true) ∧
      ∀ s' ∈ pre, Usable groups s' → ∃ k, D.gen k s'.group = none := by
  induction shares generalizing n with
  | nil => simp [dh] at h
  | cons s ss ih =>
    rw [dh] at h
    rcases dhGroups_spec D s groups n with ⟨k, pub', priv, hu, hgen, hp, he⟩ | ⟨⟨k, he⟩, hnone⟩ | ⟨he, _⟩
    · rw [he] at h
      simp only [Res.ok.injEq, Option.some.injEq, Prod.mk.injEq] at h
      obtain ⟨rfl, rfl, rfl⟩ := h
      exact ⟨[], s, ss, k, priv, rfl, rfl, hu, hgen, rfl, hp, by simp⟩
    · rw [he] at h
      obtain ⟨pre, s', post, k', priv, rfl, h1, h2, h3, h4, h5, h6⟩ := ih k h
      refine ⟨s :: pre, s', post, k', priv, rfl, h1, h2, h3, h4, h5, ?_⟩
      intro x hx
      rcases List.mem_cons.mp hx with rfl | hx
      · exact hnone
      · exact h6 x hx
    · rw [he] at h; cases h

/-- C26, for every behaviour of key generation: when nothing is selected, no usable share was offered except where
generating a key failed. -/
theorem C26_none_selected (D : Dh) (groups : List Nat) (n : Nat) (shares : List Share)
    (h : dh D groups n shares = .ok none) :
    ∀ s ∈ shares, Usable groups s → ∃ k, D.gen k s.group = none := by
  induction shares generalizing n with
  | nil => simp
  | cons s ss ih =>
    rw [dh] at h
    rcases dhGroups_spec D s groups n with ⟨k, pub', priv, hu, hgen, hp, he⟩ | ⟨⟨k, he⟩, hnone⟩ | ⟨he, _⟩
    · rw [he] at h; cases h
    · rw [he] at h
      intro x hx
      rcases List.mem_cons.mp hx with rfl | hx
      · exact hnone
      · exact ih k h x hx
    · rw [he] at h; cases h

/-- C26 with a working key generator and valid points: the first usable share is selected, nothing if there is none.
Missing: shares of the right length that are not points of their curve, see `C26_invalid_point_fails`. -/
theorem C26_first_usable_partial (D : Dh) (hD : Dh.Works D) (groups : List Nat) (n : Nat) (shares : List Share)
    (hv : PointsValid D shares) :
    (∃ s pub priv k, IsFirst (Usable groups) shares s ∧ D.gen k s.group = some (pub, priv) ∧
      dh D groups n shares = .ok (some (s.group, pub, D.mul s.group s.key priv))) ∨
    ((∀ s ∈ shares, ¬ Usable groups s) ∧ dh D groups n shares = .ok none) := by
  have hgen : ∀ s : Share, Usable groups s → ¬ ∃ k, D.gen k s.group = none := by
    rintro s hu ⟨k, hk⟩
    have := hD k s.group hu.2.1
    rw [hk] at this; simp at this
  induction shares generalizing n with
  | nil => exact .inr ⟨by simp, rfl⟩
  | cons s ss ih =>
    rw [dh]
    rcases dhGroups_spec D s groups n with ⟨k, pub', priv, hu, hg, hp, he⟩ | ⟨⟨k, he⟩, hnone⟩ | ⟨he, hu, hc, hp⟩
    · exact .inl ⟨s, pub', priv, k, isFirst_cons_self ss hu, hg, by rw [he]⟩
    · have hnu : ¬ Usable groups s := fun hu => hgen s hu (hnone hu)
      rw [he]
      rcases ih k (fun x hx => hv x (by simp [hx])) with ⟨s', pub, priv, k', h1, h2, h3⟩ | ⟨h1, h2⟩
      · exact .inl ⟨s', pub, priv, k', isFirst_cons hnu h1, h2, h3⟩
      · refine .inr ⟨fun x hx => ?_, h2⟩
        rcases List.mem_cons.mp hx with rfl | hx
        · exact hnu
        · exact h1 x hx
    · have := hv s (by simp) hc hu.2.2
      rw [hp] at this; cases this

/-- C26 fails: a share for P-256 of the right length which is not a point of the curve crashes the server, although a
usable share for another group follows it. -/
theorem C26_invalid_point_fails : ∃ (D : Dh) (shares : List Share), Dh.Works D ∧
    (∃ s ∈ shares, s.group = 29 ∧ Usable [23, 29] s) ∧ dh D [23, 29] 0 shares = .panic := by
  refine ⟨⟨fun _ _ => some ([1], [2]), fun _ _ => false, fun _ _ _ => []⟩,
    [⟨23, List.replicate 65 4⟩, ⟨29, List.replicate 32 9⟩], ?_, ?_, ?_⟩
  · intro n g _; rfl
  · exact ⟨⟨29, List.replicate 32 9⟩, by simp, rfl, by simp [Usable, KnownGroup, keyExchangeSize]⟩
  · decide

/-- X25519 is chosen although listed second: the share for P-256 has the wrong length. -/
example :
    dh ⟨fun n _ => some ([UInt8.ofNat n], [7]), fun _ _ => true, fun _ p _ => p.take 1⟩ [23, 29] 0
      [⟨23, [4]⟩, ⟨30, [5]⟩, ⟨29, List.replicate 32 9⟩, ⟨23, List.replicate 65 4⟩] = .ok (some (29, [1], [9])) := by
  decide

/-! ### C28: cipher suite, ALPN, PSK mode -/

/-- C28: without a PSK the cipher suite is the first offered one the server supports; negotiation fails exactly when
there is none. -/
theorem C28_suite_without_psk (offered supported : List Nat) :
    (∀ s, cipherSuite none supported offered = .ok s ↔ IsFirst (· ∈ supported) offered s) ∧
    (cipherSuite none supported offered = .err .msg ↔ ∀ s ∈ offered, s ∉ supported) := by
  induction offered with
  | nil => simp [cipherSuite, not_isFirst_nil]
  | cons x xs ih =>
    by_cases hx : x ∈ supported
    · have e : cipherSuite none supported (x :: xs) = .ok x := by
        rw [cipherSuite, if_pos ((any_beq_iff _ _).mpr hx)]
      rw [e]
      simp [isFirst_cons_iff, hx, eq_comm]
    · have e : cipherSuite none supported (x :: xs) = cipherSuite none supported xs := by
        rw [cipherSuite, if_neg (by rw [any_beq_iff]; exact hx)]
      rw [e]
      constructor
      · intro s; rw [ih.1 s, isFirst_cons_iff]; simp [hx]
      · rw [ih.2]; simp [hx]

/-- C28: with a PSK the cipher suite is the one of the PSK, and was offered. Missing: that the server supports it, see
`C28_psk_suite_fails`. -/
theorem C28_suite_with_psk_partial (p : Psk) (offered supported : List Nat) :
    (∀ s, cipherSuite (some p) supported offered = .ok s ↔ s = p.suite ∧ s ∈ offered) ∧
    (cipherSuite (some p) supported offered = .err .msg ↔ p.suite ∉ offered) := by
  induction offered with
  | nil => simp [cipherSuite]
  | cons x xs ih =>
    by_cases hx : x = p.suite
    · have e : cipherSuite (some p) supported (x :: xs) = .ok x := by rw [cipherSuite, if_pos hx]
      rw [e]
      constructor
      · intro s
        constructor
        · rintro h; cases h; exact ⟨hx, by simp⟩
        · rintro ⟨rfl, _⟩; rw [hx]
      · simp [hx]
    · have e : cipherSuite (some p) supported (x :: xs) = cipherSuite (some p) supported xs := by
        rw [cipherSuite, if_neg hx]
      rw [e]
      constructor
      · intro s; rw [ih.1 s]
        constructor
        · rintro ⟨rfl, h⟩; exact ⟨rfl, by simp [h]⟩
        · rintro ⟨rfl, h⟩; exact ⟨rfl, by simpa [show p.suite ≠ x from fun h => hx h.symm] using h⟩
      · rw [ih.2]; simp [show p.suite ≠ x from fun h => hx h.symm]

/-- C28 fails with a PSK: a suite the server does not support is selected. -/
theorem C28_psk_suite_fails : ∃ (p : Psk) (offered supported : List Nat) (s : Nat),
    cipherSuite (some p) supported offered = .ok s ∧ s ∉ supported :=
  ⟨⟨0x1302, false, [1], [2], [], 0, 0, 0⟩, [0x1301, 0x1302], [0x1301], 0x1302, by decide, by decide⟩

/-- What makes an offered protocol acceptable: the server has it, and a PSK in use was established with it. -/
def ProtoOk (p : Option Psk) (supported : List Bytes) (a : Bytes) : Prop :=
  a ∈ supported ∧ ∀ k, p = some k → a = k.nextProto

theorem alpnLoop_spec (p : Option Psk) (supported offered : List Bytes) :
    (∀ a, alpnLoop p supported offered = some a ↔ IsFirst (ProtoOk p supported) offered a) ∧
    (alpnLoop p supported offered = none ↔ ∀ a ∈ offered, ¬ ProtoOk p supported a) := by
  induction offered with
  | nil => simp [alpnLoop, not_isFirst_nil]
  | cons x xs ih =>
    by_cases hx : ProtoOk p supported x
    · have e : alpnLoop p supported (x :: xs) = some x := by
        cases p with
        | none => rw [alpnLoop, if_pos ((any_beq_iff _ _).mpr hx.1)]
        | some k =>
          rw [alpnLoop]
          rw [if_neg (by simp [hx.2 k rfl]), if_pos ((any_beq_iff _ _).mpr hx.1)]
      rw [e]
      simp [isFirst_cons_iff, hx, eq_comm]
    · have e : alpnLoop p supported (x :: xs) = alpnLoop p supported xs := by
        cases p with
        | none =>
          rw [alpnLoop, if_neg]
          rw [any_beq_iff]
          exact fun h => hx ⟨h, by simp⟩
        | some k =>
          rw [alpnLoop]
          by_cases hk : x = k.nextProto
          · rw [if_neg (by simp [hk]), if_neg]
            rw [any_beq_iff]
            exact fun h => hx ⟨h, by intro k' hk'; cases hk'; exact hk⟩
          · rw [if_pos hk]
      rw [e]
      constructor
      · intro a; rw [ih.1 a, isFirst_cons_iff]; simp [hx]
      · rw [ih.2]; simp [hx]

/-- C28: a protocol reported by ALPN negotiation was offered by the client, is one of the server's, is the one of the
PSK if there is one, and is the first such; the empty answer means no offered protocol qualifies; the only error is a
resumption for which none of the offered protocols qualifies. -/
theorem C28_alpn (p : Option Psk) (offered supported : List Bytes) :
    match alpn p offered supported with
    | .ok a => IsFirst (ProtoOk p supported) offered a ∨
        (a = [] ∧ (∀ b ∈ offered, ¬ ProtoOk p supported b) ∧ ∀ k, p = some k → k.isResumption = true → offered = [])
    | .err e => e = .msg ∧ (∀ b ∈ offered, ¬ ProtoOk p supported b) ∧ offered ≠ [] ∧
        ∃ k, p = some k ∧ k.isResumption = true
    | _ => False := by
  have hs := alpnLoop_spec p supported offered
  cases hl : alpnLoop p supported offered with
  | some a =>
    simp only [alpn, hl]
    exact .inl ((hs.1 a).mp hl)
  | none =>
    have hn := hs.2.mp hl
    simp only [alpn, hl]
    cases p with
    | none => exact .inr ⟨rfl, hn, by simp⟩
    | some k =>
      dsimp only
      by_cases hk : (k.isResumption && decide (offered.length > 0)) = true
      · rw [if_pos hk]
        simp only [Bool.and_eq_true, decide_eq_true_eq] at hk
        exact ⟨rfl, hn, List.length_pos_iff.mp hk.2, k, rfl, hk.1⟩
      · rw [if_neg hk]
        refine .inr ⟨rfl, hn, ?_⟩
        intro k' hk' hr
        cases hk'
        rw [hr] at hk
        simpa using hk

theorem foldl_or (modes : List UInt8) (b : Bool) :
    modes.foldl (fun b m => b || m == 1) b = (b || decide (1 ∈ modes)) := by
  induction modes generalizing b with
  | nil => simp
  | cons m ms ih =>
    rw [List.foldl_cons, ih]
    by_cases hm : m = 1
    · cases b <;> simp [hm]
    · cases b <;> simp [hm, show ¬ (1 : UInt8) = m from fun h => hm h.symm]

theorem foldl_and (modes : List UInt8) (b : Bool) :
    modes.foldl (fun b m => b && m == 1) b = (b && decide (∀ m ∈ modes, m = 1)) := by
  induction modes generalizing b with
  | nil => simp
  | cons m ms ih =>
    rw [List.foldl_cons, ih]
    cases b <;> by_cases hm : m = 1 <;> simp [hm]

/-- C28, whatever modes are offered: only key material the server has is used, a PSK with key exchange is used only if
the client offered that mode (1), and the PSK is used whenever the server can do so in a mode the client offered
(0 without, 1 with key exchange). When no PSK is used, key exchange is used if possible. -/
theorem C28_psk_mode (canDoDH canDoPSK : Bool) (modes : List UInt8) (dh psk : Bool)
    (h : pskMode canDoDH canDoPSK modes = (dh, psk)) :
    (dh = true → canDoDH = true) ∧ (psk = true → canDoPSK = true) ∧
    (psk = true → dh = true → 1 ∈ modes) ∧
    (canDoPSK = true → 0 ∈ modes ∨ (1 ∈ modes ∧ canDoDH = true) → psk = true) ∧
    (psk = false → dh = canDoDH) ∧ (modes = [] → psk = false) := by
  simp only [pskMode, foldl_or, foldl_and, Prod.mk.injEq] at h
  obtain ⟨rfl, rfl⟩ := h
  refine ⟨?_, ?_, ?_, ?_, ?_, ?_⟩
  · cases canDoDH <;> simp
  · cases canDoPSK <;> simp
  · intro h1 h2
    simp only [h1, Bool.false_or, Bool.not_true, Bool.or_false, Bool.and_eq_true, decide_eq_true_eq] at h2
    exact h2.2
  · rintro rfl hm
    have hne : modes.length > 0 := by
      rcases hm with hm | ⟨hm, _⟩ <;> exact List.length_pos_of_mem hm
    rcases hm with hm | ⟨_, rfl⟩
    · have : ¬ ∀ m ∈ modes, m = 1 := fun hall => by simpa using hall 0 hm
      simp [this, hne]
    · simp [hne]
  · intro h1; rw [h1]; simp
  · rintro rfl; simp

/-- C28: a PSK without key exchange is used only if the client offered that mode (0), provided the client offers no
modes other than 0 and 1. Missing: other mode numbers, see `C28_unknown_mode_fails`. -/
theorem C28_psk_only_mode_partial (canDoDH canDoPSK : Bool) (modes : List UInt8) (hm : ∀ m ∈ modes, m = 0 ∨ m = 1)
    (h : pskMode canDoDH canDoPSK modes = (false, true)) : 0 ∈ modes := by
  simp only [pskMode, foldl_or, foldl_and, Prod.mk.injEq] at h
  obtain ⟨h1, h2⟩ := h
  rw [h2] at h1
  simp only [Bool.true_and, Bool.and_eq_true, Bool.or_eq_true, Bool.not_eq_true', decide_eq_false_iff_not,
    decide_eq_true_eq] at h2
  obtain ⟨⟨_, h3⟩, h4⟩ := h2
  apply Classical.byContradiction
  intro h0
  have hall : ∀ m ∈ modes, m = 1 := fun m hmm => (hm m hmm).resolve_left (fun e => h0 (e ▸ hmm))
  have h3' : canDoDH = true := by
    rcases h3 with h3 | h3
    · exact absurd hall h3
    · exact h3
  obtain ⟨m, hmm⟩ := List.exists_mem_of_length_pos h4
  have h1m : 1 ∈ modes := hall m hmm ▸ hmm
  simp [h3', h1m] at h1

/-- C28 fails: to a client that offers only an unknown PSK mode the server answers with PSK-only key establishment. -/
theorem C28_unknown_mode_fails : ∃ modes : List UInt8, 0 ∉ modes ∧ pskMode true true modes = (false, true) :=
  ⟨[7], by decide, by decide⟩

/-- C28: early data is used exactly when received, allowed, and a PSK is used; otherwise, if received, rejected. -/
theorem C28_early_data (usingPSK got allow : Bool) :
    ((earlyData usingPSK got allow).1 = true ↔ got = true ∧ usingPSK = true ∧ allow = true) ∧
    ((earlyData usingPSK got allow).2 = true ↔ got = true ∧ ¬ (usingPSK = true ∧ allow = true)) := by
  cases usingPSK <;> cases got <;> cases allow <;> decide

example : pskMode true true [0, 1] = (true, true) ∧ pskMode false true [1, 0] = (false, true) ∧
    pskMode false true [1] = (false, false) ∧
    cipherSuite none [0x1302, 0x1301] [0x1303, 0x1301, 0x1302] = .ok 0x1301 ∧
    alpn (some ⟨0x1301, true, [], [], [104, 50], 0, 0, 0⟩) [[104, 49], [104, 50]] [[104, 49], [104, 50]] =
      .ok [104, 50] ∧
    alpn (some ⟨0x1301, true, [], [], [104, 50], 0, 0, 0⟩) [[104, 49]] [[104, 49], [104, 50]] = .err .msg := by decide

/-! ### C29: certificates -/

/-- The leaf certificate carries the requested name, if one was requested. -/
def NameOk (serverName : Option Bytes) (c : Cert) : Prop :=
  ∀ name, serverName = some name → name ≠ [] ∧ ∃ leaf rest, c.chain = leaf :: rest ∧ name ∈ leaf.dnsNames

/-- The scheme belongs to the type of the key: RSA or ECDSA. -/
def SchemeFits (s : Nat) (k : PrivKey) : Prop :=
  (k.kind = .rsa ∧ s ∈ [0x0201, 0x0401, 0x0501, 0x0601, 0x0804, 0x0805, 0x0806]) ∨
  (∃ c, k.kind = .ecdsa c ∧ s ∈ [0x0403, 0x0503, 0x0603])

/-- The key can produce signatures with the scheme: PKCS#1 (not with SHA-1) and PSS for RSA keys, and for an ECDSA key
the one scheme of its curve. -/
def Producible (s : Nat) (k : PrivKey) : Prop :=
  (k.kind = .rsa ∧ s ∈ [0x0401, 0x0501, 0x0601, 0x0804, 0x0805, 0x0806]) ∨
  (k.kind = .ecdsa 23 ∧ s = 0x0403) ∨ (k.kind = .ecdsa 24 ∧ s = 0x0503) ∨ (k.kind = .ecdsa 25 ∧ s = 0x0603)

theorem schemeValidForKey_iff (s : Nat) (k : PrivKey) : schemeValidForKey s k = true ↔ SchemeFits s k := by
  obtain ⟨kind, val⟩ := k
  have hr : (schemeAlg s == .pkcs1 || schemeAlg s == .pss) = true ↔
      s ∈ [0x0201, 0x0401, 0x0501, 0x0601, 0x0804, 0x0805, 0x0806] := by
    simp only [schemeAlg, List.mem_cons, List.not_mem_nil, or_false]
    constructor
    · intro h
      split at h
      · omega
      · split at h
        · simp at h
        · split at h
          · omega
          · simp at h
    · intro h
      split
      · rfl
      · split
        · omega
        · split
          · rfl
          · omega
  have he : (schemeAlg s == .ecdsa) = true ↔ s ∈ [0x0403, 0x0503, 0x0603] := by
    simp only [schemeAlg, List.mem_cons, List.not_mem_nil, or_false]
    constructor
    · intro h
      split at h
      · simp at h
      · split at h
        · omega
        · split at h <;> simp at h
    · intro h
      rw [if_neg (by omega), if_pos (by omega)]; rfl
  cases kind with
  | rsa => simp only [schemeValidForKey, SchemeFits, hr]; simp
  | ecdsa c => simp only [schemeValidForKey, SchemeFits, he]; simp
  | other => simp [schemeValidForKey, SchemeFits]

theorem certByScheme_spec (schemes : List Nat) (cs : List Cert) :
    match certByScheme schemes cs with
    | .ok (c, s) => IsFirst (fun c => ∃ s ∈ schemes, SchemeFits s c.key) cs c ∧
        IsFirst (fun s => SchemeFits s c.key) schemes s
    | .err e => e = .msg ∧ ∀ c ∈ cs, ∀ s ∈ schemes, ¬ SchemeFits s c.key
    | _ => False := by
  induction cs with
  | nil => simp [certByScheme]
  | cons c cs ih =>
    rw [certByScheme]
    cases hf : schemes.find? fun s => schemeValidForKey s c.key with
    | some s =>
      dsimp only
      obtain ⟨hs, pre, post, rfl, hpre⟩ := List.find?_eq_some_iff_append.mp hf
      have hs' := (schemeValidForKey_iff _ _).mp hs
      refine ⟨isFirst_cons_self cs ⟨s, by simp, hs'⟩, pre, post, rfl, hs', ?_⟩
      intro x hx
      show ¬ SchemeFits x c.key
      rw [← schemeValidForKey_iff]
      simpa using hpre x hx
    | none =>
      have hn : ∀ s ∈ schemes, ¬ SchemeFits s c.key := by
        intro s hs
        rw [← schemeValidForKey_iff]
        exact List.find?_eq_none.mp hf s hs
      dsimp only
      revert ih
      cases certByScheme schemes cs with
      | ok r =>
        obtain ⟨c', s⟩ := r
        rintro ⟨h1, h2⟩
        exact ⟨isFirst_cons (fun ⟨s, hs, h⟩ => hn s hs h) h1, h2⟩
      | err e =>
        rintro ⟨h1, h2⟩
        refine ⟨h1, fun x hx => ?_⟩
        rcases List.mem_cons.mp hx with rfl | hx
        · exact hn
        · exact h2 x hx
      | panic => exact id
      | diverge => exact id

theorem certsByName_spec (name : Bytes) (cs : List Cert) (hc : ∀ c ∈ cs, c.chain ≠ []) :
    ∃ out, certsByName name cs = .ok out ∧ ∀ c, c ∈ out ↔ c ∈ cs ∧ NameOk (some name) c := by
  induction cs with
  | nil => exact ⟨[], rfl, by simp⟩
  | cons c cs ih =>
    obtain ⟨out, ho, hout⟩ := ih (fun x hx => hc x (by simp [hx]))
    rw [certsByName]
    cases hch : c.chain with
    | nil => exact absurd hch (hc c (by simp))
    | cons leaf rest =>
      dsimp only
      rw [ho, Res.bind_ok]
      refine ⟨_, rfl, fun x => ?_⟩
      rw [List.mem_append, hout, List.mem_map]
      have key : NameOk (some name) c ↔ name ≠ [] ∧ name ∈ leaf.dnsNames := by
        constructor
        · intro h
          obtain ⟨h1, leaf', rest', he, hm⟩ := h name rfl
          rw [hch] at he
          cases he
          exact ⟨h1, hm⟩
        · rintro ⟨h1, h2⟩ n hn
          cases hn
          exact ⟨h1, leaf, rest, hch, h2⟩
      constructor
      · rintro (⟨n, hn, rfl⟩ | ⟨h1, h2⟩)
        · simp only [List.mem_filter, Bool.and_eq_true, decide_eq_true_eq, beq_iff_eq] at hn
          obtain ⟨hn1, hn2, rfl⟩ := hn
          exact ⟨by simp, key.mpr ⟨List.length_pos_iff.mp hn2, hn1⟩⟩
        · exact ⟨by simp [h1], h2⟩
      · rintro ⟨h1, h2⟩
        rcases List.mem_cons.mp h1 with rfl | h1
        · obtain ⟨h3, h4⟩ := key.mp h2
          refine .inl ⟨name, ?_, rfl⟩
          simp [h4, List.length_pos_iff, h3]
        · exact .inr ⟨h1, h2⟩

/-- C29: whatever certificate is selected is configured and carries the name, and the scheme was offered and is the first
that belongs to the type of its key; an error means that no certificate with the name has a key of a type for which a
scheme was offered. Certificates have a nonempty chain. Missing: that the key can really sign with the scheme, see
`C29_wrong_curve_fails`. -/
theorem C29_selection_partial (serverName : Option Bytes) (schemes : List Nat) (certs : List Cert)
    (hc : ∀ c ∈ certs, c.chain ≠ []) :
    match certificate serverName schemes certs with
    | .ok (c, s) => c ∈ certs ∧ NameOk serverName c ∧ IsFirst (fun s => SchemeFits s c.key) schemes s
    | .err e => e = .msg ∧ ∀ c ∈ certs, NameOk serverName c → ∀ s ∈ schemes, ¬ SchemeFits s c.key
    | _ => False := by
  unfold certificate
  cases serverName with
  | none =>
    dsimp only
    have h := certByScheme_spec schemes certs
    revert h
    cases certByScheme schemes certs with
    | ok r => obtain ⟨c, s⟩ := r; rintro ⟨h1, h2⟩; exact ⟨h1.mem, by simp [NameOk], h2⟩
    | err e => rintro ⟨h1, h2⟩; exact ⟨h1, fun c hc _ => h2 c hc⟩
    | panic => exact id
    | diverge => exact id
  | some name =>
    dsimp only
    obtain ⟨out, ho, hout⟩ := certsByName_spec name certs hc
    rw [ho, Res.bind_ok]
    by_cases hl : out.length = 0
    · rw [if_pos hl]
      have hl' : out = [] := List.length_eq_zero_iff.mp hl
      subst hl'
      refine ⟨rfl, fun c hcm hn => ?_⟩
      exact absurd ((hout c).mpr ⟨hcm, hn⟩) (by simp)
    · rw [if_neg hl]
      have h := certByScheme_spec schemes out
      revert h
      cases certByScheme schemes out with
      | ok r =>
        obtain ⟨c, s⟩ := r
        rintro ⟨h1, h2⟩
        have := (hout c).mp h1.mem
        exact ⟨this.1, this.2, h2⟩
      | err e => rintro ⟨h1, h2⟩; exact ⟨h1, fun c hcm hn => h2 c ((hout c).mpr ⟨hcm, hn⟩)⟩
      | panic => exact id
      | diverge => exact id

/-- Signing succeeds with the schemes a key can produce, as far as the primitive does, and with no others. -/
theorem sign_ok_iff (P : Prims) (S : Sig) (hS : ∀ k a h d, (S.sign k a h d).isSome = true) (s : Nat) (k : PrivKey)
    (input : Bytes) : (sign P S s k input).isOk = true ↔ Producible s k := by
  have hgo : ∀ a h d, ∃ sig, S.sign k a h d = some sig := fun a h d => Option.isSome_iff_exists.mp (hS k a h d)
  have hh : schemeHash s = .sha1 ↔ s = 0x0201 := by
    simp only [schemeHash]
    constructor
    · intro h; split at h
      · assumption
      · split at h
        · cases h
        · split at h
          · cases h
          · split at h <;> cases h
    · intro h; rw [if_pos h]
  have hr : (schemeAlg s = .pkcs1 ∨ schemeAlg s = .pss) ↔
      s ∈ [0x0201, 0x0401, 0x0501, 0x0601, 0x0804, 0x0805, 0x0806] := by
    have := schemeValidForKey_iff s ⟨.rsa, 0⟩
    simpa [schemeValidForKey, SchemeFits] using this
  have he : schemeAlg s = .ecdsa ↔ s ∈ [0x0403, 0x0503, 0x0603] := by
    have := schemeValidForKey_iff s ⟨.ecdsa 0, 0⟩
    simpa [schemeValidForKey, SchemeFits] using this
  obtain ⟨sig, hsig⟩ := hgo (schemeAlg s) (schemeHash s) (P.hash (schemeHash s) input)
  rw [sign]
  by_cases h1 : s = 0x0201
  · rw [if_pos (hh.mpr h1)]
    subst h1
    simp [Res.isOk, Producible]
  · rw [if_neg (fun h => h1 (hh.mp h))]
    dsimp only
    rw [hsig]
    obtain ⟨kind, val⟩ := k
    cases kind with
    | rsa =>
      simp only [Producible, List.mem_cons, List.not_mem_nil, or_false] at hr ⊢
      by_cases hm : schemeAlg s = .pkcs1 ∨ schemeAlg s = .pss
      · rw [if_pos hm]
        have := hr.mp hm
        simp only [Res.isOk, true_iff, true_and, reduceCtorEq, false_and, or_false]
        omega
      · rw [if_neg hm]
        have := fun h => hm (hr.mpr h)
        simp only [Res.isOk, Bool.false_eq_true, false_iff, true_and, reduceCtorEq, false_and, or_false]
        exact fun h => this (.inr h)
    | ecdsa c =>
      simp only [Producible, List.mem_cons, List.not_mem_nil, or_false] at he ⊢
      by_cases hm : schemeAlg s = .ecdsa
      · rw [if_neg (by simp [hm])]
        have hm' := he.mp hm
        simp only [schemeCurve, KeyKind.ecdsa.injEq, reduceCtorEq, false_and, false_or]
        rcases hm' with rfl | rfl | rfl
        · by_cases hc : c = 23
          · subst hc; simp [Res.isOk]
          · simp [Res.isOk, Ne.symm hc, hc]
        · by_cases hc : c = 24
          · subst hc; simp [Res.isOk]
          · simp [Res.isOk, Ne.symm hc, hc]
        · by_cases hc : c = 25
          · subst hc; simp [Res.isOk]
          · simp [Res.isOk, Ne.symm hc, hc]
      · rw [if_pos (by simpa using hm)]
        have := fun h => hm (he.mpr h)
        simp only [Res.isOk, Bool.false_eq_true, KeyKind.ecdsa.injEq, reduceCtorEq, false_and, false_or, false_iff]
        rintro (⟨_, h⟩ | ⟨_, h⟩ | ⟨_, h⟩)
        · exact this (.inl h)
        · exact this (.inr (.inl h))
        · exact this (.inr (.inr h))
    | other => simp [Res.isOk, Producible]

/-- C29, complete when for every configured key all offered schemes of its type are ones it can produce (for instance
only one ECDSA scheme is offered, that of the configured keys): then the key selected can sign with the scheme selected.
Missing: other combinations, see `C29_wrong_curve_fails`. -/
theorem C29_can_sign_partial (serverName : Option Bytes) (schemes : List Nat) (certs : List Cert)
    (hc : ∀ c ∈ certs, c.chain ≠ [])
    (hp : ∀ c ∈ certs, ∀ s ∈ schemes, SchemeFits s c.key → Producible s c.key)
    (c : Cert) (s : Nat) (h : certificate serverName schemes certs = .ok (c, s))
    (P : Prims) (S : Sig) (hS : ∀ k a h d, (S.sign k a h d).isSome = true) (input : Bytes) :
    (sign P S s c.key input).isOk = true := by
  have := C29_selection_partial serverName schemes certs hc
  rw [h] at this
  exact (sign_ok_iff P S hS s c.key input).mpr (hp c this.1 s this.2.2.mem this.2.2.prop)

/-- C29 fails: with a P-256 key and a client offering the schemes of P-384 and P-256 in this order, the scheme of P-384
is selected, with which the key can never sign, although it could sign with the other. -/
theorem C29_wrong_curve_fails : ∃ (schemes : List Nat) (c : Cert) (s : Nat),
    certificate none schemes [c] = .ok (c, s) ∧ (∃ s' ∈ schemes, Producible s' c.key) ∧
    ∀ P S input, sign P S s c.key input = .err .msg := by
  refine ⟨[0x0503, 0x0403], ⟨[⟨[1], [[97]], ⟨.ecdsa 23, 1⟩⟩], ⟨.ecdsa 23, 1⟩⟩, 0x0503, by decide, ⟨0x0403, by simp, by simp [Producible]⟩, ?_⟩
  intro P S input
  simp [sign, schemeHash, schemeAlg, schemeCurve]

/-- The second certificate is chosen: the first has another name. -/
example :
    certificate (some [98]) [0x0403, 0x0804] [⟨[⟨[1], [[97]], ⟨.ecdsa 23, 1⟩⟩], ⟨.ecdsa 23, 1⟩⟩, ⟨[⟨[2], [[99], [98]], ⟨.rsa, 2⟩⟩], ⟨.rsa, 2⟩⟩] =
      .ok (⟨[⟨[2], [[99], [98]], ⟨.rsa, 2⟩⟩], ⟨.rsa, 2⟩⟩, 0x0804) ∧
    (∀ s ∈ [0x0403, 0x0804], SchemeFits s ⟨.rsa, 2⟩ → Producible s ⟨.rsa, 2⟩) := by
  refine ⟨by decide, ?_⟩
  intro s hs
  simp only [List.mem_cons, List.not_mem_nil, or_false] at hs
  rcases hs with rfl | rfl <;> simp [SchemeFits, Producible]

end Verif.Negotiation
