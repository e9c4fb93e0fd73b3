import Verif.Props.Negotiation

/-
C27: selection of a pre-shared key by the server.
-/

namespace Verif.Negotiation

open Verif Verif.Crypto Verif.Spec

theorem ascii_ext_binder : ascii "ext binder" = labelExternalBinder := by decide
theorem ascii_res_binder : ascii "res binder" = labelResumptionBinder := by decide

/-- The binder computed is the one of RFC 8446. -/
theorem computeBinder_eq (P : Prims) (hP : P.Sized) (h : HashId) (hs : 0 < h.size) (k : Psk) (context : Bytes) :
    computeBinder P h k context = .ok (binder P h k.isResumption k.key context) := by
  rw [computeBinder]
  rw [deriveSecret_eq P hP h hs, Res.bind_ok, computeFinishedData_eq P hP h hs]
  rw [binder, hkdfExtract, extract]
  cases k.isResumption <;> simp [ascii_ext_binder, ascii_res_binder]

/-- The age the client claims and the age the server knows, both in milliseconds, differ by at most five seconds, modulo
the 2^32 milliseconds of the age field. -/
def AgePlausible (now : Int) (k : Psk) (obfuscated : UInt32) : Prop :=
  let claimed : Int := (obfuscated.toNat - k.ticketAgeAdd.toNat : Int) % 2 ^ 32
  let known : Int := (now - k.receivedAt).tdiv 1000000 % 2 ^ 32
  claimed - 5000 ≤ known ∧ known ≤ claimed + 5000

theorem sinceMs_toNat (now t : Int) : ((sinceMs now t).toNat : Int) = (now - t).tdiv 1000000 % 2 ^ 32 := by
  rw [sinceMs]
  generalize (now - t).tdiv 1000000 = x
  rw [UInt32.ofInt, UInt32.toNat_ofNat']
  have h1 : 0 ≤ x % 2 ^ 32 := Int.emod_nonneg _ (by decide)
  have h2 : x % 2 ^ 32 < 2 ^ 32 := Int.emod_lt_of_pos _ (by decide)
  rw [Nat.mod_eq_of_lt (by omega)]
  omega

theorem ticketAgeOk_iff (now : Int) (k : Psk) (obf : UInt32) :
    ticketAgeOk now k obf = true ↔ AgePlausible now k obf := by
  have hk := sinceMs_toNat now k.receivedAt
  have he : ((obf - k.ticketAgeAdd).toNat : Int) = (obf.toNat - k.ticketAgeAdd.toNat : Int) % 2 ^ 32 := by
    rw [UInt32.toNat_sub]
    have := obf.toNat_lt
    have := k.ticketAgeAdd.toNat_lt
    omega
  rw [ticketAgeOk, AgePlausible]
  rw [← hk, ← he]
  generalize sinceMs now k.receivedAt = a
  generalize obf - k.ticketAgeAdd = b
  have ha := a.toNat_lt
  have hb := b.toNat_lt
  simp only [Bool.not_eq_true', decide_eq_false_iff_not, gt_iff_lt, UInt32.lt_iff_toNat_lt]
  have ht : ticketAgeTolerance.toNat = 5000 := rfl
  rw [ht]
  by_cases hlt : a.toNat < b.toNat
  · rw [if_pos hlt, UInt32.toNat_sub_of_le _ _ (by rw [UInt32.le_iff_toNat_le]; omega)]; omega
  · rw [if_neg hlt, UInt32.toNat_sub_of_le _ _ (by rw [UInt32.le_iff_toNat_le]; omega)]; omega

/-- The identity is in the server's cache. -/
def Known (cache : Bytes → Option Psk) (id : Identity) : Prop := ∃ k, cache (hexString id.identity) = some k

/-- The offer (identity, binder) proves possession of `k`: plausible age if it comes from a ticket, cipher suite
supported, binder as in RFC 8446. -/
def Proves (P : Prims) (now : Int) (context : Bytes) (k : Psk) (id : Identity) (b : Bytes) (params : Params) : Prop :=
  (k.isResumption = true → AgePlausible now k id.age) ∧ suiteParams k.suite = some params ∧
  b = binder P params.hash k.isResumption k.key context

theorem pskFrom_known (P : Prims) (hP : P.Sized) (now : Int) (binders : List Bytes) (context : Bytes)
    (cache : Bytes → Option Psk) (i : Nat) (id : Identity) (ids : List Identity) (k : Psk) (b : Bytes)
    (hk : cache (hexString id.identity) = some k) (hb : binders[i]? = some b) :
    (∃ params, Proves P now context k id b params ∧
      pskFrom P now binders context cache i (id :: ids) = .ok (some (i, k, params))) ∨
    ((∀ params, ¬ Proves P now context k id b params) ∧
      pskFrom P now binders context cache i (id :: ids) = .err .msg) := by
  rw [pskFrom, hk]
  dsimp only
  by_cases hage : k.isResumption = true → AgePlausible now k id.age
  · have hif : ¬ (k.isResumption && !ticketAgeOk now k id.age) = true := by
      intro h
      simp only [Bool.and_eq_true, Bool.not_eq_true'] at h
      rw [← ticketAgeOk_iff, h.2] at hage
      simpa using hage h.1
    rw [if_neg hif]
    cases hs : suiteParams k.suite with
    | none =>
      refine .inr ⟨fun params h => ?_, rfl⟩
      rw [h.2.1] at hs; cases hs
    | some params =>
      dsimp only
      rw [computeBinder_eq P hP _ (suiteParams_size hs), Res.bind_ok, hb]
      dsimp only
      by_cases hbb : b = binder P params.hash k.isResumption k.key context
      · rw [if_neg (by simp [hbb])]
        exact .inl ⟨params, ⟨hage, hs, hbb⟩, rfl⟩
      · rw [if_pos (fun h => hbb h.symm)]
        refine .inr ⟨fun params' h => ?_, rfl⟩
        rw [h.2.1] at hs
        cases hs
        exact hbb h.2.2
  · have hif : (k.isResumption && !ticketAgeOk now k id.age) = true := by
      cases hr : k.isResumption with
      | false => exact absurd (fun h => by rw [hr] at h; cases h) hage
      | true =>
        rw [Bool.true_and, Bool.not_eq_true']
        rw [← Bool.not_eq_true, ticketAgeOk_iff]
        exact fun h => hage (fun _ => h)
    rw [if_pos hif]
    exact .inr ⟨fun params h => hage h.1, rfl⟩

theorem pskFrom_spec (P : Prims) (hP : P.Sized) (now : Int) (binders : List Bytes) (context : Bytes)
    (cache : Bytes → Option Psk) (i : Nat) (ids : List Identity) (hl : i + ids.length ≤ binders.length) :
    ((∀ id ∈ ids, ¬ Known cache id) ∧ pskFrom P now binders context cache i ids = .ok none) ∨
    ∃ j id k b, ids[j]? = some id ∧ (∀ j' < j, ∀ id', ids[j']? = some id' → ¬ Known cache id') ∧
      cache (hexString id.identity) = some k ∧ binders[i + j]? = some b ∧
      ((∃ params, Proves P now context k id b params ∧
          pskFrom P now binders context cache i ids = .ok (some (i + j, k, params))) ∨
        ((∀ params, ¬ Proves P now context k id b params) ∧ pskFrom P now binders context cache i ids = .err .msg)) := by
  induction ids generalizing i with
  | nil => exact .inl ⟨by simp, rfl⟩
  | cons id ids ih =>
    simp only [List.length_cons] at hl
    cases hk : cache (hexString id.identity) with
    | some k =>
      have hb : binders[i]? = some binders[i] := List.getElem?_eq_getElem (by omega)
      exact .inr ⟨0, id, k, binders[i], rfl, by omega, hk, hb,
        pskFrom_known P hP now binders context cache i id ids k _ hk hb⟩
    | none =>
      have e : pskFrom P now binders context cache i (id :: ids) = pskFrom P now binders context cache (i + 1) ids := by
        rw [pskFrom, hk]
      have hu : ¬ Known cache id := by rintro ⟨k, h⟩; rw [hk] at h; cases h
      rw [e]
      rcases ih (i + 1) (by omega) with ⟨h1, h2⟩ | ⟨j, id', k, b, h1, h2, h3, h4, h5⟩
      · refine .inl ⟨fun x hx => ?_, h2⟩
        rcases List.mem_cons.mp hx with rfl | hx
        · exact hu
        · exact h1 x hx
      · rw [show i + 1 + j = i + (j + 1) by omega] at h4 h5
        refine .inr ⟨j + 1, id', k, b, by simpa using h1, ?_, h3, h4, h5⟩
        intro j' hj' x hx
        cases j' with
        | zero => simp only [List.getElem?_cons_zero, Option.some.injEq] at hx; exact hx ▸ hu
        | succ j' => exact h2 j' (by omega) x (by simpa using hx)

/-- C27: the first identity the server knows decides. If its offer proves possession, it is selected; if not, negotiation
fails with an error, whatever follows. If no identity is known nothing is selected. Never a crash. One binder per
identity is what the parser of the extension ensures (extensions.go:419-421). -/
theorem C27_first_known_decides (P : Prims) (hP : P.Sized) (now : Int) (ids : List Identity) (binders : List Bytes)
    (context : Bytes) (cache : Bytes → Option Psk) (hl : ids.length = binders.length) :
    ((∀ id ∈ ids, ¬ Known cache id) ∧ psk P now ids binders context cache = .ok none) ∨
    ∃ (j : Nat) (id : Identity) (k : Psk) (b : Bytes), ids[j]? = some id ∧
      (∀ j' < j, ∀ id', ids[j']? = some id' → ¬ Known cache id') ∧
      cache (hexString id.identity) = some k ∧ binders[j]? = some b ∧
      ((∃ params, Proves P now context k id b params ∧
          psk P now ids binders context cache = .ok (some (j, k, params))) ∨
        ((∀ params, ¬ Proves P now context k id b params) ∧ psk P now ids binders context cache = .err .msg)) := by
  have := pskFrom_spec P hP now binders context cache 0 ids (by omega)
  simpa [psk] using this

/-- C27: whatever is selected was listed by the client, is what the server has stored for this identity, and comes with a
binder that verifies; for a PSK from a ticket, the age is plausible modulo 2^32 milliseconds. -/
theorem C27_selected_proves_possession (P : Prims) (hP : P.Sized) (now : Int) (ids : List Identity)
    (binders : List Bytes) (context : Bytes) (cache : Bytes → Option Psk) (hl : ids.length = binders.length)
    (j : Nat) (k : Psk) (params : Params) (h : psk P now ids binders context cache = .ok (some (j, k, params))) :
    ∃ id b, ids[j]? = some id ∧ binders[j]? = some b ∧ cache (hexString id.identity) = some k ∧
      suiteParams k.suite = some params ∧ b = binder P params.hash k.isResumption k.key context ∧
      (k.isResumption = true → AgePlausible now k id.age) := by
  rcases C27_first_known_decides P hP now ids binders context cache hl with
    ⟨_, h'⟩ | ⟨j', id, k', b, h1, _, h3, h4, ⟨params', hp, h'⟩ | ⟨_, h'⟩⟩
  · rw [h] at h'; cases h'
  · rw [h] at h'
    simp only [Res.ok.injEq, Option.some.injEq, Prod.mk.injEq] at h'
    obtain ⟨rfl, rfl, rfl⟩ := h'
    exact ⟨id, b, h1, h4, h3, hp.2.1, hp.2.2, hp.1⟩
  · rw [h] at h'; cases h'

theorem hexDigit_injective {a b : Nat} (ha : a < 16) (hb : b < 16) (h : hexDigit a = hexDigit b) : a = b := by
  have : ∀ a < 16, ∀ b < 16, hexDigit a = hexDigit b → a = b := by decide
  exact this a ha b hb h

/-- C27: different identities are looked up under different keys. -/
theorem C27_identities_not_confused (a b : Bytes) (h : hexString a = hexString b) : a = b := by
  induction a generalizing b with
  | nil =>
    cases b with
    | nil => rfl
    | cons y ys => simp [hexString] at h
  | cons x xs ih =>
    cases b with
    | nil => simp [hexString] at h
    | cons y ys =>
      simp only [hexString, List.flatMap_cons, List.cons_append, List.nil_append, List.cons.injEq] at h
      obtain ⟨h1, h2, h3⟩ := h
      have hx := x.toNat_lt
      have hy := y.toNat_lt
      have e1 := hexDigit_injective (by omega) (by omega) h1
      have e2 := hexDigit_injective (by omega) (by omega) h2
      have : x.toNat = y.toNat := by omega
      rw [UInt8.toNat_inj.mp this, ih ys h3]

/-- C27: for a PSK received less than 2^32 milliseconds ago (49 days), the real age and the one claimed by the client
differ by at most five seconds. Missing: older PSKs, see `C27_age_wraps_fails`. -/
theorem C27_age_partial (now : Int) (k : Psk) (obf : UInt32) (h0 : k.receivedAt ≤ now)
    (h1 : now - k.receivedAt < 2 ^ 32 * 1000000) (h : AgePlausible now k obf) :
    let claimed : Int := (obf.toNat - k.ticketAgeAdd.toNat : Int) % 2 ^ 32
    let age : Int := (now - k.receivedAt) / 1000000
    claimed - 5000 ≤ age ∧ age ≤ claimed + 5000 := by
  dsimp only
  rw [AgePlausible] at h
  rw [Int.tdiv_eq_ediv_of_nonneg (by omega)] at h
  omega

/-- Primitives for examples: everything hashes to zeros. -/
def zeroPrims : Prims := ⟨fun h _ => List.replicate h.size 0, fun h _ _ => List.replicate h.size 0⟩

theorem zeroPrims_sized : zeroPrims.Sized := ⟨fun _ _ => List.length_replicate, fun _ _ _ => List.length_replicate⟩

/-- C27 fails for old tickets: after 2^32 milliseconds a client claiming age zero is believed. -/
theorem C27_age_wraps_fails : ∃ (P : Prims) (now : Int) (ids : List Identity) (binders : List Bytes) (k : Psk)
    (params : Params), P.Sized ∧ now - k.receivedAt = 2 ^ 32 * 1000000 ∧ ids = [⟨[1], k.ticketAgeAdd⟩] ∧
      psk P now ids binders [] (fun _ => some k) = .ok (some (0, k, params)) :=
  ⟨zeroPrims, 2 ^ 32 * 1000000, [⟨[1], 7⟩], [List.replicate 32 0], ⟨0x1301, true, [1], [2], [], 0, 0, 7⟩,
    ⟨0x1301, .sha256, 16, 12⟩, zeroPrims_sized, by decide, rfl, by decide +kernel⟩

/-- The second identity is known and its ticket 3 seconds old by the server's clock, 1 second by the client's. -/
example :
    psk zeroPrims 3000000000 [⟨[1], 0⟩, ⟨[2], 1007⟩] [[5], List.replicate 32 0] [9]
      (fun s => if s = [48, 50] then some ⟨0x1301, true, [2], [2], [], 0, 0, 7⟩ else none) =
      .ok (some (1, ⟨0x1301, true, [2], [2], [], 0, 0, 7⟩, ⟨0x1301, .sha256, 16, 12⟩)) ∧
    psk zeroPrims 3000000000 [⟨[1], 0⟩, ⟨[2], 1007⟩] [[5], List.replicate 32 1] [9]
      (fun s => if s = [48, 50] then some ⟨0x1301, true, [2], [2], [], 0, 0, 7⟩ else none) = .err .msg := by
  decide +kernel

end Verif.Negotiation
