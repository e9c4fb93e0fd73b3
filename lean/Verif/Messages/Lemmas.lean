import Verif.Messages.Bodies
import Verif.Syntax.Simple

namespace Verif.Messages

open Verif Verif.Syntax

theorem plain_extList : extListTy.plain = true := by decide
theorem plain_serverNameList : serverNameListTy.plain = true := by decide
theorem plain_keyShareClient : keyShareClientTy.plain = true := by decide
theorem plain_keyShareServer : keyShareServerTy.plain = true := by decide
theorem plain_u16 : u16Ty.plain = true := by decide
theorem plain_u32 : u32Ty.plain = true := by decide
theorem plain_u16List : u16ListTy.plain = true := by decide
theorem plain_pskClient : pskClientTy.plain = true := by decide
theorem plain_binders : bindersTy.plain = true := by decide
theorem plain_pskModes : pskModesTy.plain = true := by decide
theorem plain_alpn : alpnTy.plain = true := by decide
theorem plain_versions : versionsTy.plain = true := by decide
theorem plain_cookie : cookieTy.plain = true := by decide
theorem plain_chTls : chTlsTy.plain = true := by decide
theorem plain_chDtls : chDtlsTy.plain = true := by decide
theorem plain_sh : shTy.plain = true := by decide
theorem plain_cert : certTy.plain = true := by decide
theorem plain_certVerify : certVerifyTy.plain = true := by decide
theorem plain_certRequest : certRequestTy.plain = true := by decide
theorem plain_ticket : ticketTy.plain = true := by decide
theorem plain_ee : eeTy.plain = true := by decide
theorem plain_keyUpdate : keyUpdateTy.plain = true := by decide

/-- A plain schema that was read from the whole input reads the same in front of anything. -/
theorem plain_extend {α : Type} {t : Ty α} (ht : t.plain = true) {bs : Bytes} {v : α} {n : Nat}
    (h : unmarshal t bs = .ok (v, n)) (hn : bs.length = n) (rest : Bytes) :
    unmarshal t (bs ++ rest) = .ok (v, bs.length) := by
  obtain ⟨h1, -⟩ := plain_canonical ht h
  rw [← hn, List.take_length] at h1
  exact plain_roundtrip ht h1 rest

theorem plain_self {α : Type} {t : Ty α} (ht : t.plain = true) {v : α} {bs : Bytes} (h : marshal t v = .ok bs) :
    unmarshal t bs = .ok (v, bs.length) := by simpa using plain_roundtrip ht h []

/-- A reader whose successful reads of whole inputs are not disturbed by what follows. -/
def Stable {α : Type} (u : Bytes → Res (α × Nat)) : Prop :=
  ∀ bs v rest, u bs = .ok (v, bs.length) → u (bs ++ rest) = .ok (v, bs.length)

theorem stable_bind {α β : Type} {t : Ty α} (ht : t.plain = true) (f : α × Nat → Res (β × Nat))
    (hf : ∀ v n b m, f (v, n) = .ok (b, m) → m = n) : Stable (fun bs => (unmarshal t bs).bind f) := by
  intro bs v rest h
  simp only [Res.bind_eq_ok] at h ⊢
  obtain ⟨⟨a, n⟩, h1, h2⟩ := h
  have h3 := hf _ _ _ _ h2
  subst h3
  exact ⟨(a, bs.length), plain_extend ht h1 rfl rest, h2⟩

theorem safeUnmarshal_ok {α : Type} {u : Bytes → Res (α × Nat)} {bs : Bytes} {v : α} :
    safeUnmarshal u bs = .ok v ↔ u bs = .ok (v, bs.length) := by
  unfold safeUnmarshal
  cases hu : u bs with
  | ok p =>
    obtain ⟨a, n⟩ := p
    simp only [Res.bind_ok]
    split
    · simp_all [eq_comm]
    · simp_all
  | _ => simp

theorem safeUnmarshal_safe {α : Type} {u : Bytes → Res (α × Nat)} {bs : Bytes} (h : (u bs).Safe) :
    (safeUnmarshal u bs).Safe := by
  refine Res.safe_bind h fun a _ => ?_
  dsimp only
  split <;> trivial

theorem safeUnmarshal_no_trailing {α : Type} {u : Bytes → Res (α × Nat)} (hs : Stable u) {bs rest : Bytes} {v v' : α}
    (h : safeUnmarshal u bs = .ok v) (h' : safeUnmarshal u (bs ++ rest) = .ok v') : rest = [] := by
  rw [safeUnmarshal_ok] at h h'
  rw [hs _ _ _ h] at h'
  simp at h'
  exact h'.2

/-! ### Extension bodies -/

theorem ExtKind.stable : ∀ k : ExtKind, k ≠ .earlyData → Stable k.unmarshal := by
  intro k hk
  cases k <;> unfold ExtKind.unmarshal
  case serverName =>
    refine stable_bind plain_serverNameList _ ?_
    rintro v n b m h
    dsimp only at h
    split at h
    · simp at h
    · split at h <;> simp at h
      exact h.2.symm
  case keyShare hs =>
    intro bs v rest h
    dsimp only at h ⊢
    split at h
    · rename_i c; simp only [c, if_true]
      refine stable_bind plain_keyShareClient (fun (v, n) => if v.1.all sizeValid then .ok (.keyShare typeClientHello 0 v.1, n) else .err .msg) ?_ bs v rest ?_
      · rintro v n b m h; dsimp only at h; split at h <;> simp at h; exact h.2.symm
      · simpa [c] using h
    · rename_i c; simp only [c, if_false]
      split at h
      · rename_i c2; simp only [c2, if_true]
        refine stable_bind plain_u16 (fun (v, n) => .ok (.keyShare typeHelloRetryRequest v.1 [], n)) ?_ bs v rest ?_
        · rintro v n b m h; simp at h; exact h.2.symm
        · simpa [c2] using h
      · rename_i c2; simp only [c2, if_false]
        split at h
        · rename_i c3; simp only [c3, if_true]
          refine stable_bind plain_keyShareServer (fun (v, n) => if sizeValid v.1 then .ok (.keyShare typeServerHello 0 [v.1], n) else .err .msg) ?_ bs v rest ?_
          · rintro v n b m h; dsimp only at h; split at h <;> simp at h; exact h.2.symm
          · simpa [c3] using h
        · simp at h
  case supportedGroups => exact stable_bind plain_u16List _ (by rintro v n b m h; simp at h; exact h.2.symm)
  case signatureAlgorithms => exact stable_bind plain_u16List _ (by rintro v n b m h; simp at h; exact h.2.symm)
  case preSharedKey hs =>
    intro bs v rest h
    dsimp only at h ⊢
    split at h
    · rename_i c; simp only [c, if_true]
      refine stable_bind plain_pskClient (fun (v, n) => if v.1.length ≠ v.2.1.length then .err .msg else .ok (.preSharedKey typeClientHello v.1 v.2.1 0, n)) ?_ bs v rest ?_
      · rintro v n b m h; dsimp only at h; split at h <;> simp at h; exact h.2.symm
      · simpa [c] using h
    · rename_i c; simp only [c, if_false]
      split at h
      · rename_i c2; simp only [c2, if_true]
        refine stable_bind plain_u16 (fun (v, n) => .ok (.preSharedKey typeServerHello [] [] v.1, n)) ?_ bs v rest ?_
        · rintro v n b m h; simp at h; exact h.2.symm
        · simpa [c2] using h
      · simp at h
  case pskModes => exact stable_bind plain_pskModes _ (by rintro v n b m h; simp at h; exact h.2.symm)
  case earlyData => exact absurd rfl hk
  case ticketEarlyDataInfo => exact stable_bind plain_u32 _ (by rintro v n b m h; simp at h; exact h.2.symm)
  case alpn => exact stable_bind plain_alpn _ (by rintro v n b m h; simp at h; exact h.2.symm)
  case supportedVersions hs =>
    intro bs v rest h
    dsimp only at h ⊢
    split at h
    · rename_i c; simp only [c, if_true]
      refine stable_bind plain_versions (fun (v, n) => .ok (.supportedVersions typeClientHello v.1, n)) ?_ bs v rest ?_
      · rintro v n b m h; simp at h; exact h.2.symm
      · simpa [c] using h
    · rename_i c; simp only [c, if_false]
      split at h
      · rename_i c2; simp only [c2, if_true]
        refine stable_bind plain_u16 (fun (v, n) => .ok (.supportedVersions hs [v.1], n)) ?_ bs v rest ?_
        · rintro v n b m h; simp at h; exact h.2.symm
        · simpa [c2] using h
      · simp at h
  case cookie => exact stable_bind plain_cookie _ (by rintro v n b m h; simp at h; exact h.2.symm)

/-- A server name list that was read has an entry, because its body has at least one byte. -/
theorem serverNames_ne_nil {bs : Bytes} {v : List (UInt8 × Bytes × Unit) × Unit} {n : Nat}
    (h : unmarshal serverNameListTy bs = .ok (v, n)) : v.1 ≠ [] := by
  intro hv
  obtain ⟨h1, -⟩ := plain_canonical plain_serverNameList h
  obtain ⟨l, u⟩ := v
  simp only at hv
  subst hv
  have : marshal serverNameListTy ([], ()) = .err .msg := by decide
  rw [show ([], u) = (([], ()) : List (UInt8 × Bytes × Unit) × Unit) from rfl, this] at h1
  simp at h1

theorem ExtKind.unmarshal_safe (k : ExtKind) (bs : Bytes) : (k.unmarshal bs).Safe := by
  cases k <;> unfold ExtKind.unmarshal
  case serverName =>
    refine Res.safe_bind (plain_safe plain_serverNameList bs) ?_
    rintro ⟨v, n⟩ h
    have := serverNames_ne_nil h
    dsimp only
    split
    · contradiction
    · split <;> trivial
  case keyShare hs =>
    dsimp only
    split
    · exact Res.safe_bind (plain_safe plain_keyShareClient bs) (by rintro ⟨v, n⟩ _; dsimp only; split <;> trivial)
    split
    · exact Res.safe_bind (plain_safe plain_u16 bs) (by rintro ⟨v, n⟩ _; trivial)
    split
    · exact Res.safe_bind (plain_safe plain_keyShareServer bs) (by rintro ⟨v, n⟩ _; dsimp only; split <;> trivial)
    · trivial
  case supportedGroups => exact Res.safe_bind (plain_safe plain_u16List bs) (by rintro ⟨v, n⟩ _; trivial)
  case signatureAlgorithms => exact Res.safe_bind (plain_safe plain_u16List bs) (by rintro ⟨v, n⟩ _; trivial)
  case preSharedKey hs =>
    dsimp only
    split
    · exact Res.safe_bind (plain_safe plain_pskClient bs) (by rintro ⟨v, n⟩ _; dsimp only; split <;> trivial)
    split
    · exact Res.safe_bind (plain_safe plain_u16 bs) (by rintro ⟨v, n⟩ _; trivial)
    · trivial
  case pskModes => exact Res.safe_bind (plain_safe plain_pskModes bs) (by rintro ⟨v, n⟩ _; trivial)
  case earlyData => trivial
  case ticketEarlyDataInfo => exact Res.safe_bind (plain_safe plain_u32 bs) (by rintro ⟨v, n⟩ _; trivial)
  case alpn => exact Res.safe_bind (plain_safe plain_alpn bs) (by rintro ⟨v, n⟩ _; trivial)
  case supportedVersions hs =>
    dsimp only
    split
    · exact Res.safe_bind (plain_safe plain_versions bs) (by rintro ⟨v, n⟩ _; trivial)
    split
    · exact Res.safe_bind (plain_safe plain_u16 bs) (by rintro ⟨v, n⟩ _; trivial)
    · trivial
  case cookie => exact Res.safe_bind (plain_safe plain_cookie bs) (by rintro ⟨v, n⟩ _; trivial)

/-- What Unmarshal returns has the Go type and HandshakeType of its target. -/
theorem ExtKind.unmarshal_kind {k : ExtKind} {bs : Bytes} {b : ExtBody} {n : Nat} (h : k.unmarshal bs = .ok (b, n)) :
    b.kind = k := by
  cases k <;> unfold ExtKind.unmarshal at h
  case serverName =>
    simp only [Res.bind_eq_ok] at h
    obtain ⟨⟨v, n⟩, -, h⟩ := h
    dsimp only at h
    split at h
    · simp at h
    · split at h <;> simp at h
      rw [← h.1]; rfl
  case keyShare hs =>
    dsimp only at h
    split at h
    · simp only [Res.bind_eq_ok] at h
      obtain ⟨⟨v, n⟩, -, h⟩ := h
      dsimp only at h
      split at h <;> simp at h
      rw [← h.1]; rfl
    split at h
    · simp only [Res.bind_eq_ok] at h
      obtain ⟨⟨v, n⟩, -, h⟩ := h
      simp at h
      rw [← h.1]; rfl
    split at h
    · simp only [Res.bind_eq_ok] at h
      obtain ⟨⟨v, n⟩, -, h⟩ := h
      dsimp only at h
      split at h <;> simp at h
      rw [← h.1]; rfl
    · simp at h
  case preSharedKey hs =>
    dsimp only at h
    split at h
    · simp only [Res.bind_eq_ok] at h
      obtain ⟨⟨v, n⟩, -, h⟩ := h
      dsimp only at h
      split at h <;> simp at h
      rw [← h.1]; rfl
    split at h
    · simp only [Res.bind_eq_ok] at h
      obtain ⟨⟨v, n⟩, -, h⟩ := h
      simp at h
      rw [← h.1]; rfl
    · simp at h
  case earlyData => simp at h; rw [← h.1]; rfl
  case supportedVersions hs =>
    dsimp only at h
    split at h
    · simp only [Res.bind_eq_ok] at h
      obtain ⟨⟨v, n⟩, -, h⟩ := h
      simp at h
      rw [← h.1]; rfl
    split at h
    · simp only [Res.bind_eq_ok] at h
      obtain ⟨⟨v, n⟩, -, h⟩ := h
      simp at h
      rw [← h.1]; rfl
    · simp at h
  all_goals
    simp only [Res.bind_eq_ok] at h
    obtain ⟨⟨v, n⟩, -, h⟩ := h
    simp at h
    rw [← h.1]; rfl

end Verif.Messages
