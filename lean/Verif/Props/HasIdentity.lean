import Verif.Messages.HasIdentity
import Verif.Props.Extensions

/-
C93: looking up an identity in a pre_shared_key extension gives the binder that was sent for it.
-/

namespace Verif.Props

open Verif Verif.Messages Verif.Spec

theorem hasIdentityFrom_eq (binders : List BinderEntry) (id : Bytes) : ∀ (ids : List PskIdentity) (i : Nat),
    ids.length + i ≤ binders.length →
    hasIdentityFrom binders id i ids =
      .ok (((ids.zip (binders.drop i)).find? fun p => p.1.1 == id).map fun p => p.2.1)
  | [], _, _ => by simp [hasIdentityFrom]
  | localId :: ids, i, h => by
    rw [List.length_cons] at h
    have hi : i < binders.length := by omega
    rw [hasIdentityFrom, List.drop_eq_getElem_cons hi, List.zip_cons_cons, List.find?_cons]
    by_cases he : localId.1 = id
    · simp [he, List.getElem?_eq_getElem hi]
    · have hb : (localId.1 == id) = false := by simpa using he
      rw [if_neg he, hasIdentityFrom_eq binders id ids (i + 1) (by omega)]
      simp only [hb]

/-- In an extension that was parsed, whatever the bytes are, identities and binders go together one by one, looking up an
identity never crashes, and it gives the binder of the first entry with this identity, or reports that there is none. -/
theorem C93_parsed (hs : UInt8) (bs : Bytes) (ids : List PskIdentity) (binders : List BinderEntry) (sel : UInt16) (n : Nat)
    (h : (ExtKind.preSharedKey hs).unmarshal bs = .ok (.preSharedKey hs ids binders sel, n)) (id : Bytes) :
    ids.length = binders.length ∧
    hasIdentity ids binders id = .ok (((ids.zip binders).find? fun p => p.1.1 == id).map fun p => p.2.1) := by
  have hl : ids.length = binders.length := by
    simp only [ExtKind.unmarshal] at h
    split at h
    · simp only [Res.bind_eq_ok] at h
      obtain ⟨v, _, h⟩ := h
      split at h
      · cases h
      · rename_i hne
        cases h
        exact Classical.byContradiction hne
    · split at h
      · simp only [Res.bind_eq_ok] at h
        obtain ⟨v, _, h⟩ := h
        cases h
        rfl
      · cases h
  exact ⟨hl, hasIdentityFrom_eq binders id ids 0 (by omega)⟩

/-- What one end puts into the extension the other end finds: if the extension is written with a binder for each of its
identities, and parsed, an identity is found exactly if it was put in, with the binder it was put in with (the first, if it
was put in more than once). -/
theorem C93_sent (ids : List PskIdentity) (binders : List BinderEntry) (hl : ids.length = binders.length) (bs : Bytes)
    (h : (ExtBody.preSharedKey 1 ids binders 0).marshal = .ok bs) (id : Bytes) :
    ∃ ids' binders' sel n, (ExtKind.preSharedKey 1).unmarshal bs = .ok (.preSharedKey 1 ids' binders' sel, n) ∧
      ((∃ r, hasIdentity ids' binders' id = .ok r ∧ (r = none ↔ ∀ e ∈ ids, e.1 ≠ id)) ∧
      ∀ pre post e b pre' post', ids = pre ++ e :: post → binders = pre' ++ b :: post' → pre.length = pre'.length →
        (∀ e' ∈ pre, e'.1 ≠ id) → e.1 = id → hasIdentity ids' binders' id = .ok (some b.1)) := by
  have hr := C31_extension_roundtrip_partial _ _ (by simp [expressible, hl, typeClientHello]) h
  rw [safeUnmarshal_ok] at hr
  refine ⟨ids, binders, 0, bs.length, by simpa [ExtBody.kind, contents] using hr, ?_, ?_⟩
  · refine ⟨_, hasIdentityFrom_eq binders id ids 0 (by omega), ?_⟩
    rw [Option.map_eq_none_iff, List.find?_eq_none]
    constructor
    · intro hall e he heq
      obtain ⟨i, hi, rfl⟩ := List.mem_iff_getElem.1 he
      have hi' : i < binders.length := by omega
      have hm : (ids[i], binders[i]) ∈ ids.zip (binders.drop 0) := by
        rw [List.drop_zero, List.mem_iff_getElem]
        exact ⟨i, by simp; omega, by simp⟩
      exact hall _ hm (by simpa using heq)
    · intro hall p hp he
      exact hall p.1 (List.of_mem_zip hp).1 (by simpa using he)
  · rintro pre post e b pre' post' rfl rfl hpl hpre rfl
    rw [hasIdentity, hasIdentityFrom_eq _ _ _ 0 (by omega), List.drop_zero, List.zip_append hpl, List.find?_append,
      List.find?_eq_none.2 (fun p hp => by simpa using hpre p.1 (List.of_mem_zip hp).1)]
    simp

/-- An extension made by hand with fewer binders than identities crashes. -/
theorem C93_unequal_fails : ∃ (ids : List PskIdentity) (binders : List BinderEntry) (id : Bytes),
    hasIdentity ids binders id = .panic :=
  ⟨[([1], 0, ())], [], [1], by decide⟩

/-- An extension with two identities is written, parsed, and has the second. -/
example : ∃ bs, (ExtBody.preSharedKey 1 [([1], 0, ()), ([2, 3], 5, ())]
      [(List.replicate 32 7, ()), (List.replicate 32 8, ())] 0).marshal = .ok bs ∧
    hasIdentity [([1], 0, ()), ([2, 3], 5, ())] [(List.replicate 32 7, ()), (List.replicate 32 8, ())] [2, 3] =
      .ok (some (List.replicate 32 8)) := by
  have h : (match (ExtBody.preSharedKey 1 [([1], 0, ()), ([2, 3], 5, ())]
      [(List.replicate 32 7, ()), (List.replicate 32 8, ())] 0).marshal with | .ok _ => true | _ => false) = true := by
    decide +kernel
  split at h
  · rename_i bs hbs
    exact ⟨bs, hbs, by decide +kernel⟩
  · cases h

end Verif.Props
