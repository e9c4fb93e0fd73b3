import Verif.Machine.ClientLemmas
import Verif.Props.Extensions
import Verif.Spec.Handshake

/-
What the machines find in a list of extensions, in terms of the list.
-/

namespace Verif.Machine

open Verif Verif.Crypto Verif.Messages Verif.Negotiation Verif.Handshake Verif.Spec

theorem nodup_map_inj {α β : Type} {f : α → β} {l : List α} (h : (l.map f).Nodup) {a b : α} (ha : a ∈ l) (hb : b ∈ l)
    (hab : f a = f b) : a = b := by
  induction l with
  | nil => cases ha
  | cons c l ih =>
    simp only [List.map_cons, List.nodup_cons, List.mem_map, not_exists, not_and] at h
    rcases List.mem_cons.1 ha with ha | ha <;> rcases List.mem_cons.1 hb with hb | hb
    · rw [ha, hb]
    · exact absurd (by rw [← hab, ha]) (h.1 b hb)
    · exact absurd (by rw [hab, hb]) (h.1 a ha)
    · exact ih h.2 ha hb

/-- What a search among the parsed extensions finds, if it accepts one kind only. -/
theorem parsed_findSome {α : Type} {el : List Ext} {ks : List ExtKind} {found : List ExtBody} {k : ExtKind}
    (f : ExtBody → Option α) (hn : (ks.map ExtKind.type).Nodup) (h : parseExts el ks = .ok found) (hk : k ∈ ks)
    (hf : ∀ b, (f b).isSome → b.kind.type = k.type) :
    (dataOf k.type el = [] ∧ found.findSome? f = none) ∨
    (∃ d b, dataOf k.type el = [d] ∧ safeUnmarshal k.unmarshal d = .ok b ∧ b.kind = k ∧ found.findSome? f = f b) := by
  obtain ⟨h1, h2, h3⟩ := C30_parse_exact el ks found hn h
  have hkind : ∀ b ∈ found, ∃ k' ∈ ks, b.kind = k' ∧ ∃ d, dataOf k'.type el = [d] ∧ safeUnmarshal k'.unmarshal d = .ok b := by
    intro b hb
    obtain ⟨k', hk', d, hd, hu⟩ := (h2 b).1 hb
    exact ⟨k', hk', ExtKind.unmarshal_kind (safeUnmarshal_ok.1 hu), d, hd, hu⟩
  have hinj : ∀ k' ∈ ks, k'.type = k.type → k' = k := by
    intro k' hk' ht
    exact nodup_map_inj hn hk' hk ht
  cases hd : dataOf k.type el with
  | nil =>
    refine Or.inl ⟨rfl, ?_⟩
    rw [List.findSome?_eq_none_iff]
    intro b hb
    cases hfb : f b with
    | none => rfl
    | some v =>
      obtain ⟨k', hk', rfl, d, hd', _⟩ := hkind b hb
      rw [hf b (by simp [hfb]), hd] at hd'
      cases hd'
  | cons d ds =>
    have hds : ds = [] := by
      have := h1 k hk
      rw [hd] at this
      exact List.length_eq_zero_iff.1 (by simpa using this)
    subst hds
    have hmem : k.type ∈ types el := by
      have : d ∈ dataOf k.type el := by rw [hd]; simp
      simp only [dataOf, List.mem_map, List.mem_filter] at this
      obtain ⟨e, ⟨he, ht⟩, _⟩ := this
      exact List.mem_map.2 ⟨e, he, by simpa using ht⟩
    obtain ⟨b, hb, hbk⟩ := (h3 k hk).1 hmem
    obtain ⟨k', hk', hk2, d', hd', hu⟩ := hkind b hb
    rw [hbk] at hk2
    subst hk2
    rw [hd] at hd'
    cases hd'
    refine Or.inr ⟨d, b, rfl, hu, hbk, ?_⟩
    cases hff : found.findSome? f with
    | none =>
      rw [List.findSome?_eq_none_iff] at hff
      exact (hff b hb).symm
    | some v =>
      obtain ⟨b', hb', hv⟩ := List.exists_of_findSome?_eq_some hff
      obtain ⟨k', hk', hk2, d', hd', hu'⟩ := hkind b' hb'
      have := hinj k' hk' (by rw [← hk2]; exact hf b' (by simp [hv]))
      subst this
      rw [hd] at hd'
      cases hd'
      rw [hu] at hu'
      cases hu'
      exact hv.symm

theorem marshal_u16 (v : UInt16) : Syntax.marshal u16Ty (v, ()) = .ok (beBytes 2 v.toNat) := by
  have : u16Ty.tagsOk = true := by decide
  simp only [Syntax.marshal, this, if_true]
  simp [u16Ty, Syntax.Ty.encode, Syntax.Fields.encode, Syntax.Width.bytes, Syntax.Width.getNat]

theorem u16_data {d : Bytes} {v : UInt16} (h : Syntax.unmarshal u16Ty d = .ok ((v, ()), d.length)) : d = beBytes 2 v.toNat := by
  have := (Syntax.plain_canonical plain_u16 h).1
  rw [marshal_u16] at this
  simpa using this.symm

theorem beBytes_zero_iff (v : UInt16) : beBytes 2 v.toNat = [0, 0] ↔ v = 0 := by
  constructor
  · intro h
    have := congrArg beNat h
    rw [beNat_beBytes_of_lt (by simpa using v.toNat_lt)] at this
    exact UInt16.toNat_inj.1 (by simpa [beNat] using this)
  · rintro rfl; decide

/-- Whether a PSK is selected, from the list of extensions. -/
theorem pskSelected_eq {el : List Ext} {found : List ExtBody}
    (h : parseExts el [.preSharedKey typeServerHello, .keyShare typeServerHello] = .ok found) :
    pskSelected found = selectsFirstPsk el := by
  have hany : selectsFirstPsk el = (dataOf 41 el).any (· == [0, 0]) := by
    simp [selectsFirstPsk, dataOf, List.any_map, List.any_filter, Function.comp_def]
  rw [hany]
  rcases parsed_findSome (k := .preSharedKey typeServerHello)
    asPsk (by decide) h (by simp) (by
      intro b hb; cases b <;> simp [asPsk] at hb ⊢ <;> rfl) with ⟨h1, h2⟩ | ⟨d, b, h1, h2, h3, h4⟩
  · rw [show (41 : UInt16) = (ExtKind.preSharedKey typeServerHello).type from rfl, h1]
    simp only [pskSelected, findPsk, h2]
    rfl
  · rw [show (41 : UInt16) = (ExtKind.preSharedKey typeServerHello).type from rfl, h1]
    rw [safeUnmarshal_ok] at h2
    simp only [ExtKind.unmarshal, show ¬ typeServerHello = typeClientHello by decide, if_false, if_true, Res.bind_eq_ok,
      Res.ok.injEq, Prod.mk.injEq] at h2
    obtain ⟨⟨⟨v, _⟩, n⟩, h5, rfl, rfl⟩ := h2
    have hd := u16_data h5
    simp only [pskSelected, findPsk, h4, asPsk, List.any_cons, List.any_nil, Bool.or_false]
    rw [Bool.eq_iff_iff, beq_iff_eq, beq_iff_eq, hd, beBytes_zero_iff]

/-- The emptiness of a list of certificates does not depend on which certificates parse. -/
theorem certificate_letter {parses : Bytes → Bool} {m : Msg} {c : CertificateMsg} (ht : m.msgType = typeCertificate)
    (h : safeUnmarshal (CertificateMsg.unmarshal parses) m.body = .ok c) : letterOf m = .certificate c.list.isEmpty := by
  rw [safeUnmarshal_ok] at h
  have : CertificateMsg.unmarshal (fun _ => true) m.body = .ok (c, m.body.length) := by
    simp only [CertificateMsg.unmarshal, Res.bind_eq_ok] at h ⊢
    obtain ⟨⟨⟨a, b, u⟩, n⟩, h1, h2⟩ := h
    refine ⟨_, h1, ?_⟩
    dsimp only at h2 ⊢
    split at h2
    · simpa using h2
    · cases h2
  simp [letterOf, show m.msgType = 11 from ht, this]

end Verif.Machine
