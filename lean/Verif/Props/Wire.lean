import Verif.Messages.Wire
import Verif.Machine.ClientLemmas

/-
C74: messages and extensions have the wire format of RFC 8446.
-/

namespace Verif.Messages

open Verif Verif.Syntax Verif.Spec

/-! ### Key shares -/

theorem shareLength_eq {g n : Nat} : shareLength g = some n ↔ Crypto.keyExchangeSize g = n ∧ 0 < n := by
  unfold shareLength Crypto.keyExchangeSize
  constructor
  · intro h
    split at h <;> first | (cases h; simp) | cases h
  · rintro ⟨h, hn⟩
    repeat' split at h
    all_goals first | (subst h; subst_vars; rfl) | omega

theorem sizeValid_iff {s : KeyShareEntry} (h : Between 1 (2 ^ 16 - 1) s.2.1) :
    sizeValid s = true ↔ shareLength s.1.toNat ≠ none ∧ ShareFits s := by
  unfold sizeValid ShareFits
  rw [beq_iff_eq]
  constructor
  · intro e
    have := (shareLength_eq (g := s.1.toNat) (n := s.2.1.length)).2 ⟨e.symm, h.1⟩
    exact ⟨by rw [this]; simp, h, fun n hn => by rw [this] at hn; simpa using hn⟩
  · rintro ⟨h1, -, h2⟩
    obtain ⟨n, hn⟩ := Option.ne_none_iff_exists'.1 h1
    rw [h2 n hn, (shareLength_eq.1 hn).1]

theorem shares_valid {l : List KeyShareEntry} (h : ∀ s ∈ l, Between 1 (2 ^ 16 - 1) s.2.1) :
    l.all sizeValid = true ↔ (∀ s ∈ l, shareLength s.1.toNat ≠ none) ∧ ∀ s ∈ l, ShareFits s := by
  rw [List.all_eq_true, ← forall₂_and]
  exact forall₂_congr fun s hs => sizeValid_iff (h s hs)

/-! ### What is written -/

/-- **C74.** The data of an extension that is marshalled is that of RFC 8446, and keeps its limits. (A list of binders that does
not match the identities is marshalled as it is; nothing in the library makes one.) -/
theorem C74_extension_written {b : ExtBody} {bs : Bytes} (hb : BindersMatch b) (h : b.marshal = .ok bs) :
    bs = extensionData (extensionContents b) ∧ ExtensionFits (extensionContents b) ∧ GroupsKnown b := by
  cases b with
  | serverName name =>
    rw [ExtBody.marshal, marshal_iff (by decide) (by decide), serverNameList_iff, serverNameList_wire] at h
    exact ⟨h.2, h.1, trivial⟩
  | keyShare hs group shares =>
    simp only [ExtBody.marshal] at h
    simp only [extensionContents, extensionData, ExtensionFits, GroupsKnown]
    split at h
    · rename_i c
      obtain rfl : hs = 1 := c
      split at h
      · rename_i hv
        rw [marshal_iff (by decide) (by decide), clientShares_iff, clientShares_wire] at h
        have := (shares_valid h.1.1).1 hv
        simp only [show ¬ (1 : UInt8) = 6 by decide, if_true, if_false]
        exact ⟨h.2, .inl ⟨trivial, trivial, this.2, h.1.2⟩, this.1⟩
      · cases h
    · rename_i c
      split at h
      · rename_i c2
        obtain rfl : hs = 6 := c2
        split at h
        · cases h
        · rename_i hl
          obtain rfl : shares = [] := by cases shares with | nil => rfl | cons => simp at hl
          rw [marshal_iff (by decide) (by decide), u16Ty_iff, u16Ty_wire] at h
          simp only [show ¬ (6 : UInt8) = 1 by decide, if_true, if_false]
          exact ⟨h.2, .inr (.inl ⟨trivial, trivial⟩), by simp⟩
      · rename_i c2
        split at h
        · rename_i c3
          obtain rfl : hs = 2 := c3
          split at h
          · rename_i s
            split at h
            · rename_i hv
              rw [marshal_iff (by decide) (by decide), serverShare_iff, serverShare_wire] at h
              have := (sizeValid_iff h.1).1 hv
              simp only [show ¬ (2 : UInt8) = 1 by decide, show ¬ (2 : UInt8) = 6 by decide, if_false]
              exact ⟨by simpa using h.2, .inr (.inr ⟨trivial, trivial, s, rfl, this.2⟩), by simpa using this.1⟩
            · cases h
          · cases h
        · cases h
  | supportedGroups l =>
    rw [ExtBody.marshal, marshal_iff (by decide) (by decide), u16List_iff, u16List_wire] at h
    exact ⟨h.2, h.1, trivial⟩
  | signatureAlgorithms l =>
    rw [ExtBody.marshal, marshal_iff (by decide) (by decide), u16List_iff, u16List_wire] at h
    exact ⟨h.2, be16s_even.1 h.1, trivial⟩
  | preSharedKey hs ids binders selected =>
    simp only [ExtBody.marshal] at h
    simp only [extensionContents, extensionData, ExtensionFits, GroupsKnown]
    split at h
    · rename_i c
      obtain rfl : hs = 1 := c
      rw [marshal_iff (by decide) (by decide), pskClient_iff, pskClient_wire] at h
      simp only [if_true]
      exact ⟨h.2, .inl ⟨trivial, trivial, hb, h.1.1.1, h.1.2.1, h.1.1.2, h.1.2.2⟩, trivial⟩
    · rename_i c
      split at h
      · rename_i c2
        obtain rfl : hs = 2 := c2
        split at h
        · cases h
        · rename_i hl
          have hi : ids = [] := by cases ids with | nil => rfl | cons => simp at hl
          have hb' : binders = [] := by cases binders with | nil => rfl | cons => simp at hl
          subst hi hb'
          rw [marshal_iff (by decide) (by decide), u16Ty_iff, u16Ty_wire] at h
          simp only [show ¬ (2 : UInt8) = 1 by decide, if_false]
          exact ⟨h.2, .inr ⟨trivial, trivial, trivial⟩, trivial⟩
      · cases h
  | pskModes l =>
    rw [ExtBody.marshal, marshal_iff (by decide) (by decide), pskModes_iff, pskModes_wire] at h
    exact ⟨h.2, h.1, trivial⟩
  | earlyData =>
    simp only [ExtBody.marshal, Res.ok.injEq] at h
    exact ⟨h.symm, trivial, trivial⟩
  | ticketEarlyDataInfo n =>
    rw [ExtBody.marshal, marshal_iff (by decide) (by decide), u32Ty_iff, u32Ty_wire] at h
    exact ⟨h.2, trivial, trivial⟩
  | alpn l =>
    rw [ExtBody.marshal, marshal_iff (by decide) (by decide), alpn_iff, alpn_wire] at h
    simp only [List.map_map, show Prod.fst ∘ (fun p : Bytes => (p, ())) = id from rfl, List.map_id_fun, id_eq] at h
    exact ⟨h.2, h.1, trivial⟩
  | supportedVersions hs l =>
    simp only [ExtBody.marshal] at h
    simp only [extensionContents, extensionData, ExtensionFits, GroupsKnown]
    split at h
    · rename_i c
      obtain rfl : hs = 1 := c
      rw [marshal_iff (by decide) (by decide), versions_iff, versions_wire] at h
      simp only [if_true]
      exact ⟨h.2, .inl ⟨trivial, h.1⟩, trivial⟩
    · rename_i c
      simp only [show ¬ hs = 1 from c, if_false]
      split at h
      · rename_i c2
        split at h
        · cases h
        · rename_i v l
          rw [marshal_iff (by decide) (by decide), u16Ty_iff, u16Ty_wire] at h
          exact ⟨by simpa using h.2, .inr ⟨c2, by simp⟩, trivial⟩
      · cases h
  | cookie d =>
    rw [ExtBody.marshal, marshal_iff (by decide) (by decide), cookie_iff, cookie_wire] at h
    exact ⟨h.2, h.1, trivial⟩

/-! ### What is read -/

theorem unmarshal_whole {α β : Type} {t : Ty α} (ht : t.plain = true) (hg : t.tagsOk = true) {v : α} {bs : Bytes}
    (hf : t.fits {} v) (hw : bs = t.wire {} v) (f : α × Nat → Res β) :
    (Syntax.unmarshal t bs).bind f = f (v, bs.length) := by
  rw [(unmarshal_iff ht hg).2 ⟨hf, hw⟩, Res.bind_ok]

/-- **C74.** Every extension that RFC 8446 allows is written and read, if the groups of its key shares are among those of RFC 8446.
Missing: key shares of other groups. -/
theorem C74_extension_accepted_partial {b : ExtBody} (h : ExtensionFits b) (hg : GroupsKnown b) :
    b.marshal = .ok (extensionData b) ∧ safeUnmarshal b.kind.unmarshal (extensionData b) = .ok b := by
  rw [safeUnmarshal_ok]
  cases b with
  | serverName name =>
    have hf := (serverNameList_iff (name := name)).2 h
    refine ⟨(marshal_iff (by decide) (by decide)).2 ⟨hf, serverNameList_wire.symm⟩, ?_⟩
    simp only [ExtBody.kind, ExtKind.unmarshal]
    rw [unmarshal_whole (by decide) (by decide) hf serverNameList_wire.symm]
    simp
  | keyShare hs group shares =>
    simp only [ExtBody.kind, ExtBody.marshal, ExtKind.unmarshal]
    rcases h with ⟨rfl, rfl, h1, h2⟩ | ⟨rfl, rfl⟩ | ⟨rfl, rfl, s, rfl, h1⟩
    · have hf := (clientShares_iff (l := shares)).2 ⟨fun s hs => (h1 s hs).1, h2⟩
      have hv := (shares_valid fun s hs => (h1 s hs).1).2 ⟨hg, h1⟩
      have hw : extensionData (.keyShare 1 0 shares) = keyShareClientTy.wire {} (shares, ()) := by
        rw [clientShares_wire]; simp [extensionData]
      rw [if_pos (show (1 : UInt8) = typeClientHello from rfl), if_pos hv, if_pos (show (1 : UInt8) = typeClientHello from rfl), marshal_iff (by decide) (by decide)]
      refine ⟨⟨hf, hw⟩, ?_⟩
      rw [unmarshal_whole (by decide) (by decide) hf hw]
      simp only [hv, if_true]
    · have hw : extensionData (.keyShare 6 group []) = u16Ty.wire {} (group, ()) := by
        rw [u16Ty_wire]; simp [extensionData]
      simp only [show ¬ (6 : UInt8) = typeClientHello by decide, eq_true (show (6 : UInt8) = typeHelloRetryRequest from rfl), if_true, if_false]
      refine ⟨?_, ?_⟩
      · simp only [List.length_nil, gt_iff_lt, Nat.lt_irrefl, if_false]
        rw [marshal_iff (by decide) (by decide)]
        exact ⟨u16Ty_iff.2 trivial, hw⟩
      · rw [unmarshal_whole (by decide) (by decide) (u16Ty_iff.2 trivial) hw]
    · have hf := (serverShare_iff (s := s)).2 h1.1
      have hv := (sizeValid_iff h1.1).2 ⟨hg s (by simp), h1⟩
      have hw : extensionData (.keyShare 2 0 [s]) = keyShareServerTy.wire {} (s, ()) := by
        rw [serverShare_wire]; simp [extensionData]
      simp only [show ¬ (2 : UInt8) = typeClientHello by decide, show ¬ (2 : UInt8) = typeHelloRetryRequest by decide,
        eq_true (show (2 : UInt8) = typeServerHello from rfl), if_true, if_false, hv]
      refine ⟨(marshal_iff (by decide) (by decide)).2 ⟨hf, hw⟩, ?_⟩
      rw [unmarshal_whole (by decide) (by decide) hf hw]
      simp only [hv, if_true]
  | supportedGroups l =>
    have hf := (u16List_iff (l := l)).2 h
    refine ⟨(marshal_iff (by decide) (by decide)).2 ⟨hf, u16List_wire.symm⟩, ?_⟩
    exact unmarshal_whole (by decide) (by decide) hf u16List_wire.symm _
  | signatureAlgorithms l =>
    have hf := (u16List_iff (l := l)).2 (be16s_even.2 h)
    refine ⟨(marshal_iff (by decide) (by decide)).2 ⟨hf, u16List_wire.symm⟩, ?_⟩
    exact unmarshal_whole (by decide) (by decide) hf u16List_wire.symm _
  | preSharedKey hs ids binders selected =>
    simp only [ExtBody.kind, ExtBody.marshal, ExtKind.unmarshal]
    rcases h with ⟨rfl, rfl, h1, h2, h3, h4, h5⟩ | ⟨rfl, rfl, rfl⟩
    · have hf := (pskClient_iff (ids := ids) (bl := binders)).2 ⟨⟨h2, h4⟩, h3, h5⟩
      have hw : extensionData (.preSharedKey 1 ids binders 0) = pskClientTy.wire {} (ids, binders, ()) := by
        rw [pskClient_wire]; simp [extensionData]
      rw [if_pos (show (1 : UInt8) = typeClientHello from rfl), if_pos (show (1 : UInt8) = typeClientHello from rfl), marshal_iff (by decide) (by decide)]
      refine ⟨⟨hf, hw⟩, ?_⟩
      rw [unmarshal_whole (by decide) (by decide) hf hw]
      simp only [h1, ne_eq, not_true_eq_false, if_false]
    · have hw : extensionData (.preSharedKey 2 [] [] selected) = u16Ty.wire {} (selected, ()) := by
        rw [u16Ty_wire]; simp [extensionData]
      simp only [show ¬ (2 : UInt8) = typeClientHello by decide, eq_true (show (2 : UInt8) = typeServerHello from rfl), if_true, if_false]
      refine ⟨?_, ?_⟩
      · simp only [List.length_nil, gt_iff_lt, Nat.lt_irrefl, or_self, if_false]
        rw [marshal_iff (by decide) (by decide)]
        exact ⟨u16Ty_iff.2 trivial, hw⟩
      · rw [unmarshal_whole (by decide) (by decide) (u16Ty_iff.2 trivial) hw]
  | pskModes l =>
    have hf := (pskModes_iff (l := l)).2 h
    refine ⟨(marshal_iff (by decide) (by decide)).2 ⟨hf, pskModes_wire.symm⟩, ?_⟩
    exact unmarshal_whole (by decide) (by decide) hf pskModes_wire.symm _
  | earlyData => exact ⟨rfl, rfl⟩
  | ticketEarlyDataInfo n =>
    refine ⟨(marshal_iff (by decide) (by decide)).2 ⟨u32Ty_iff.2 trivial, u32Ty_wire.symm⟩, ?_⟩
    simp only [ExtBody.kind, ExtKind.unmarshal]
    rw [unmarshal_whole (by decide) (by decide) (u32Ty_iff (n := n).2 trivial) (bs := extensionData (.ticketEarlyDataInfo n)) u32Ty_wire.symm]
  | alpn l =>
    have e : (l.map fun p => (p, ())).map Prod.fst = l := by rw [List.map_map]; exact List.map_id l
    have hf := (alpn_iff (l := l.map fun p => (p, ()))).2 (by rw [e]; exact h)
    have hw : extensionData (.alpn l) = alpnTy.wire {} (l.map fun p => (p, ()), ()) := by rw [alpn_wire, e]; rfl
    refine ⟨(marshal_iff (by decide) (by decide)).2 ⟨hf, hw⟩, ?_⟩
    simp only [ExtBody.kind, ExtKind.unmarshal]
    rw [unmarshal_whole (by decide) (by decide) hf hw, e]
  | supportedVersions hs l =>
    simp only [ExtBody.kind, ExtBody.marshal, ExtKind.unmarshal]
    rcases h with ⟨rfl, h1⟩ | ⟨h1, h2⟩
    · have hf := (versions_iff (l := l)).2 h1
      have hw : extensionData (.supportedVersions 1 l) = versionsTy.wire {} (l, ()) := by
        rw [versions_wire]; simp [extensionData]
      rw [if_pos (show (1 : UInt8) = typeClientHello from rfl), if_pos (show (1 : UInt8) = typeClientHello from rfl), marshal_iff (by decide) (by decide)]
      refine ⟨⟨hf, hw⟩, ?_⟩
      rw [unmarshal_whole (by decide) (by decide) hf hw]
    · obtain ⟨v, rfl⟩ := List.length_eq_one_iff.1 h2
      have hn : ¬ hs = 1 := by rcases h1 with rfl | rfl <;> decide
      have hw : extensionData (.supportedVersions hs [v]) = u16Ty.wire {} (v, ()) := by
        rw [u16Ty_wire]; simp [extensionData, hn]
      simp only [show ¬ hs = typeClientHello from hn, show hs = typeServerHello ∨ hs = typeHelloRetryRequest from h1, if_true, if_false]
      refine ⟨(marshal_iff (by decide) (by decide)).2 ⟨u16Ty_iff.2 trivial, hw⟩, ?_⟩
      rw [unmarshal_whole (by decide) (by decide) (u16Ty_iff.2 trivial) hw]
  | cookie d =>
    have hf := (cookie_iff (d := d)).2 h
    refine ⟨(marshal_iff (by decide) (by decide)).2 ⟨hf, cookie_wire.symm⟩, ?_⟩
    exact unmarshal_whole (by decide) (by decide) hf cookie_wire.symm _

theorem unmarshal_inv {α β : Type} {t : Ty α} (ht : t.plain = true) (hg : t.tagsOk = true) {bs : Bytes} {f : α × Nat → Res (β × Nat)}
    {b : β} (hf : ∀ v n c m, f (v, n) = .ok (c, m) → m = n) (h : (Syntax.unmarshal t bs).bind f = .ok (b, bs.length)) :
    ∃ v, t.fits {} v ∧ bs = t.wire {} v ∧ f (v, bs.length) = .ok (b, bs.length) := by
  rw [Res.bind_eq_ok] at h
  obtain ⟨⟨v, n⟩, h1, h2⟩ := h
  obtain rfl := hf _ _ _ _ h2
  obtain ⟨h3, h4⟩ := (unmarshal_iff ht hg).1 h1
  exact ⟨v, h3, h4, h2⟩

/-- **C74.** What is read as the data of an extension is what RFC 8446 allows, and stands for what was read. -/
theorem C74_extension_only {k : ExtKind} {b : ExtBody} {bs : Bytes} (hk : k ≠ .serverName)
    (h : safeUnmarshal k.unmarshal bs = .ok b) : b.kind = k ∧ bs = extensionData b ∧ ExtensionFits b ∧ GroupsKnown b := by
  rw [safeUnmarshal_ok] at h
  cases k with
  | serverName => exact absurd rfl hk
  | keyShare hs =>
    simp only [ExtKind.unmarshal] at h
    split at h
    · rename_i c
      obtain rfl : hs = 1 := c
      obtain ⟨⟨l, _⟩, h1, h2, h3⟩ := unmarshal_inv (by decide) (by decide) (by
        intro v n c m h; dsimp only at h; split at h <;> simp at h; exact h.2.symm) h
      rw [clientShares_iff] at h1
      dsimp only at h3
      split at h3
      · rename_i hv
        simp only [Res.ok.injEq, Prod.mk.injEq, and_true] at h3
        subst h3
        have := (shares_valid h1.1).1 hv
        exact ⟨rfl, by rw [h2, clientShares_wire]; simp [extensionData], .inl ⟨rfl, rfl, this.2, h1.2⟩, this.1⟩
      · cases h3
    · rename_i c
      split at h
      · rename_i c2
        obtain rfl : hs = 6 := c2
        obtain ⟨⟨g, _⟩, h1, h2, h3⟩ := unmarshal_inv (by decide) (by decide) (by
          intro v n c m h; simp at h; exact h.2.symm) h
        simp only [Res.ok.injEq, Prod.mk.injEq, and_true] at h3
        subst h3
        exact ⟨rfl, by rw [h2, u16Ty_wire]; simp [extensionData], .inr (.inl ⟨rfl, rfl⟩), by simp [GroupsKnown]⟩
      · split at h
        · rename_i c3
          obtain rfl : hs = 2 := c3
          obtain ⟨⟨s, _⟩, h1, h2, h3⟩ := unmarshal_inv (by decide) (by decide) (by
            intro v n c m h; dsimp only at h; split at h <;> simp at h; exact h.2.symm) h
          rw [serverShare_iff] at h1
          dsimp only at h3
          split at h3
          · rename_i hv
            simp only [Res.ok.injEq, Prod.mk.injEq, and_true] at h3
            subst h3
            have := (sizeValid_iff h1).1 hv
            exact ⟨rfl, by rw [h2, serverShare_wire]; simp [extensionData], .inr (.inr ⟨rfl, rfl, s, rfl, this.2⟩),
              by simpa [GroupsKnown] using this.1⟩
          · cases h3
        · cases h
  | supportedGroups =>
    obtain ⟨⟨l, _⟩, h1, h2, h3⟩ := unmarshal_inv (by decide) (by decide) (by
      intro v n c m h; simp at h; exact h.2.symm) h
    simp only [Res.ok.injEq, Prod.mk.injEq, and_true] at h3
    subst h3
    exact ⟨rfl, h2.trans u16List_wire, u16List_iff.1 h1, trivial⟩
  | signatureAlgorithms =>
    obtain ⟨⟨l, _⟩, h1, h2, h3⟩ := unmarshal_inv (by decide) (by decide) (by
      intro v n c m h; simp at h; exact h.2.symm) h
    simp only [Res.ok.injEq, Prod.mk.injEq, and_true] at h3
    subst h3
    exact ⟨rfl, h2.trans u16List_wire, be16s_even.1 (u16List_iff.1 h1), trivial⟩
  | preSharedKey hs =>
    simp only [ExtKind.unmarshal] at h
    split at h
    · rename_i c
      obtain rfl : hs = 1 := c
      obtain ⟨⟨ids, bl, _⟩, h1, h2, h3⟩ := unmarshal_inv (by decide) (by decide) (by
        intro v n c m h; dsimp only at h; split at h <;> simp at h; exact h.2.symm) h
      rw [pskClient_iff] at h1
      dsimp only at h3
      split at h3
      · cases h3
      · rename_i hl
        simp only [Res.ok.injEq, Prod.mk.injEq, and_true] at h3
        subst h3
        exact ⟨rfl, by rw [h2, pskClient_wire]; simp [extensionData],
          .inl ⟨rfl, rfl, not_not.1 hl, h1.1.1, h1.2.1, h1.1.2, h1.2.2⟩, trivial⟩
    · split at h
      · rename_i c2
        obtain rfl : hs = 2 := c2
        obtain ⟨⟨g, _⟩, h1, h2, h3⟩ := unmarshal_inv (by decide) (by decide) (by
          intro v n c m h; simp at h; exact h.2.symm) h
        simp only [Res.ok.injEq, Prod.mk.injEq, and_true] at h3
        subst h3
        exact ⟨rfl, by rw [h2, u16Ty_wire]; simp [extensionData], .inr ⟨rfl, rfl, rfl⟩, trivial⟩
      · cases h
  | pskModes =>
    obtain ⟨⟨l, _⟩, h1, h2, h3⟩ := unmarshal_inv (by decide) (by decide) (by
      intro v n c m h; simp at h; exact h.2.symm) h
    simp only [Res.ok.injEq, Prod.mk.injEq, and_true] at h3
    subst h3
    exact ⟨rfl, h2.trans pskModes_wire, pskModes_iff.1 h1, trivial⟩
  | earlyData =>
    simp only [ExtKind.unmarshal, Res.ok.injEq, Prod.mk.injEq] at h
    obtain ⟨rfl, h⟩ := h
    exact ⟨rfl, List.length_eq_zero_iff.1 h.symm, trivial, trivial⟩
  | ticketEarlyDataInfo =>
    obtain ⟨⟨l, _⟩, h1, h2, h3⟩ := unmarshal_inv (by decide) (by decide) (by
      intro v n c m h; simp at h; exact h.2.symm) h
    simp only [Res.ok.injEq, Prod.mk.injEq, and_true] at h3
    subst h3
    exact ⟨rfl, h2.trans u32Ty_wire, trivial, trivial⟩
  | alpn =>
    obtain ⟨⟨l, _⟩, h1, h2, h3⟩ := unmarshal_inv (by decide) (by decide) (by
      intro v n c m h; simp only [Res.ok.injEq, Prod.mk.injEq] at h; exact h.2.symm) h
    simp only [Res.ok.injEq, Prod.mk.injEq, and_true] at h3
    subst h3
    exact ⟨rfl, h2.trans alpn_wire, alpn_iff.1 h1, trivial⟩
  | supportedVersions hs =>
    simp only [ExtKind.unmarshal] at h
    split at h
    · rename_i c
      obtain rfl : hs = 1 := c
      obtain ⟨⟨l, _⟩, h1, h2, h3⟩ := unmarshal_inv (by decide) (by decide) (by
        intro v n c m h; simp at h; exact h.2.symm) h
      simp only [Res.ok.injEq, Prod.mk.injEq, and_true] at h3
      subst h3
      exact ⟨rfl, by rw [h2, versions_wire]; simp [extensionData], .inl ⟨rfl, versions_iff.1 h1⟩, trivial⟩
    · rename_i c
      split at h
      · rename_i c2
        obtain ⟨⟨g, _⟩, h1, h2, h3⟩ := unmarshal_inv (by decide) (by decide) (by
          intro v n c m h; simp at h; exact h.2.symm) h
        simp only [Res.ok.injEq, Prod.mk.injEq, and_true] at h3
        subst h3
        exact ⟨rfl, by rw [h2, u16Ty_wire]; simp [extensionData, show ¬ hs = 1 from c], .inr ⟨c2, rfl⟩, trivial⟩
      · cases h
  | cookie =>
    obtain ⟨⟨l, _⟩, h1, h2, h3⟩ := unmarshal_inv (by decide) (by decide) (by
      intro v n c m h; simp at h; exact h.2.symm) h
    simp only [Res.ok.injEq, Prod.mk.injEq, and_true] at h3
    subst h3
    exact ⟨rfl, h2.trans cookie_wire, cookie_iff.1 h1, trivial⟩

/-- **C74.** What is read as a server name begins with it; names after the first, which a client may send, are ignored. -/
theorem C74_server_name_only {b : ExtBody} {bs : Bytes} (h : safeUnmarshal ExtKind.serverName.unmarshal bs = .ok b) :
    ∃ name rest, b = .serverName name ∧ bs = vector 2 (0 :: vector 2 name ++ rest) ∧ Between 1 (2 ^ 16 - 4) name := by
  rw [safeUnmarshal_ok] at h
  obtain ⟨⟨l, _⟩, h1, h2, h3⟩ := unmarshal_inv (by decide) (by decide) (by
    intro v n c m h
    dsimp only at h
    split at h
    · cases h
    · split at h <;> simp at h; exact h.2.symm) h
  dsimp only at h3
  split at h3
  · cases h3
  · rename_i ty name _ rest
    split at h3
    · cases h3
    · rename_i ht
      simp only [Res.ok.injEq, Prod.mk.injEq, and_true] at h3
      subst h3
      simp only [serverNameListTy, Ty.fits.eq_5, Fields.fits, and_true] at h1
      rw [slice_between { headerSize := 2, minSize := 1 } 1 2 rfl rfl rfl (by decide) (serverName_wire _)] at h1
      simp only [serverNameListTy, Ty.wire.eq_5, Fields.wire, List.append_nil] at h2
      rw [slice_wire _ (serverName_wire _)] at h2
      obtain rfl := not_not.1 ht
      refine ⟨name, (rest.map fun e => e.1 :: vector 2 e.2.1).flatten, rfl,
        by rw [h2, List.map_cons, List.flatten_cons]; rfl, ?_⟩
      have h4 : Between 1 (2 ^ 16 - 1) name :=
        (serverName_fits { headerSize := 2, minSize := 1 } (0, name, ())).1 (h1.1 (0, name, ()) (List.mem_cons_self ..))
      have h5 := h1.2
      simp only [Between, vector, List.map_cons, List.flatten_cons, List.length_cons, List.length_append, beBytes_length] at h4 h5 ⊢
      omega

/-- **C74.** A ClientHello with a key share of a group that is not in RFC 8446 is well-formed, and a server ought to ignore that
share. It is refused: no key of an unknown group has the right length. -/
theorem C74_unknown_group_fails {shares : List KeyShareEntry} {s : KeyShareEntry} (hf : ExtensionFits (.keyShare 1 0 shares))
    (hs : s ∈ shares) (hg : shareLength s.1.toNat = none) :
    (∀ bs, (ExtBody.keyShare 1 0 shares).marshal ≠ .ok bs) ∧
    ∀ b, safeUnmarshal (ExtKind.keyShare 1).unmarshal (extensionData (.keyShare 1 0 shares)) ≠ .ok b := by
  constructor
  · intro bs h
    exact (C74_extension_written (b := .keyShare 1 0 shares) trivial h).2.2 s hs hg
  · intro b h
    rcases hf with ⟨-, -, h1, h2⟩ | ⟨h, -⟩ | ⟨h, -⟩
    · have hf := (clientShares_iff (l := shares)).2 ⟨fun s hs => (h1 s hs).1, h2⟩
      have hw : extensionData (.keyShare 1 0 shares) = keyShareClientTy.wire {} (shares, ()) := by
        rw [clientShares_wire]; simp [extensionData]
      rw [safeUnmarshal_ok] at h
      simp only [ExtKind.unmarshal] at h
      rw [if_pos (show (1 : UInt8) = typeClientHello from rfl), unmarshal_whole (by decide) (by decide) hf hw] at h
      dsimp only at h
      split at h
      · rename_i hv
        exact ((shares_valid fun s hs => (h1 s hs).1).1 hv).1 s hs hg
      · cases h
    · exact absurd h (by decide)
    · exact absurd h (by decide)

/-- A client that offers x25519 and X448. -/
example : ∃ shares s, ExtensionFits (.keyShare 1 0 shares) ∧ s ∈ shares ∧ shareLength s.1.toNat = none :=
  ⟨[(29, List.replicate 32 7, ()), (30, List.replicate 56 9, ())], (30, List.replicate 56 9, ()),
    .inl ⟨rfl, rfl, by
      simp only [List.mem_cons, List.not_mem_nil, or_false, forall_eq_or_imp, forall_eq, ShareFits, Between, shareLength]
      simp, by unfold Between; decide +kernel⟩, by simp, rfl⟩

/-- **C74.** A list of extensions. -/
theorem C74_extension_list {el : List Ext} {bs : Bytes} :
    (marshalExts el = .ok bs ↔ ExtensionsFit el ∧ bs = extensions el) ∧
    (unmarshalExts bs = .ok (el, bs.length) ↔ ExtensionsFit el ∧ bs = extensions el) := by
  constructor
  · rw [marshalExts, marshal_iff (by decide) (by decide), extList_iff, extList_wire]
  · rw [unmarshalExts]
    constructor
    · intro h
      obtain ⟨⟨l, _⟩, h1, h2, h3⟩ := unmarshal_inv (by decide) (by decide) (by
        intro v n c m h; simp at h; exact h.2.symm) h
      simp only [Res.ok.injEq, Prod.mk.injEq, and_true] at h3
      subst h3
      exact ⟨extList_iff.1 h1, h2.trans extList_wire⟩
    · rintro ⟨h1, h2⟩
      rw [unmarshal_whole (by decide) (by decide) (extList_iff.2 h1) (h2.trans extList_wire.symm)]

/-! ### Numbers -/

/-- **C74.** The numbers of extensions are those of RFC 8446. Missing: what a ticket says about early data. -/
theorem C74_extension_numbers_partial {b : ExtBody} (hb : ∀ n, b ≠ .ticketEarlyDataInfo n) :
    b.kind.type.toNat = extensionNumber b := by
  cases b <;> first | rfl | exact absurd rfl (hb _)

/-- **C74.** That has a number of its own, which RFC 8446 does not know (there it is an early_data extension): another
implementation does not see that a ticket allows early data. -/
theorem C74_ticket_early_data_fails (n : UInt32) : (ExtBody.ticketEarlyDataInfo n).kind.type.toNat = 46 ∧
    extensionNumber (.ticketEarlyDataInfo n) = 42 := ⟨rfl, rfl⟩

/-- **C74.** The numbers of messages are those of RFC 8446. -/
theorem C74_message_numbers (b : Body) : b.type.toNat = messageNumber b := by cases b <;> rfl

/-! ### Messages -/

/-- **C74.** The body of a message that is marshalled is that of RFC 8446, and keeps its limits. -/
theorem C74_message_written {b : Body} {d : Bool} {bs : Bytes} (hv : VersionFits d b) (h : b.marshal = .ok bs) :
    bs = messageBody (messageContents b) ∧ MessageFits (messageContents b) := by
  cases b with
  | clientHello ch =>
    simp only [Body.marshal, ClientHello.marshal] at h
    simp only [VersionFits, helloVersion] at hv
    simp only [messageContents, messageBody, MessageFits]
    cases d with
    | false =>
      simp only [Bool.false_eq_true, if_false] at hv
      rw [if_pos (by rw [hv]; rfl), marshal_iff (by decide) (by decide), chTls_iff, chTls_wire, be16s_even] at h
      rw [if_neg (by rw [hv]; decide)]
      exact ⟨by simpa using h.2, .inl hv, by simp [Between], h.1.2.1, h.1.2.2.2⟩
    | true =>
      simp only [if_true] at hv
      rw [if_neg (by rw [hv]; decide), marshal_iff (by decide) (by decide), chDtls_iff, chDtls_wire, be16s_even] at h
      rw [if_pos hv]
      exact ⟨h.2, .inr hv, by simp [Between], h.1.2.1, h.1.2.2.2⟩
  | serverHello sh =>
    rw [Body.marshal, ServerHello.marshal, marshal_iff (by decide) (by decide), sh_iff, sh_wire] at h
    exact ⟨h.2, h.1⟩
  | encryptedExtensions el =>
    rw [Body.marshal, marshal_iff (by decide) (by decide), ee_iff, ee_wire] at h
    exact ⟨h.2, h.1⟩
  | certificate c =>
    rw [Body.marshal, CertificateMsg.marshal, marshal_iff (by decide) (by decide), cert_iff, cert_wire] at h
    exact ⟨h.2, h.1⟩
  | certificateRequest c =>
    rw [Body.marshal, CertRequest.marshal, marshal_iff (by decide) (by decide), certRequest_iff, certRequest_wire] at h
    exact ⟨h.2, h.1⟩
  | certificateVerify c =>
    rw [Body.marshal, CertVerify.marshal, marshal_iff (by decide) (by decide), certVerify_iff, certVerify_wire] at h
    exact ⟨h.2, h.1⟩
  | finished f =>
    simp only [Body.marshal, Finished.marshal] at h
    split at h
    · cases h
    · rename_i hl
      rw [Res.ok.injEq] at h
      exact ⟨h.symm, (not_not.1 hl).symm⟩
  | newSessionTicket t =>
    rw [Body.marshal, Ticket.marshal, marshal_iff (by decide) (by decide), ticket_iff, ticket_wire] at h
    exact ⟨h.2, h.1⟩
  | keyUpdate r =>
    rw [Body.marshal, marshal_iff (by decide) (by decide), keyUpdate_iff, keyUpdate_wire] at h
    exact ⟨h.2, h.1⟩
  | endOfEarlyData =>
    rw [Body.marshal, Res.ok.injEq] at h
    exact ⟨h.symm, trivial⟩

/-- **C74.** Every message that RFC 8446 allows can be written, except that a session identifier is left out. -/
theorem C74_message_writable {b : Body} (h : MessageFits b) (hc : messageContents b = b) : b.marshal = .ok (messageBody b) := by
  cases b with
  | clientHello ch =>
    obtain ⟨hv, h1, h2, h3⟩ := h
    simp only [messageContents, Body.clientHello.injEq] at hc
    have hs : ch.sessionId = [] := by rw [← hc]
    simp only [Body.marshal, ClientHello.marshal, messageBody, hs]
    have h0 : Between 0 32 ([] : Bytes) := by simp [Between]
    have h4 : Between 1 255 ([0] : Bytes) := by simp [Between]
    rcases hv with hv | hv
    · rw [if_pos (by rw [hv]; rfl), if_neg (by rw [hv]; decide), marshal_iff (by decide) (by decide), chTls_iff, chTls_wire, be16s_even]
      exact ⟨⟨h0, h2, h4, h3⟩, by simp⟩
    · rw [if_neg (by rw [hv]; decide), if_pos hv, marshal_iff (by decide) (by decide), chDtls_iff, chDtls_wire, be16s_even]
      exact ⟨⟨h0, h2, h4, h3⟩, rfl⟩
  | serverHello sh => exact (marshal_iff (by decide) (by decide)).2 ⟨sh_iff.2 h, sh_wire.symm⟩
  | encryptedExtensions el => exact (marshal_iff (by decide) (by decide)).2 ⟨ee_iff.2 h, ee_wire.symm⟩
  | certificate c => exact (marshal_iff (by decide) (by decide)).2 ⟨cert_iff.2 h, cert_wire.symm⟩
  | certificateRequest c => exact (marshal_iff (by decide) (by decide)).2 ⟨certRequest_iff.2 h, certRequest_wire.symm⟩
  | certificateVerify c => exact (marshal_iff (by decide) (by decide)).2 ⟨certVerify_iff.2 h, certVerify_wire.symm⟩
  | finished f => simp only [Body.marshal, Finished.marshal]; rw [if_neg (not_not.2 (Eq.symm h))]; rfl
  | newSessionTicket t => exact (marshal_iff (by decide) (by decide)).2 ⟨ticket_iff.2 h, ticket_wire.symm⟩
  | keyUpdate r => exact (marshal_iff (by decide) (by decide)).2 ⟨keyUpdate_iff.2 h, keyUpdate_wire.symm⟩
  | endOfEarlyData => rfl

/-- The reader of the messages of a type, for a stream or for datagrams: a ClientHello is read by the server, which says which it
is; the others are read in the same way on both. -/
def readBody (d : Bool) (parses : Bytes → Bool) (ty : UInt8) (bs : Bytes) : Res Body :=
  if ty = typeClientHello then
    (safeUnmarshal (ClientHello.unmarshal (if d then dtls12WireVersion else tls12Version)) bs).bind fun b => .ok (.clientHello b)
  else toBody parses ty bs

/-- **C74.** Every message that RFC 8446 allows is read. -/
theorem C74_message_accepted {b : Body} {d : Bool} {parses : Bytes → Bool} (h : MessageFits b) (hv : VersionFits d b)
    (hc : CertificatesParse parses b) : readBody d parses b.type (messageBody b) = .ok b := by
  cases b with
  | clientHello ch =>
    obtain ⟨-, h1, h2, h3⟩ := h
    simp only [VersionFits, helloVersion] at hv
    have h4 : Between 1 255 ([0] : Bytes) := by simp [Between]
    simp only [readBody, Body.type, if_true, Res.bind_eq_ok, safeUnmarshal_ok, Res.ok.injEq, Body.clientHello.injEq, exists_eq_right]
    cases d with
    | false =>
      simp only [Bool.false_eq_true, if_false] at hv
      simp only [Bool.false_eq_true, if_false, ClientHello.unmarshal]
      have hf := (chTls_iff (v := ch.version) (r := ch.random)).2 ⟨h1, be16s_even.2 h2, h4, h3⟩
      have hw : messageBody (.clientHello ch) = chTlsTy.wire {} (ch.version, ch.random, ch.sessionId, ch.suites, [0], ch.exts, ()) := by
        rw [chTls_wire]; simp [messageBody, hv]
      rw [if_pos (by decide), unmarshal_whole (by decide) (by decide) hf hw]
      simp
    | true =>
      simp only [if_true] at hv
      simp only [if_true, ClientHello.unmarshal]
      have hf := (chDtls_iff (v := ch.version) (r := ch.random) (ck := 0)).2 ⟨h1, be16s_even.2 h2, h4, h3⟩
      have hw : messageBody (.clientHello ch) =
          chDtlsTy.wire {} (ch.version, ch.random, ch.sessionId, 0, ch.suites, [0], ch.exts, ()) := by
        rw [chDtls_wire]; simp [messageBody, hv, vector, beBytes]
      rw [if_neg (by decide), unmarshal_whole (by decide) (by decide) hf hw]
      simp
  | serverHello sh =>
    simp only [readBody, Body.type, show ¬ typeServerHello = typeClientHello by decide, if_false, toBody, if_true]
    have hw := (sh_wire (v := sh.version) (r := sh.random) (sid := sh.sessionId) (cs := sh.suite) (comp := sh.compression) (el := sh.exts)).symm
    rw [Res.bind_eq_ok]
    exact ⟨sh, safeUnmarshal_ok.2 (unmarshal_whole (by decide) (by decide) (sh_iff.2 h) hw _), rfl⟩
  | encryptedExtensions el =>
    simp only [readBody, Body.type, show ¬ typeEncryptedExtensions = typeClientHello by decide,
      show ¬ typeEncryptedExtensions = typeServerHello by decide, if_false, toBody, if_true]
    rw [Res.bind_eq_ok]
    exact ⟨el, safeUnmarshal_ok.2 (unmarshal_whole (by decide) (by decide) (ee_iff.2 h) ee_wire.symm _), rfl⟩
  | certificate c =>
    simp only [readBody, Body.type, show ¬ typeCertificate = typeClientHello by decide,
      show ¬ typeCertificate = typeServerHello by decide, show ¬ typeCertificate = typeEncryptedExtensions by decide, if_false,
      toBody, if_true]
    rw [Res.bind_eq_ok]
    refine ⟨c, safeUnmarshal_ok.2 ?_, rfl⟩
    unfold CertificateMsg.unmarshal
    have hw : messageBody (.certificate c) = certTy.wire {} (c.context, c.list, ()) := cert_wire.symm
    rw [unmarshal_whole (by decide) (by decide) (cert_iff.2 h) hw]
    dsimp only
    rw [if_pos (List.all_eq_true.2 hc)]
  | certificateRequest c =>
    simp only [readBody, Body.type, show ¬ typeCertificateRequest = typeClientHello by decide,
      show ¬ typeCertificateRequest = typeServerHello by decide, show ¬ typeCertificateRequest = typeEncryptedExtensions by decide,
      show ¬ typeCertificateRequest = typeCertificate by decide, if_false, toBody, if_true]
    rw [Res.bind_eq_ok]
    have hw : messageBody (.certificateRequest c) = certRequestTy.wire {} (c.context, c.exts, ()) := certRequest_wire.symm
    exact ⟨c, safeUnmarshal_ok.2 (unmarshal_whole (by decide) (by decide) (certRequest_iff.2 h) hw _), rfl⟩
  | certificateVerify c =>
    simp only [readBody, Body.type, show ¬ typeCertificateVerify = typeClientHello by decide,
      show ¬ typeCertificateVerify = typeServerHello by decide, show ¬ typeCertificateVerify = typeEncryptedExtensions by decide,
      show ¬ typeCertificateVerify = typeCertificate by decide, show ¬ typeCertificateVerify = typeCertificateRequest by decide,
      if_false, toBody, if_true]
    rw [Res.bind_eq_ok]
    have hw : messageBody (.certificateVerify c) = certVerifyTy.wire {} (c.algorithm, c.signature, ()) := certVerify_wire.symm
    exact ⟨c, safeUnmarshal_ok.2 (unmarshal_whole (by decide) (by decide) (certVerify_iff.2 h) hw _), rfl⟩
  | finished f =>
    simp only [readBody, Body.type, show ¬ typeFinished = typeClientHello by decide,
      show ¬ typeFinished = typeServerHello by decide, show ¬ typeFinished = typeEncryptedExtensions by decide,
      show ¬ typeFinished = typeCertificate by decide, show ¬ typeFinished = typeCertificateRequest by decide,
      show ¬ typeFinished = typeCertificateVerify by decide, if_false, toBody, if_true]
    rw [Res.bind_eq_ok]
    refine ⟨f, safeUnmarshal_ok.2 ?_, rfl⟩
    obtain ⟨n, v⟩ := f
    obtain rfl : n = v.length := h
    simp [messageBody, Finished.unmarshal]
  | newSessionTicket t =>
    simp only [readBody, Body.type, show ¬ typeNewSessionTicket = typeClientHello by decide,
      show ¬ typeNewSessionTicket = typeServerHello by decide, show ¬ typeNewSessionTicket = typeEncryptedExtensions by decide,
      show ¬ typeNewSessionTicket = typeCertificate by decide, show ¬ typeNewSessionTicket = typeCertificateRequest by decide,
      show ¬ typeNewSessionTicket = typeCertificateVerify by decide, show ¬ typeNewSessionTicket = typeFinished by decide,
      if_false, toBody, if_true]
    rw [Res.bind_eq_ok]
    have hw : messageBody (.newSessionTicket t) = ticketTy.wire {} (t.lifetime, t.ageAdd, t.nonce, t.ticket, t.exts, ()) :=
      ticket_wire.symm
    exact ⟨t, safeUnmarshal_ok.2 (unmarshal_whole (by decide) (by decide) (ticket_iff.2 h) hw _), rfl⟩
  | keyUpdate r =>
    simp only [readBody, Body.type, show ¬ typeKeyUpdate = typeClientHello by decide,
      show ¬ typeKeyUpdate = typeServerHello by decide, show ¬ typeKeyUpdate = typeEncryptedExtensions by decide,
      show ¬ typeKeyUpdate = typeCertificate by decide, show ¬ typeKeyUpdate = typeCertificateRequest by decide,
      show ¬ typeKeyUpdate = typeCertificateVerify by decide, show ¬ typeKeyUpdate = typeFinished by decide,
      show ¬ typeKeyUpdate = typeNewSessionTicket by decide, if_false, toBody, if_true]
    rw [Res.bind_eq_ok]
    exact ⟨r, safeUnmarshal_ok.2 (unmarshal_whole (by decide) (by decide) (keyUpdate_iff.2 h) keyUpdate_wire.symm _), rfl⟩
  | endOfEarlyData => rfl

/-- **C74.** What is read as a message is what RFC 8446 allows, and stands for what was read. -/
theorem C74_message_only {ty : UInt8} {b : Body} {d : Bool} {parses : Bytes → Bool} {bs : Bytes} (hv : VersionFits d b)
    (h : readBody d parses ty bs = .ok b) :
    ty.toNat = messageNumber b ∧ bs = messageBody b ∧ MessageFits b ∧ CertificatesParse parses b := by
  simp only [readBody] at h
  split at h
  · rename_i hty
    simp only [Res.bind_eq_ok, safeUnmarshal_ok, Res.ok.injEq] at h
    obtain ⟨ch, h, rfl⟩ := h
    simp only [VersionFits, helloVersion] at hv
    refine ⟨by rw [hty]; rfl, ?_⟩
    cases d with
    | false =>
      simp only [Bool.false_eq_true, if_false] at hv h
      rw [ClientHello.unmarshal, if_pos (by decide)] at h
      obtain ⟨⟨v, r, sid, cs, comp, el, _⟩, h1, h2, h3⟩ := unmarshal_inv (by decide) (by decide) (by
        intro v n c m h; dsimp only at h; split at h <;> simp at h; exact h.2.symm) h
      dsimp only at h3
      split at h3
      · cases h3
      · rename_i hcomp
        obtain rfl := not_not.1 hcomp
        simp only [Res.ok.injEq, Prod.mk.injEq, and_true] at h3
        subst h3
        simp only at hv
        rw [chTls_iff, be16s_even] at h1
        rw [chTls_wire] at h2
        exact ⟨by simp [h2, messageBody, hv], ⟨.inl hv, h1.1, h1.2.1, h1.2.2.2⟩, trivial⟩
    | true =>
      simp only [if_true] at hv h
      rw [ClientHello.unmarshal, if_neg (by decide)] at h
      obtain ⟨⟨v, r, sid, ck, cs, comp, el, _⟩, h1, h2, h3⟩ := unmarshal_inv (by decide) (by decide) (by
        intro v n c m h
        dsimp only at h
        split at h
        · cases h
        · split at h <;> simp at h; exact h.2.symm) h
      dsimp only at h3
      split at h3
      · cases h3
      · rename_i hck
        obtain rfl := not_not.1 hck
        split at h3
        · cases h3
        · rename_i hcomp
          obtain rfl := not_not.1 hcomp
          simp only [Res.ok.injEq, Prod.mk.injEq, and_true] at h3
          subst h3
          simp only at hv
          rw [chDtls_iff, be16s_even] at h1
          rw [chDtls_wire] at h2
          exact ⟨by simp [h2, messageBody, hv, vector, beBytes], ⟨.inr hv, h1.1, h1.2.1, h1.2.2.2⟩, trivial⟩
  · rename_i hty
    simp only [toBody, hty, if_false] at h
    split at h
    · rename_i c
      simp only [Res.bind_eq_ok, safeUnmarshal_ok, Res.ok.injEq] at h
      obtain ⟨x, h, rfl⟩ := h
      obtain ⟨⟨v, r, sid, cs, comp, el, _⟩, h1, h2, h3⟩ := unmarshal_inv (by decide) (by decide) (by
        intro v n c m h; simp at h; exact h.2.symm) h
      simp only [Res.ok.injEq, Prod.mk.injEq, and_true] at h3
      subst h3
      exact ⟨by rw [c]; rfl, h2.trans sh_wire, sh_iff.1 h1, trivial⟩
    split at h
    · rename_i c
      simp only [Res.bind_eq_ok, safeUnmarshal_ok, Res.ok.injEq] at h
      obtain ⟨x, h, rfl⟩ := h
      obtain ⟨⟨el, _⟩, h1, h2, h3⟩ := unmarshal_inv (by decide) (by decide) (by
        intro v n c m h; simp at h; exact h.2.symm) h
      simp only [Res.ok.injEq, Prod.mk.injEq, and_true] at h3
      subst h3
      exact ⟨by rw [c]; rfl, h2.trans ee_wire, ee_iff.1 h1, trivial⟩
    split at h
    · rename_i c
      simp only [Res.bind_eq_ok, safeUnmarshal_ok, Res.ok.injEq] at h
      obtain ⟨x, h, rfl⟩ := h
      obtain ⟨⟨ctx, l, _⟩, h1, h2, h3⟩ := unmarshal_inv (by decide) (by decide) (by
        intro v n c m h; dsimp only at h; split at h <;> simp at h; exact h.2.symm) h
      dsimp only at h3
      split at h3
      · rename_i hp
        simp only [Res.ok.injEq, Prod.mk.injEq, and_true] at h3
        subst h3
        exact ⟨by rw [c]; rfl, h2.trans cert_wire, cert_iff.1 h1, List.all_eq_true.1 hp⟩
      · cases h3
    split at h
    · rename_i c
      simp only [Res.bind_eq_ok, safeUnmarshal_ok, Res.ok.injEq] at h
      obtain ⟨x, h, rfl⟩ := h
      obtain ⟨⟨ctx, l, _⟩, h1, h2, h3⟩ := unmarshal_inv (by decide) (by decide) (by
        intro v n c m h; simp at h; exact h.2.symm) h
      simp only [Res.ok.injEq, Prod.mk.injEq, and_true] at h3
      subst h3
      exact ⟨by rw [c]; rfl, h2.trans certRequest_wire, certRequest_iff.1 h1, trivial⟩
    split at h
    · rename_i c
      simp only [Res.bind_eq_ok, safeUnmarshal_ok, Res.ok.injEq] at h
      obtain ⟨x, h, rfl⟩ := h
      obtain ⟨⟨ctx, l, _⟩, h1, h2, h3⟩ := unmarshal_inv (by decide) (by decide) (by
        intro v n c m h; simp at h; exact h.2.symm) h
      simp only [Res.ok.injEq, Prod.mk.injEq, and_true] at h3
      subst h3
      exact ⟨by rw [c]; rfl, h2.trans certVerify_wire, certVerify_iff.1 h1, trivial⟩
    split at h
    · rename_i c
      simp only [Res.bind_eq_ok, safeUnmarshal_ok, Res.ok.injEq] at h
      obtain ⟨x, h, rfl⟩ := h
      simp only [Finished.unmarshal, Nat.lt_irrefl, if_false, Res.ok.injEq, Prod.mk.injEq, and_true, List.take_length] at h
      subst h
      exact ⟨by rw [c]; rfl, rfl, rfl, trivial⟩
    split at h
    · rename_i c
      simp only [Res.bind_eq_ok, safeUnmarshal_ok, Res.ok.injEq] at h
      obtain ⟨x, h, rfl⟩ := h
      obtain ⟨⟨l, a, n, t, el, _⟩, h1, h2, h3⟩ := unmarshal_inv (by decide) (by decide) (by
        intro v n c m h; simp at h; exact h.2.symm) h
      simp only [Res.ok.injEq, Prod.mk.injEq, and_true] at h3
      subst h3
      exact ⟨by rw [c]; rfl, h2.trans ticket_wire, ticket_iff.1 h1, trivial⟩
    split at h
    · rename_i c
      simp only [Res.bind_eq_ok, safeUnmarshal_ok, Res.ok.injEq] at h
      obtain ⟨x, h, rfl⟩ := h
      obtain ⟨⟨r, _⟩, h1, h2, h3⟩ := unmarshal_inv (by decide) (by decide) (by
        intro v n c m h; simp at h; exact h.2.symm) h
      simp only [Res.ok.injEq, Prod.mk.injEq, and_true] at h3
      subst h3
      exact ⟨by rw [c]; rfl, h2.trans keyUpdate_wire, trivial, trivial⟩
    split at h
    · rename_i c
      simp only [Res.bind_eq_ok, safeUnmarshal_ok, Res.ok.injEq, Prod.mk.injEq, true_and] at h
      obtain ⟨x, h, rfl⟩ := h
      exact ⟨by rw [c]; rfl, List.length_eq_zero_iff.1 h.symm, trivial, trivial⟩
    · cases h

/-- **C74.** With its header a message that is made for sending is that of RFC 8446 or RFC 9147, with the number of the message in
a datagram. -/
theorem C74_message_header {x x' : Machine.Ctx} {b : Body} {m : Handshake.Msg} (h : Machine.mkMsg x b = .ok (m, x'))
    (hv : VersionFits x.datagram b) (hl : m.body.length < 2 ^ 24) :
    Machine.Ctx.bytes x m = if x.datagram then datagramMessage x.outSeq (messageContents b) else message (messageContents b) := by
  obtain ⟨data, h1, rfl, -⟩ := Machine.mkMsg_ok h
  obtain ⟨h2, -⟩ := C74_message_written hv h1
  have ht : UInt8.ofNat (messageNumber (messageContents b)) = b.type := by
    rw [show messageNumber (messageContents b) = messageNumber b by cases b <;> rfl, ← C74_message_numbers, UInt8.ofNat_toNat]
  have hm : data.length % 2 ^ 32 = data.length := Nat.mod_eq_of_lt (by simp at hl; omega)
  simp only [Machine.Ctx.bytes, Handshake.Msg.marshal, hm, datagramMessage, message, ht, ← h2, vector]
  split <;> simp

/-! ### Cases -/

/-- A ClientHello with the extensions of a client that offers one group. -/
example : MessageFits (.clientHello ⟨0x0303, ⟨List.replicate 32 5, rfl⟩, [], [0x1301, 0x1302],
    [(43, [2, 3, 4], ()), (51, be16 38 ++ (keyShareEntry (29, List.replicate 32 7, ())), ())]⟩) ∧
    VersionFits false (.clientHello ⟨0x0303, ⟨List.replicate 32 5, rfl⟩, [], [0x1301, 0x1302], []⟩) := by
  refine ⟨⟨.inl rfl, ?_, ?_, ?_⟩, rfl⟩ <;> unfold_projs <;> first | (unfold Between; decide +kernel) | (unfold ExtensionsFit Between; decide +kernel)

/-- A certificate message that can be read. -/
example : ∃ b parses, MessageFits b ∧ CertificatesParse parses b ∧
    readBody false parses 11 (messageBody b) = .ok b ∧ messageBody b = [0, 0, 0, 7, 0, 0, 2, 0x30, 0, 0, 0] :=
  ⟨.certificate ⟨[], [([0x30, 0], [], ())]⟩, fun _ => true, by
    refine ⟨⟨Nat.le_refl _, by decide⟩, ?_, by decide, by decide⟩
    simp only [List.mem_singleton, forall_eq]
    exact ⟨⟨by decide, by decide⟩, by decide, by decide⟩, fun _ _ => rfl, by decide +kernel, by decide⟩

end Verif.Messages
