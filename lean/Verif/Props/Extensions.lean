import Verif.Messages.Lemmas
import Verif.Spec.Messages

/-
C30 (extension lists behave as maps), C31 and C32 for extensions.
-/

namespace Verif.Messages

open Verif Verif.Syntax Verif.Spec

/-! ### C31: extension bodies round trip -/

/-- Every extension body that marshals, and that the wire format can carry, is read back with the same contents from
exactly those bytes. -/
theorem C31_extension_roundtrip_partial (b : ExtBody) (bs : Bytes) (he : expressible b) (h : b.marshal = .ok bs) :
    safeUnmarshal b.kind.unmarshal bs = .ok (contents b) := by
  rw [safeUnmarshal_ok]
  cases b <;> simp only [ExtBody.marshal] at h <;> simp only [ExtBody.kind, ExtKind.unmarshal, contents]
  case serverName name => simp [plain_self plain_serverNameList h]
  case keyShare hs group shares =>
    split at h
    · rename_i c
      split at h
      · rename_i c2
        simp [plain_self plain_keyShareClient h, c, c2, typeClientHello, typeHelloRetryRequest]
      · simp at h
    rename_i c
    simp only [c, if_false]
    split at h
    · rename_i c2
      split at h
      · simp at h
      · have : shares = [] := by simpa using ‹¬ shares.length > 0›
        simp [plain_self plain_u16 h, c2, this]
    rename_i c2
    simp only [c2, if_false]
    split at h
    · rename_i c3
      split at h
      · split at h
        · rename_i c4
          simp [plain_self plain_keyShareServer h, c3, c4]
        · simp at h
      · simp at h
    · simp at h
  case supportedGroups => simp [plain_self plain_u16List h]
  case signatureAlgorithms => simp [plain_self plain_u16List h]
  case preSharedKey hs ids binders selected =>
    split at h
    · rename_i c
      have := he c
      simp [plain_self plain_pskClient h, c, this]
    rename_i c
    simp only [c, if_false]
    split at h
    · rename_i c2
      split at h
      · simp at h
      · rename_i c3
        simp only [not_or, Nat.not_lt, Nat.le_zero, List.length_eq_zero_iff, gt_iff_lt] at c3
        simp [plain_self plain_u16 h, c2, c3.1, c3.2]
    · simp at h
  case pskModes => simp [plain_self plain_pskModes h]
  case earlyData => simp only [Res.ok.injEq] at h; simp [← h]
  case ticketEarlyDataInfo => simp [plain_self plain_u32 h]
  case alpn protos => simp [plain_self plain_alpn h, Function.comp_def]
  case supportedVersions hs versions =>
    split at h
    · rename_i c
      simp [plain_self plain_versions h, c]
    rename_i c
    simp only [c, if_false]
    split at h
    · rename_i c2
      have h1 : versions.length = 1 := he c
      simp only [c2, if_true]
      split at h
      · simp at h
      · rename_i v vs
        have : vs = [] := by simpa using h1
        simp [plain_self plain_u16 h, this]
    · simp at h
  case cookie => simp [plain_self plain_cookie h]

/-- What is missing from C31: Marshal accepts a PSK offer with a different number of identities and binders, which
Unmarshal then refuses. -/
theorem C31_psk_count_fails :
    ∃ (b : ExtBody) (bs : Bytes), b.marshal = .ok bs ∧ ∀ b', safeUnmarshal b.kind.unmarshal bs ≠ .ok b' := by
  have hm : ∃ bs, Syntax.marshal pskClientTy ([([1], 0, ()), ([2], 0, ())], [(List.replicate 32 0, ())], ()) = .ok bs :=
    ⟨_, rfl⟩
  obtain ⟨bs, hm⟩ := hm
  refine ⟨.preSharedKey typeClientHello [([1], 0, ()), ([2], 0, ())] [(List.replicate 32 0, ())] 0, bs, ?_, ?_⟩
  · exact hm
  · intro b' h
    rw [safeUnmarshal_ok] at h
    simp [ExtBody.kind, ExtKind.unmarshal, plain_self plain_pskClient hm] at h

/-- What is missing from C31: in a ServerHello only the first version is sent. -/
theorem C31_versions_dropped_fails :
    (ExtBody.supportedVersions typeServerHello [0x0304, 0x0303]).marshal = .ok [3, 4] ∧
    (ExtBody.supportedVersions typeServerHello [0x0304]).marshal = .ok [3, 4] := by
  constructor <;> decide

example : (ExtBody.keyShare typeClientHello 0 [(29, List.replicate 32 7, ())]).marshal =
    .ok ([0, 36, 0, 29, 0, 32] ++ List.replicate 32 7) := by decide

example : (ExtBody.alpn [[104, 50], [104, 51]]).marshal = .ok [0, 6, 2, 104, 50, 2, 104, 51] := by decide

/-! ### C32: parsing extensions -/

/-- Parsing an extension body of any kind from any bytes returns. -/
theorem C32_extension_body_safe (k : ExtKind) (bs : Bytes) : (safeUnmarshal k.unmarshal bs).Safe :=
  safeUnmarshal_safe (k.unmarshal_safe bs)

/-- Extension data with bytes left over after a complete body is refused. -/
theorem C32_extension_trailing (k : ExtKind) (bs extra : Bytes) (b b' : ExtBody)
    (h : safeUnmarshal k.unmarshal bs = .ok b) (h' : safeUnmarshal k.unmarshal (bs ++ extra) = .ok b') :
    extra = [] := by
  by_cases hk : k = .earlyData
  · subst hk
    rw [safeUnmarshal_ok] at h'
    simp only [ExtKind.unmarshal, Res.ok.injEq, Prod.mk.injEq, List.length_append] at h'
    exact List.length_eq_zero_iff.1 (by omega)
  · exact safeUnmarshal_no_trailing (k.stable hk) h h'

theorem parseExt_safe (k : ExtKind) : ∀ (el : List Ext) (found : List ExtBody), (parseExt k found el).Safe
  | [], _ => trivial
  | e :: el, found => by
    rw [parseExt]
    split
    · split
      · trivial
      · exact Res.safe_bind (C32_extension_body_safe k _) fun b _ => parseExt_safe k el _
    · exact parseExt_safe k el found

theorem parseExtsFrom_safe (el : List Ext) : ∀ (ks : List ExtKind) (found : List ExtBody), (parseExtsFrom el found ks).Safe
  | [], _ => trivial
  | k :: ks, found => Res.safe_bind (parseExt_safe k el found) fun f _ => parseExtsFrom_safe el ks f

/-- Looking for any set of extensions in any list returns. -/
theorem C32_parse_safe (el : List Ext) (ks : List ExtKind) : (parseExts el ks).Safe := parseExtsFrom_safe el ks []

theorem C32_find_safe (k : ExtKind) : ∀ el : List Ext, (findExt k el).Safe
  | [] => trivial
  | e :: el => by
    rw [findExt]
    split
    · exact Res.safe_bind (C32_extension_body_safe k _) fun b _ => trivial
    · exact C32_find_safe k el

/-- Reading a list of extensions from any bytes returns. -/
theorem C32_extension_list_safe (bs : Bytes) : (unmarshalExts bs).Safe :=
  Res.safe_bind (plain_safe plain_extList bs) fun _ _ => trivial

/-- Every list of extensions that marshals is read back. -/
theorem C31_extension_list_roundtrip (el : List Ext) (bs rest : Bytes) (h : marshalExts el = .ok bs) :
    unmarshalExts (bs ++ rest) = .ok (el, bs.length) := by
  simp [unmarshalExts, plain_roundtrip plain_extList h rest]

/-! ### C30: extension lists -/

theorem dataOf_setExt_self (ty : UInt16) (data : Bytes) :
    ∀ el : List Ext, dataOf ty (setExt ty data el) = data :: (dataOf ty el).tail
  | [] => by simp [setExt, dataOf]
  | e :: el => by
    rw [setExt]
    split
    · rename_i h; simp [dataOf, h]
    · rename_i h
      have := dataOf_setExt_self ty data el
      simpa [dataOf, h] using this

theorem dataOf_setExt_ne {ty ty' : UInt16} (hne : ty' ≠ ty) (data : Bytes) :
    ∀ el : List Ext, dataOf ty' (setExt ty data el) = dataOf ty' el
  | [] => by simp [setExt, dataOf, hne.symm]
  | e :: el => by
    rw [setExt]
    split
    · rename_i h; simp [dataOf, h, hne.symm]
    · have := dataOf_setExt_ne hne data el
      simp only [dataOf] at this
      simp only [dataOf, List.filter_cons]
      split <;> simp [this]

theorem types_setExt (ty : UInt16) (data : Bytes) :
    ∀ el : List Ext, types (setExt ty data el) = if ty ∈ types el then types el else types el ++ [ty]
  | [] => by simp [setExt, types]
  | e :: el => by
    rw [setExt]
    split
    · rename_i h; simp [types, h]
    · rename_i h
      have := types_setExt ty data el
      have hc : ∀ (x : Ext) (l : List Ext), types (x :: l) = x.1 :: types l := fun _ _ => rfl
      simp only [hc, this, List.mem_cons, Ne.symm h, false_or]
      split <;> simp

theorem dataOf_head? (k : ExtKind) : ∀ el : List Ext,
    findExt k el = match dataOf k.type el with
      | [] => .ok none
      | d :: _ => (safeUnmarshal k.unmarshal d).bind fun b => .ok (some b)
  | [] => by simp [findExt, dataOf]
  | e :: el => by
    rw [findExt]
    split
    · rename_i h; simp [dataOf, h]
    · rename_i h
      have := dataOf_head? k el
      simpa [dataOf, h] using this

/-- Find returns what the first extension of the type parses to, and reports absence exactly when there is none. -/
theorem C30_find (k : ExtKind) (el : List Ext) :
    findExt k el = match dataOf k.type el with
      | [] => .ok none
      | d :: _ => (safeUnmarshal k.unmarshal d).bind fun b => .ok (some b) :=
  dataOf_head? k el

/-- After Add the extension is found with the contents added; extensions of other types, their data and their order are
unchanged; the types present are the same or gain the one added. -/
theorem C30_add (el el' : List Ext) (b : ExtBody) (h : addExt el b = .ok el') :
    (expressible b → findExt b.kind el' = .ok (some (contents b))) ∧
    (∀ ty, ty ≠ b.kind.type → dataOf ty el' = dataOf ty el) ∧
    types el' = (if b.kind.type ∈ types el then types el else types el ++ [b.kind.type]) := by
  simp only [addExt, Res.bind_eq_ok, Res.ok.injEq] at h
  obtain ⟨data, hd, rfl⟩ := h
  refine ⟨fun he => ?_, fun ty hty => dataOf_setExt_ne hty data el, types_setExt _ data el⟩
  rw [C30_find, dataOf_setExt_self]
  simp [C31_extension_roundtrip_partial b data he hd]

/-- Adding an extension twice leaves the last one. -/
theorem C30_add_replaces (el el1 el2 : List Ext) (b b' : ExtBody) (hk : b'.kind.type = b.kind.type)
    (h1 : addExt el b = .ok el1) (h2 : addExt el1 b' = .ok el2) : addExt el b' = .ok el2 := by
  simp only [addExt, Res.bind_eq_ok, Res.ok.injEq] at h1 h2 ⊢
  obtain ⟨d, hd, rfl⟩ := h1
  obtain ⟨d', hd', rfl⟩ := h2
  refine ⟨d', hd', ?_⟩
  rw [hk]
  clear hd hd' hk
  induction el with
  | nil => simp [setExt]
  | cons e el ih =>
    simp only [setExt]
    split
    · rename_i h; simp [setExt, h]
    · rename_i h; simp [setExt, h, ih]

/-- Add succeeds exactly when the body marshals, whatever is in the list; otherwise it fails as marshalling does. -/
theorem C30_add_total (el : List Ext) (b : ExtBody) :
    ((∃ el', addExt el b = .ok el') ↔ ∃ data, b.marshal = .ok data) ∧
    ∀ e, addExt el b = .err e ↔ b.marshal = .err e := by
  unfold addExt
  cases b.marshal <;> simp [Res.bind]

/-- Lists obtained from the empty list by adding. -/
inductive BuiltByAdd : List Ext → Prop where
  | nil : BuiltByAdd []
  | add {el el' : List Ext} {b : ExtBody} : BuiltByAdd el → addExt el b = .ok el' → BuiltByAdd el'

/-- Each type occurs at most once in a list built by Add. -/
theorem C30_built_unique (el : List Ext) (h : BuiltByAdd el) : (types el).Nodup := by
  induction h with
  | nil => simp [types]
  | @add el el' b _ h ih =>
    obtain ⟨-, -, h3⟩ := C30_add el el' b h
    rw [h3]
    split
    · exact ih
    · rename_i hn
      rw [List.nodup_append]
      refine ⟨ih, by simp, ?_⟩
      intro a ha c hc
      simp only [List.mem_singleton] at hc
      subst hc
      rintro rfl
      exact hn ha

theorem parseExt_spec (k : ExtKind) : ∀ (el : List Ext) (found : List ExtBody),
    parseExt k found el =
      match dataOf k.type el with
      | [] => .ok found
      | d :: ds =>
        if found.any (fun b => b.kind.type == k.type) then .err .msg
        else (safeUnmarshal k.unmarshal d).bind fun b => if ds = [] then .ok (found ++ [b]) else .err .msg
  | [], found => by simp [parseExt, dataOf]
  | e :: el, found => by
    rw [parseExt]
    split
    · rename_i h
      have hd : dataOf k.type (e :: el) = e.2.1 :: dataOf k.type el := by simp [dataOf, h]
      rw [hd]
      dsimp only
      split
      · rfl
      · cases hs : safeUnmarshal k.unmarshal e.2.1 with
        | ok b =>
          simp only [Res.bind_ok]
          rw [parseExt_spec k el]
          have hk : b.kind = k := ExtKind.unmarshal_kind (safeUnmarshal_ok.1 hs)
          cases hdd : dataOf k.type el with
          | nil => simp
          | cons d ds => simp [hk]
        | _ => simp
    · rename_i h
      have hd : dataOf k.type (e :: el) = dataOf k.type el := by simp [dataOf, h]
      rw [hd, parseExt_spec k el]

/-- What a successful search returns for one sought kind: nothing if no extension of the type is present, the parsed body
if exactly one is. -/
def oneOf (k : ExtKind) (el : List Ext) (r : List ExtBody) : Prop :=
  (dataOf k.type el = [] ∧ r = []) ∨ ∃ d b, dataOf k.type el = [d] ∧ safeUnmarshal k.unmarshal d = .ok b ∧ r = [b]

theorem parseExtsFrom_spec (el : List Ext) : ∀ (ks : List ExtKind) (found : List ExtBody) (r : List ExtBody),
    (ks.map ExtKind.type).Nodup → (∀ b ∈ found, b.kind.type ∉ ks.map ExtKind.type) →
    (parseExtsFrom el found ks = .ok r ↔ ∃ rs, List.Forall₂ (fun k x => oneOf k el x) ks rs ∧ r = found ++ rs.flatten)
  | [], found, r, _, _ => by
    simp only [parseExtsFrom, Res.ok.injEq]
    constructor
    · rintro rfl; exact ⟨[], .nil, by simp⟩
    · rintro ⟨rs, h, rfl⟩; cases h; simp
  | k :: ks, found, r, hn, hf => by
    have hany : found.any (fun b => b.kind.type == k.type) = false := by
      rw [List.any_eq_false]
      intro b hb h
      rw [beq_iff_eq] at h
      exact hf b hb (by simp [h])
    simp only [List.map_cons, List.nodup_cons] at hn
    simp only [parseExtsFrom, Res.bind_eq_ok, parseExt_spec, hany]
    have hf' : ∀ b ∈ found, b.kind.type ∉ ks.map ExtKind.type := fun b hb h => hf b hb (by simp at h ⊢; right; exact h)
    cases hd : dataOf k.type el with
    | nil =>
      dsimp only
      constructor
      · rintro ⟨f, h1, h2⟩
        simp only [Res.ok.injEq] at h1
        subst h1
        obtain ⟨rs, h3, rfl⟩ := (parseExtsFrom_spec el ks found r hn.2 hf').1 h2
        exact ⟨[] :: rs, .cons (.inl ⟨hd, rfl⟩) h3, by simp⟩
      · rintro ⟨rs, h, rfl⟩
        cases h with
        | cons h1 h2 =>
          rcases h1 with ⟨-, rfl⟩ | ⟨d, b, h1, -⟩
          · exact ⟨found, rfl, (parseExtsFrom_spec el ks found _ hn.2 hf').2 ⟨_, h2, by simp⟩⟩
          · rw [hd] at h1; simp at h1
    | cons d ds =>
      simp only [Bool.false_eq_true, if_false, Res.bind_eq_ok]
      constructor
      · rintro ⟨f, ⟨b, h1, h2⟩, h3⟩
        split at h2
        · rename_i hds
          simp only [Res.ok.injEq] at h2
          subst h2
          have hk : b.kind = k := ExtKind.unmarshal_kind (safeUnmarshal_ok.1 h1)
          obtain ⟨rs, h4, rfl⟩ := (parseExtsFrom_spec el ks (found ++ [b]) r hn.2 (by
            intro c hc
            simp only [List.mem_append, List.mem_singleton] at hc
            rcases hc with hc | rfl
            · exact hf' c hc
            · rw [hk]; exact hn.1)).1 h3
          exact ⟨[b] :: rs, .cons (.inr ⟨d, b, by rw [hd, hds], h1, rfl⟩) h4, by simp⟩
        · simp at h2
      · rintro ⟨rs, h, rfl⟩
        cases h with
        | cons h1 h2 =>
          rcases h1 with ⟨h1, -⟩ | ⟨d', b, h1, h3, rfl⟩
          · rw [hd] at h1; simp at h1
          · rw [hd] at h1
            simp only [List.cons.injEq] at h1
            obtain ⟨rfl, rfl⟩ := h1
            have hk : b.kind = k := ExtKind.unmarshal_kind (safeUnmarshal_ok.1 h3)
            refine ⟨found ++ [b], ⟨b, h3, by simp⟩, (parseExtsFrom_spec el ks (found ++ [b]) _ hn.2 (by
              intro c hc
              simp only [List.mem_append, List.mem_singleton] at hc
              rcases hc with hc | rfl
              · exact hf' c hc
              · rw [hk]; exact hn.1)).2 ⟨_, h2, by simp⟩⟩

theorem mem_flatten_oneOf {el : List Ext} : ∀ {ks : List ExtKind} {rs : List (List ExtBody)},
    List.Forall₂ (fun k x => oneOf k el x) ks rs → ∀ b, b ∈ rs.flatten ↔
      ∃ k ∈ ks, ∃ d, dataOf k.type el = [d] ∧ safeUnmarshal k.unmarshal d = .ok b
  | _, _, .nil, b => by simp
  | k :: ks, r :: rs, .cons h t, b => by
    have ih := mem_flatten_oneOf t b
    simp only [List.flatten_cons, List.mem_append, ih, List.mem_cons, exists_eq_or_imp]
    refine or_congr ?_ Iff.rfl
    rcases h with ⟨h1, rfl⟩ | ⟨d, c, h1, h2, rfl⟩
    · simp [h1]
    · simp only [List.mem_singleton, h1, List.cons.injEq, and_true, exists_eq_left', h2, Res.ok.injEq, eq_comm]

/-- Parse, asked for extensions of distinct types: it succeeds only if every sought type occurs at most once; it finds
exactly the sought extensions that are present, each with the contents its data parses to. -/
theorem C30_parse_exact (el : List Ext) (ks : List ExtKind) (found : List ExtBody)
    (hn : (ks.map ExtKind.type).Nodup) (h : parseExts el ks = .ok found) :
    (∀ k ∈ ks, (dataOf k.type el).length ≤ 1) ∧
    (∀ b, b ∈ found ↔ ∃ k ∈ ks, ∃ d, dataOf k.type el = [d] ∧ safeUnmarshal k.unmarshal d = .ok b) ∧
    (∀ k ∈ ks, k.type ∈ types el ↔ ∃ b ∈ found, b.kind = k) := by
  obtain ⟨rs, h1, h2⟩ := (parseExtsFrom_spec el ks [] found hn (by simp)).1 h
  simp only [List.nil_append] at h2
  subst h2
  have hone : ∀ k ∈ ks, ∃ x ∈ rs, oneOf k el x := by
    clear h hn
    intro k hk
    induction h1 with
    | nil => simp at hk
    | cons h t ih =>
      rcases List.mem_cons.1 hk with rfl | hk
      · exact ⟨_, List.mem_cons_self .., h⟩
      · obtain ⟨x, hx, h⟩ := ih hk
        exact ⟨x, List.mem_cons_of_mem _ hx, h⟩
  refine ⟨fun k hk => ?_, mem_flatten_oneOf h1, fun k hk => ?_⟩
  · obtain ⟨x, -, ⟨h3, -⟩ | ⟨d, b, h3, -⟩⟩ := hone k hk <;> simp [h3]
  · have htypes : k.type ∈ types el ↔ dataOf k.type el ≠ [] := by
      simp [types, dataOf, List.filter_eq_nil_iff]
    rw [htypes]
    obtain ⟨x, -, ⟨h3, -⟩ | ⟨d, b, h3, h4, -⟩⟩ := hone k hk
    · simp only [h3, ne_eq, not_true_eq_false, false_iff, not_exists, not_and]
      intro b hb hbk
      obtain ⟨k', hk', d, h5, h6⟩ := (mem_flatten_oneOf h1 b).1 hb
      have := ExtKind.unmarshal_kind (safeUnmarshal_ok.1 h6)
      rw [← this, hbk, h3] at h5
      simp at h5
    · simp only [h3, ne_eq, List.cons_ne_self, not_false_eq_true, true_iff]
      exact ⟨b, (mem_flatten_oneOf h1 b).2 ⟨k, hk, d, h3, h4⟩, ExtKind.unmarshal_kind (safeUnmarshal_ok.1 h4)⟩

/-- Parse refuses a list in which a sought type occurs twice. -/
theorem C30_parse_refuses_duplicates (el : List Ext) (ks : List ExtKind) (k : ExtKind)
    (hn : (ks.map ExtKind.type).Nodup) (hk : k ∈ ks) (hd : 2 ≤ (dataOf k.type el).length) :
    ∃ e, parseExts el ks = .err e := by
  have hs := C32_parse_safe el ks
  cases h : parseExts el ks with
  | ok found =>
    have := (C30_parse_exact el ks found hn h).1 k hk
    omega
  | err e => exact ⟨e, rfl⟩
  | panic => rw [h] at hs; exact hs.elim
  | diverge => rw [h] at hs; exact hs.elim

/-- Parse succeeds whenever every sought type occurs at most once and what occurs is well formed. -/
theorem C30_parse_accepts (el : List Ext) (ks : List ExtKind) (hn : (ks.map ExtKind.type).Nodup)
    (hu : ∀ k ∈ ks, (dataOf k.type el).length ≤ 1)
    (hp : ∀ k ∈ ks, ∀ d ∈ dataOf k.type el, ∃ b, safeUnmarshal k.unmarshal d = .ok b) :
    ∃ found, parseExts el ks = .ok found := by
  suffices h : ∃ rs, List.Forall₂ (fun k x => oneOf k el x) ks rs by
    obtain ⟨rs, h⟩ := h
    exact ⟨_, (parseExtsFrom_spec el ks [] rs.flatten hn (by simp)).2 ⟨rs, h, by simp⟩⟩
  clear hn
  induction ks with
  | nil => exact ⟨[], .nil⟩
  | cons k ks ih =>
    obtain ⟨rs, h⟩ := ih (fun k hk => hu k (List.mem_cons_of_mem _ hk)) (fun k hk => hp k (List.mem_cons_of_mem _ hk))
    have h1 := hu k (List.mem_cons_self ..)
    have h2 := hp k (List.mem_cons_self ..)
    cases hd : dataOf k.type el with
    | nil => exact ⟨[] :: rs, .cons (.inl ⟨hd, rfl⟩) h⟩
    | cons d ds =>
      rw [hd] at h1 h2
      have : ds = [] := by simpa using h1
      subst this
      obtain ⟨b, hb⟩ := h2 d (by simp)
      exact ⟨[b] :: rs, .cons (.inr ⟨d, b, hd, hb, rfl⟩) h⟩

/-- C30: adding an extension of one sort leaves what Find says about every extension of another sort unchanged: the type
numbers of different sorts (Go types) are different. -/
theorem C30_add_other_sort (el el' : List Ext) (b : ExtBody) (h : addExt el b = .ok el') (k : ExtKind)
    (hk : k.ctorIdx ≠ b.kind.ctorIdx) : findExt k el' = findExt k el := by
  have hty : k.type ≠ b.kind.type := by
    revert hk
    generalize b.kind = k'
    cases k <;> cases k' <;> simp [ExtKind.ctorIdx, ExtKind.type]
  rw [addExt, Res.bind_eq_ok] at h
  obtain ⟨data, -, h⟩ := h
  cases h
  have := dataOf_setExt_ne hty data el
  rw [dataOf_head?, dataOf_head?, this]

/-- Two extensions added to an empty list, the second then replaced, and looked up: the hypotheses of the theorems above
are met by ordinary lists. -/
example : ∃ el, BuiltByAdd el ∧ el = [(16, [0, 3, 2, 104, 50], ()), (43, [2, 3, 4], ())] :=
  ⟨_, .add (b := .supportedVersions typeClientHello [0x0304])
    (.add (b := .alpn [[104, 50]]) (el' := [(16, [0, 3, 2, 104, 50], ())]) .nil (by decide)) (by decide), rfl⟩

example : (match parseExts [(16, [0, 3, 2, 104, 50], ()), (43, [2, 3, 4], ())] [.supportedVersions typeClientHello, .cookie] with
    | .ok found => found == [.supportedVersions typeClientHello [0x0304]]
    | _ => false) = true := by decide +kernel

example : (match parseExts [(43, [2, 3, 4], ()), (43, [2, 3, 4], ())] [.supportedVersions typeClientHello] with
    | .err _ => true
    | _ => false) = true := by decide +kernel

/-- A cookie added to a list with a version. -/
example : (match addExt [(43, [2, 3, 4], ())] (.cookie [1]) with
    | .ok el => findExt (.supportedVersions typeClientHello) el == .ok (some (.supportedVersions typeClientHello [0x0304]))
    | _ => false) = true := by decide +kernel

end Verif.Messages
