import Verif.Syntax.Wire
import Verif.Messages.Fits
import Verif.Messages.Lemmas
import Verif.Spec.Wire

/-
The schemas of messages and extensions describe the wire format of RFC 8446.
-/

namespace Verif.Messages

open Verif Verif.Syntax Verif.Spec

/-! ### Parts -/

theorem u8_wire (o : Opts) (b : UInt8) : @Ty.wire UInt8 (.uint .w1) o b = [b] := by
  have : @Ty.wire UInt8 (.uint .w1) o b = beBytes 1 b.toNat := Ty.wire.eq_1 ..
  rw [this]; simp [beBytes]

theorem u16_wire (o : Opts) (n : UInt16) : @Ty.wire UInt16 (.uint .w2) o n = be16 n := Ty.wire.eq_1 ..

theorem u32_wire (o : Opts) (n : UInt32) : @Ty.wire UInt32 (.uint .w4) o n = be32 n := Ty.wire.eq_1 ..

theorem flatten_singletons (d : Bytes) : (d.map fun b => [b]).flatten = d := by
  induction d with
  | nil => rfl
  | cons b d ih => simp [ih]

theorem bytes_wire (o : Opts) (d : Bytes) : bytesTy.wire o d = vector o.headerSize.toNat d := by
  rw [bytesTy, Ty.wire]
  simp only [u8_wire, flatten_singletons, vector]

theorem bytes_fits (o : Opts) (d : Bytes) : bytesTy.fits o d ↔ ¬ (o.maxSize > 0 ∧ (d.length : Int) > o.maxSize) ∧
    o.minSize ≤ (d.length : Int) ∧ 0 < o.headerSize ∧ d.length < 256 ^ o.headerSize.toNat := by
  rw [bytesTy, slice_fits_iff]
  simp only [u8_wire, flatten_singletons, and_iff_right_iff_imp]
  intro _ b _; exact uint_fits ..

theorem u16s_wire (o : Opts) (l : List UInt16) : Ty.wire (.slice (.uint .w2)) o l = vector o.headerSize.toNat (l.map be16).flatten := by
  rw [Ty.wire]
  simp only [u16_wire, vector]

theorem u16s_fits_iff (o : Opts) (l : List UInt16) : Ty.fits (.slice (.uint .w2)) o l ↔
    ¬ (o.maxSize > 0 ∧ ((l.map be16).flatten.length : Int) > o.maxSize) ∧ o.minSize ≤ ((l.map be16).flatten.length : Int) ∧
      0 < o.headerSize ∧ (l.map be16).flatten.length < 256 ^ o.headerSize.toNat := by
  rw [slice_fits_iff]
  simp only [u16_wire, and_iff_right_iff_imp]
  intro _ b _; exact uint_fits ..

theorem be16s_length (l : List UInt16) : (l.map be16).flatten.length = 2 * l.length := by
  induction l with
  | nil => rfl
  | cons a l ih => simp only [List.map_cons, List.flatten_cons, List.length_append, ih, be16, beBytes_length, List.length_cons]; omega

theorem random_wire (o : Opts) (r : Random) : randomTy.wire o r = r.1 := by
  rw [randomTy, Ty.wire]
  simp only [u8_wire, flatten_singletons]

theorem ext_wire (o : Opts) (e : Ext) : extTy.wire o e = extension e := by
  obtain ⟨t, d, _⟩ := e
  simp only [extTy, Ty.wire.eq_5, Fields.wire, u16_wire, bytes_wire, extension, List.append_nil]
  rfl

theorem exts_wire (o : Opts) (h : o.headerSize = 2) (el : List Ext) : Ty.wire (.slice extTy) o el = extensions el := by
  rw [Ty.wire]
  simp only [ext_wire, h, extensions, vector]
  rfl

theorem extension_length (e : Ext) : (extension e).length = 4 + e.2.1.length := by
  simp only [extension, be16, vector, List.length_append, beBytes_length]; omega

theorem mem_extensions {el : List Ext} {e : Ext} (h : e ∈ el) : 4 + e.2.1.length ≤ (el.map extension).flatten.length := by
  induction el with
  | nil => cases h
  | cons a el ih =>
    simp only [List.map_cons, List.flatten_cons, List.length_append]
    rcases List.mem_cons.1 h with rfl | h
    · rw [extension_length]; omega
    · have := ih h; omega

theorem exts_fits_iff (el : List Ext) : Ty.fits (.slice extTy) { headerSize := 2 } el ↔ ExtensionsFit el := by
  rw [slice_fits_iff]
  simp only [ext_wire, ExtensionsFit, Between]
  constructor
  · rintro ⟨-, -, -, -, h⟩
    change (el.map extension).flatten.length < 65536 at h
    exact ⟨Nat.zero_le _, by omega⟩
  · rintro ⟨-, h⟩
    refine ⟨fun e he => extTy_fits ?_, by simp, by simp, by simp, ?_⟩
    · have := mem_extensions he
      omega
    · change (el.map extension).flatten.length < 65536
      omega

/-- Size limits of a vector. -/
theorem limits_iff (o : Opts) (lo k : Nat) (h0 : o.maxSize = 0) (h1 : o.minSize = lo) (h2 : o.headerSize = k) (hk : 0 < k) (n : Nat) :
    (¬ (o.maxSize > 0 ∧ (n : Int) > o.maxSize) ∧ o.minSize ≤ (n : Int) ∧ 0 < o.headerSize ∧ n < 256 ^ o.headerSize.toNat) ↔
      lo ≤ n ∧ n ≤ 256 ^ k - 1 := by
  rw [h0, h1, h2]
  have : 0 < 256 ^ k := Nat.pow_pos (by decide)
  simp only [Int.toNat_natCast]
  omega

theorem bytes_between (o : Opts) (lo k : Nat) (h0 : o.maxSize = 0) (h1 : o.minSize = lo) (h2 : o.headerSize = k) (hk : 0 < k)
    (d : Bytes) : bytesTy.fits o d ↔ Between lo (256 ^ k - 1) d :=
  (bytes_fits o d).trans (limits_iff o lo k h0 h1 h2 hk _)

theorem u16s_between (o : Opts) (lo k : Nat) (h0 : o.maxSize = 0) (h1 : o.minSize = lo) (h2 : o.headerSize = k) (hk : 0 < k)
    (l : List UInt16) : Ty.fits (.slice (.uint .w2)) o l ↔ Between lo (256 ^ k - 1) (l.map be16).flatten :=
  (u16s_fits_iff o l).trans (limits_iff o lo k h0 h1 h2 hk _)

theorem slice_between {α : Type} {t : Ty α} (o : Opts) (lo k : Nat) (h0 : o.maxSize = 0) (h1 : o.minSize = lo) (h2 : o.headerSize = k)
    (hk : 0 < k) {w : α → Bytes} (hw : ∀ a, t.wire o a = w a) (l : List α) :
    Ty.fits (.slice t) o l ↔ (∀ a ∈ l, t.fits o a) ∧ Between lo (256 ^ k - 1) (l.map w).flatten := by
  have e : (fun a => t.wire o a) = w := funext hw
  rw [slice_fits_iff, e, limits_iff o lo k h0 h1 h2 hk]
  rfl

theorem slice_wire {α : Type} {t : Ty α} (o : Opts) {w : α → Bytes} (hw : ∀ a, t.wire o a = w a) (l : List α) :
    Ty.wire (.slice t) o l = vector o.headerSize.toNat (l.map w).flatten := by
  have e : (fun a => t.wire o a) = w := funext hw
  rw [Ty.wire, e]
  rfl

/-! ### Extensions -/

theorem serverName_wire (o : Opts) (e : UInt8 × Bytes × Unit) : serverNameTy.wire o e = e.1 :: vector 2 e.2.1 := by
  obtain ⟨t, d, _⟩ := e
  simp only [serverNameTy, Ty.wire.eq_5, Fields.wire, bytes_wire, u8_wire, List.append_nil]
  rfl

theorem serverName_fits (o : Opts) (e : UInt8 × Bytes × Unit) : serverNameTy.fits o e ↔ Between 1 (2 ^ 16 - 1) e.2.1 := by
  obtain ⟨t, d, _⟩ := e
  simp only [serverNameTy, Ty.fits.eq_5, Fields.fits, and_true]
  exact ⟨fun h => (bytes_between _ 1 2 rfl rfl rfl (by decide) _).1 h.2,
    fun h => ⟨uint_fits _ _ _, (bytes_between _ 1 2 rfl rfl rfl (by decide) _).2 h⟩⟩

theorem serverNameList_iff {name : Bytes} : serverNameListTy.fits {} ([(0, name, ())], ()) ↔ Between 1 (2 ^ 16 - 4) name := by
  simp only [serverNameListTy, Ty.fits.eq_5, Fields.fits, and_true]
  rw [slice_between { headerSize := 2, minSize := 1 } 1 2 rfl rfl rfl (by decide) (serverName_wire _)]
  simp only [List.mem_singleton, forall_eq, serverName_fits, Between, vector, List.map_cons, List.map_nil, List.flatten_cons,
    List.flatten_nil, List.append_nil, List.length_cons, List.length_append, beBytes_length]
  omega

theorem serverNameList_wire {name : Bytes} : serverNameListTy.wire {} ([(0, name, ())], ()) = extensionData (.serverName name) := by
  simp only [serverNameListTy, Ty.wire.eq_5, Fields.wire, List.append_nil]
  rw [slice_wire _ (serverName_wire _)]
  simp only [List.map_cons, List.map_nil, List.flatten_cons, List.flatten_nil, List.append_nil]
  rfl

theorem share_wire (o : Opts) (s : KeyShareEntry) : keyShareEntryTy.wire o s = keyShareEntry s := by
  obtain ⟨t, d, _⟩ := s
  simp only [keyShareEntryTy, Ty.wire.eq_5, Fields.wire, bytes_wire, u16_wire, List.append_nil]
  rfl

theorem share_fits_iff (o : Opts) (s : KeyShareEntry) : keyShareEntryTy.fits o s ↔ Between 1 (2 ^ 16 - 1) s.2.1 := by
  obtain ⟨t, d, _⟩ := s
  simp only [keyShareEntryTy, Ty.fits.eq_5, Fields.fits, and_true]
  exact ⟨fun h => (bytes_between _ 1 2 rfl rfl rfl (by decide) _).1 h.2,
    fun h => ⟨uint_fits _ _ _, (bytes_between _ 1 2 rfl rfl rfl (by decide) _).2 h⟩⟩

theorem clientShares_iff {l : List KeyShareEntry} : keyShareClientTy.fits {} (l, ()) ↔
    (∀ s ∈ l, Between 1 (2 ^ 16 - 1) s.2.1) ∧ Between 0 (2 ^ 16 - 1) (l.map keyShareEntry).flatten := by
  simp only [keyShareClientTy, Ty.fits.eq_5, Fields.fits, and_true]
  rw [slice_between { headerSize := 2, minSize := 0 } 0 2 rfl rfl rfl (by decide) (share_wire _)]
  simp only [share_fits_iff]

theorem clientShares_wire {l : List KeyShareEntry} : keyShareClientTy.wire {} (l, ()) = vector 2 (l.map keyShareEntry).flatten := by
  simp only [keyShareClientTy, Ty.wire.eq_5, Fields.wire, List.append_nil]
  rw [slice_wire _ (share_wire _)]
  rfl

theorem serverShare_iff {s : KeyShareEntry} : keyShareServerTy.fits {} (s, ()) ↔ Between 1 (2 ^ 16 - 1) s.2.1 := by
  simp only [keyShareServerTy, Ty.fits.eq_5, Fields.fits, and_true]
  exact share_fits_iff _ s

theorem serverShare_wire {s : KeyShareEntry} : keyShareServerTy.wire {} (s, ()) = keyShareEntry s := by
  simp only [keyShareServerTy, Ty.wire.eq_5, Fields.wire, List.append_nil]
  exact share_wire _ s

theorem u16Ty_iff {n : UInt16} : u16Ty.fits {} (n, ()) ↔ True := by
  simp only [u16Ty, Ty.fits.eq_5, Fields.fits, and_true, iff_true]
  exact uint_fits _ _ _

theorem u16Ty_wire {n : UInt16} : u16Ty.wire {} (n, ()) = be16 n := by
  simp only [u16Ty, Ty.wire.eq_5, Fields.wire, List.append_nil]
  exact u16_wire _ _

theorem u32Ty_iff {n : UInt32} : u32Ty.fits {} (n, ()) ↔ True := by
  simp only [u32Ty, Ty.fits.eq_5, Fields.fits, and_true, iff_true]
  exact uint_fits _ _ _

theorem u32Ty_wire {n : UInt32} : u32Ty.wire {} (n, ()) = be32 n := by
  simp only [u32Ty, Ty.wire.eq_5, Fields.wire, List.append_nil]
  exact u32_wire _ _

theorem u16List_iff {l : List UInt16} : u16ListTy.fits {} (l, ()) ↔ Between 2 (2 ^ 16 - 1) (l.map be16).flatten := by
  simp only [u16ListTy, Ty.fits.eq_5, Fields.fits, and_true]
  exact u16s_between _ 2 2 rfl rfl rfl (by decide) _

theorem u16List_wire {l : List UInt16} : u16ListTy.wire {} (l, ()) = vector 2 (l.map be16).flatten := by
  simp only [u16ListTy, Ty.wire.eq_5, Fields.wire, List.append_nil]
  exact u16s_wire _ _

/-- Numbers of two bytes never fill an odd number of bytes. -/
theorem be16s_even {l : List UInt16} {lo : Nat} : Between lo (2 ^ 16 - 1) (l.map be16).flatten ↔
    Between lo (2 ^ 16 - 2) (l.map be16).flatten := by
  simp only [Between, be16s_length]; omega

theorem pskIdentity_wire (o : Opts) (i : PskIdentity) : pskIdentityTy.wire o i = pskIdentity i := by
  obtain ⟨t, d, _⟩ := i
  simp only [pskIdentityTy, Ty.wire.eq_5, Fields.wire, bytes_wire, u32_wire, List.append_nil]
  rfl

theorem pskIdentity_fits (o : Opts) (i : PskIdentity) : pskIdentityTy.fits o i ↔ Between 1 (2 ^ 16 - 1) i.1 := by
  obtain ⟨t, d, _⟩ := i
  simp only [pskIdentityTy, Ty.fits.eq_5, Fields.fits, and_true]
  exact ⟨fun h => (bytes_between _ 1 2 rfl rfl rfl (by decide) _).1 h.1,
    fun h => ⟨(bytes_between _ 1 2 rfl rfl rfl (by decide) _).2 h, uint_fits _ _ _⟩⟩

theorem binder_wire (o : Opts) (b : BinderEntry) : binderTy.wire o b = vector 1 b.1 := by
  obtain ⟨b, _⟩ := b
  simp only [binderTy, Ty.wire.eq_5, Fields.wire, bytes_wire, List.append_nil]
  rfl

theorem binder_fits (o : Opts) (b : BinderEntry) : binderTy.fits o b ↔ Between 32 255 b.1 := by
  obtain ⟨b, _⟩ := b
  simp only [binderTy, Ty.fits.eq_5, Fields.fits, and_true]
  exact bytes_between _ 32 1 rfl rfl rfl (by decide) _

theorem pskClient_iff {ids : List PskIdentity} {bl : List BinderEntry} : pskClientTy.fits {} (ids, bl, ()) ↔
    ((∀ i ∈ ids, Between 1 (2 ^ 16 - 1) i.1) ∧ Between 7 (2 ^ 16 - 1) (ids.map pskIdentity).flatten) ∧
      (∀ b ∈ bl, Between 32 255 b.1) ∧ Between 33 (2 ^ 16 - 1) (bl.map fun b => vector 1 b.1).flatten := by
  simp only [pskClientTy, Ty.fits.eq_5, Fields.fits, and_true]
  rw [slice_between { headerSize := 2, minSize := 7 } 7 2 rfl rfl rfl (by decide) (pskIdentity_wire _),
    slice_between { headerSize := 2, minSize := 33 } 33 2 rfl rfl rfl (by decide) (binder_wire _)]
  simp only [pskIdentity_fits, binder_fits]

theorem pskClient_wire {ids : List PskIdentity} {bl : List BinderEntry} : pskClientTy.wire {} (ids, bl, ()) =
    vector 2 (ids.map pskIdentity).flatten ++ vector 2 (bl.map fun b => vector 1 b.1).flatten := by
  simp only [pskClientTy, Ty.wire.eq_5, Fields.wire, List.append_nil]
  rw [slice_wire _ (pskIdentity_wire _), slice_wire _ (binder_wire _)]
  rfl

theorem pskModes_iff {l : List UInt8} : pskModesTy.fits {} (l, ()) ↔ Between 1 255 l := by
  simp only [pskModesTy, Ty.fits.eq_5, Fields.fits, and_true]
  exact bytes_between _ 1 1 rfl rfl rfl (by decide) _

theorem pskModes_wire {l : List UInt8} : pskModesTy.wire {} (l, ()) = vector 1 l := by
  simp only [pskModesTy, Ty.wire.eq_5, Fields.wire, List.append_nil]
  exact bytes_wire _ _

theorem protocolName_wire (o : Opts) (p : Bytes × Unit) : protocolNameTy.wire o p = vector 1 p.1 := by
  obtain ⟨p, _⟩ := p
  simp only [protocolNameTy, Ty.wire.eq_5, Fields.wire, bytes_wire, List.append_nil]
  rfl

theorem protocolName_fits (o : Opts) (p : Bytes × Unit) : protocolNameTy.fits o p ↔ Between 1 255 p.1 := by
  obtain ⟨p, _⟩ := p
  simp only [protocolNameTy, Ty.fits.eq_5, Fields.fits, and_true]
  exact bytes_between _ 1 1 rfl rfl rfl (by decide) _

theorem alpn_iff {l : List (Bytes × Unit)} : alpnTy.fits {} (l, ()) ↔
    (∀ p ∈ l.map Prod.fst, Between 1 255 p) ∧ Between 2 (2 ^ 16 - 1) ((l.map Prod.fst).map (vector 1)).flatten := by
  simp only [alpnTy, Ty.fits.eq_5, Fields.fits, and_true]
  rw [slice_between { headerSize := 2, minSize := 2 } 2 2 rfl rfl rfl (by decide) (protocolName_wire _)]
  simp only [protocolName_fits, List.map_map, List.mem_map, forall_exists_index, and_imp, forall_apply_eq_imp_iff₂]
  rfl

theorem alpn_wire {l : List (Bytes × Unit)} : alpnTy.wire {} (l, ()) = vector 2 ((l.map Prod.fst).map (vector 1)).flatten := by
  simp only [alpnTy, Ty.wire.eq_5, Fields.wire, List.append_nil]
  rw [slice_wire _ (protocolName_wire _), List.map_map]
  rfl

theorem versions_iff {l : List UInt16} : versionsTy.fits {} (l, ()) ↔ Between 2 254 (l.map be16).flatten := by
  simp only [versionsTy, Ty.fits.eq_5, Fields.fits, and_true]
  rw [u16s_fits_iff]
  simp only [Between]
  constructor
  · rintro ⟨h1, h2, -, -⟩
    constructor <;> omega
  · rintro ⟨h1, h2⟩
    refine ⟨by omega, by omega, by decide, ?_⟩
    change _ < 256
    omega

theorem versions_wire {l : List UInt16} : versionsTy.wire {} (l, ()) = vector 1 (l.map be16).flatten := by
  simp only [versionsTy, Ty.wire.eq_5, Fields.wire, List.append_nil]
  exact u16s_wire _ _

theorem cookie_iff {d : Bytes} : cookieTy.fits {} (d, ()) ↔ Between 1 (2 ^ 16 - 1) d := by
  simp only [cookieTy, Ty.fits.eq_5, Fields.fits, and_true]
  exact bytes_between _ 1 2 rfl rfl rfl (by decide) _

theorem cookie_wire {d : Bytes} : cookieTy.wire {} (d, ()) = vector 2 d := by
  simp only [cookieTy, Ty.wire.eq_5, Fields.wire, List.append_nil]
  exact bytes_wire _ _

/-! ### Messages -/

theorem extList_iff {el : List Ext} : extListTy.fits {} (el, ()) ↔ ExtensionsFit el := by
  simp only [extListTy, Ty.fits.eq_5, Fields.fits, and_true]
  exact exts_fits_iff el

theorem extList_wire {el : List Ext} : extListTy.wire {} (el, ()) = extensions el := by
  simp only [extListTy, Ty.wire.eq_5, Fields.wire, List.append_nil]
  exact exts_wire _ rfl el

theorem sessionId_iff {d : Bytes} : bytesTy.fits { headerSize := 1, maxSize := 32 } d ↔ Between 0 32 d := by
  rw [bytes_fits]
  simp only [Between]
  constructor
  · rintro ⟨h1, h2, -, -⟩
    constructor <;> omega
  · rintro ⟨h1, h2⟩
    refine ⟨by omega, by omega, by decide, ?_⟩
    change _ < 256
    omega

theorem chTls_iff {v : UInt16} {r : Random} {sid : Bytes} {cs : List UInt16} {comp : Bytes} {el : List Ext} :
    chTlsTy.fits {} (v, r, sid, cs, comp, el, ()) ↔
      Between 0 32 sid ∧ Between 2 (2 ^ 16 - 1) (cs.map be16).flatten ∧ Between 1 255 comp ∧ ExtensionsFit el := by
  simp only [chTlsTy, Ty.fits.eq_5, Fields.fits, and_true, sessionId_iff, exts_fits_iff]
  rw [u16s_between _ 2 2 rfl rfl rfl (by decide), bytes_between _ 1 1 rfl rfl rfl (by decide)]
  exact ⟨fun h => h.2.2, fun h => ⟨uint_fits _ _ _, randomTy_fits _ _, h⟩⟩

theorem chTls_wire {v : UInt16} {r : Random} {sid : Bytes} {cs : List UInt16} {comp : Bytes} {el : List Ext} :
    chTlsTy.wire {} (v, r, sid, cs, comp, el, ()) =
      be16 v ++ r.1 ++ vector 1 sid ++ vector 2 (cs.map be16).flatten ++ vector 1 comp ++ extensions el := by
  simp only [chTlsTy, Ty.wire.eq_5, Fields.wire, List.append_nil, u16_wire, random_wire, bytes_wire, u16s_wire, exts_wire,
    List.append_assoc]
  rfl

theorem chDtls_iff {v : UInt16} {r : Random} {sid : Bytes} {ck : UInt8} {cs : List UInt16} {comp : Bytes} {el : List Ext} :
    chDtlsTy.fits {} (v, r, sid, ck, cs, comp, el, ()) ↔
      Between 0 32 sid ∧ Between 2 (2 ^ 16 - 1) (cs.map be16).flatten ∧ Between 1 255 comp ∧ ExtensionsFit el := by
  simp only [chDtlsTy, Ty.fits.eq_5, Fields.fits, and_true, sessionId_iff, exts_fits_iff]
  rw [u16s_between _ 2 2 rfl rfl rfl (by decide), bytes_between _ 1 1 rfl rfl rfl (by decide)]
  exact ⟨fun h => ⟨h.2.2.1, h.2.2.2.2⟩, fun h => ⟨uint_fits _ _ _, randomTy_fits _ _, h.1, uint_fits _ _ _, h.2⟩⟩

theorem chDtls_wire {v : UInt16} {r : Random} {sid : Bytes} {ck : UInt8} {cs : List UInt16} {comp : Bytes} {el : List Ext} :
    chDtlsTy.wire {} (v, r, sid, ck, cs, comp, el, ()) =
      be16 v ++ r.1 ++ vector 1 sid ++ [ck] ++ vector 2 (cs.map be16).flatten ++ vector 1 comp ++ extensions el := by
  simp only [chDtlsTy, Ty.wire.eq_5, Fields.wire, List.append_nil, u16_wire, u8_wire, random_wire, bytes_wire, u16s_wire, exts_wire,
    List.append_assoc]
  rfl

theorem sh_iff {v : UInt16} {r : Random} {sid : Bytes} {cs : UInt16} {comp : UInt8} {el : List Ext} :
    shTy.fits {} (v, r, sid, cs, comp, el, ()) ↔ Between 0 32 sid ∧ ExtensionsFit el := by
  simp only [shTy, Ty.fits.eq_5, Fields.fits, and_true, sessionId_iff, exts_fits_iff]
  exact ⟨fun h => ⟨h.2.2.1, h.2.2.2.2.2⟩,
    fun h => ⟨uint_fits _ _ _, randomTy_fits _ _, h.1, uint_fits _ _ _, uint_fits _ _ _, h.2⟩⟩

theorem sh_wire {v : UInt16} {r : Random} {sid : Bytes} {cs : UInt16} {comp : UInt8} {el : List Ext} :
    shTy.wire {} (v, r, sid, cs, comp, el, ()) =
      be16 v ++ r.1 ++ vector 1 sid ++ be16 cs ++ [comp] ++ extensions el := by
  simp only [shTy, Ty.wire.eq_5, Fields.wire, List.append_nil, u16_wire, u8_wire, random_wire, bytes_wire, exts_wire,
    List.append_assoc]
  rfl

theorem ee_iff {el : List Ext} : eeTy.fits {} (el, ()) ↔ ExtensionsFit el := extList_iff

theorem ee_wire {el : List Ext} : eeTy.wire {} (el, ()) = extensions el := extList_wire

theorem certEntry_wire (o : Opts) (e : CertEntry) : certEntryTy.wire o e = certificateEntry e := by
  obtain ⟨d, el, _⟩ := e
  simp only [certEntryTy, Ty.wire.eq_5, Fields.wire, bytes_wire, exts_wire, List.append_nil]
  rfl

theorem certEntry_fits (o : Opts) (e : CertEntry) : certEntryTy.fits o e ↔ Between 1 (2 ^ 24 - 1) e.1 ∧ ExtensionsFit e.2.1 := by
  obtain ⟨d, el, _⟩ := e
  simp only [certEntryTy, Ty.fits.eq_5, Fields.fits, and_true, exts_fits_iff]
  rw [bytes_between _ 1 3 rfl rfl rfl (by decide)]

theorem cert_iff {c : Bytes} {l : List CertEntry} : certTy.fits {} (c, l, ()) ↔
    Between 0 255 c ∧ (∀ e ∈ l, Between 1 (2 ^ 24 - 1) e.1 ∧ ExtensionsFit e.2.1) ∧
      Between 0 (2 ^ 24 - 1) (l.map certificateEntry).flatten := by
  simp only [certTy, Ty.fits.eq_5, Fields.fits, and_true]
  rw [slice_between { headerSize := 3 } 0 3 rfl rfl rfl (by decide) (certEntry_wire _), bytes_between _ 0 1 rfl rfl rfl (by decide)]
  simp only [certEntry_fits]

theorem cert_wire {c : Bytes} {l : List CertEntry} : certTy.wire {} (c, l, ()) =
    vector 1 c ++ vector 3 (l.map certificateEntry).flatten := by
  simp only [certTy, Ty.wire.eq_5, Fields.wire, List.append_nil, bytes_wire]
  rw [slice_wire _ (certEntry_wire _)]
  rfl

theorem certRequest_iff {c : Bytes} {el : List Ext} : certRequestTy.fits {} (c, el, ()) ↔ Between 0 255 c ∧ ExtensionsFit el := by
  simp only [certRequestTy, Ty.fits.eq_5, Fields.fits, and_true, exts_fits_iff]
  rw [bytes_between _ 0 1 rfl rfl rfl (by decide)]

theorem certRequest_wire {c : Bytes} {el : List Ext} : certRequestTy.wire {} (c, el, ()) = vector 1 c ++ extensions el := by
  simp only [certRequestTy, Ty.wire.eq_5, Fields.wire, List.append_nil, bytes_wire, exts_wire]
  rfl

theorem certVerify_iff {a : UInt16} {s : Bytes} : certVerifyTy.fits {} (a, s, ()) ↔ Between 0 (2 ^ 16 - 1) s := by
  simp only [certVerifyTy, Ty.fits.eq_5, Fields.fits, and_true]
  rw [bytes_between _ 0 2 rfl rfl rfl (by decide)]
  exact ⟨fun h => h.2, fun h => ⟨uint_fits _ _ _, h⟩⟩

theorem certVerify_wire {a : UInt16} {s : Bytes} : certVerifyTy.wire {} (a, s, ()) = be16 a ++ vector 2 s := by
  simp only [certVerifyTy, Ty.wire.eq_5, Fields.wire, List.append_nil, bytes_wire, u16_wire]
  rfl

theorem ticket_iff {l a : UInt32} {n t : Bytes} {el : List Ext} : ticketTy.fits {} (l, a, n, t, el, ()) ↔
    Between 0 255 n ∧ Between 1 (2 ^ 16 - 1) t ∧ ExtensionsFit el := by
  simp only [ticketTy, Ty.fits.eq_5, Fields.fits, and_true, exts_fits_iff]
  rw [bytes_between _ 0 1 rfl rfl rfl (by decide), bytes_between _ 1 2 rfl rfl rfl (by decide)]
  exact ⟨fun h => h.2.2, fun h => ⟨uint_fits _ _ _, uint_fits _ _ _, h⟩⟩

theorem ticket_wire {l a : UInt32} {n t : Bytes} {el : List Ext} : ticketTy.wire {} (l, a, n, t, el, ()) =
    be32 l ++ be32 a ++ vector 1 n ++ vector 2 t ++ extensions el := by
  simp only [ticketTy, Ty.wire.eq_5, Fields.wire, List.append_nil, bytes_wire, u32_wire, exts_wire, List.append_assoc]
  rfl

theorem keyUpdate_iff {r : UInt8} : keyUpdateTy.fits {} (r, ()) ↔ True := by
  simp only [keyUpdateTy, Ty.fits.eq_5, Fields.fits, and_true, iff_true]
  exact uint_fits _ _ _

theorem keyUpdate_wire {r : UInt8} : keyUpdateTy.wire {} (r, ()) = [r] := by
  simp only [keyUpdateTy, Ty.wire.eq_5, Fields.wire, List.append_nil]
  exact u8_wire _ _

end Verif.Messages
