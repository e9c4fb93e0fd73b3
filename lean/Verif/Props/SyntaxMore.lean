import Verif.Props.Syntax
import Verif.Spec.TagUse

/-
More properties of the syntax package: C03 (acceptance), C07 (numbers), C58 (misused tags), C59 (repeated map keys).
-/

namespace Verif.Syntax

open Verif

/-! ### C03, acceptance -/

theorem encodeAll_of_forall₂ {α : Type} {f : α → Res Bytes} {v : List α} {chunks : List Bytes}
    (h : List.Forall₂ (fun a c => f a = .ok c) v chunks) : encodeAll f v = .ok chunks.flatten := by
  induction h with
  | nil => rfl
  | cons h _ ih => simp [encodeAll, h, ih]

/-- C03. A vector whose elements can be encoded and whose body respects the tagged limits and fits the length header
is never refused. -/
theorem C03_encode_accepts {α : Type} (t : Ty α) (o : Opts) (v : List α) (chunks : List Bytes)
    (hv : List.Forall₂ (fun a c => t.encode o a = .ok c) v chunks)
    (hmin : o.minSize ≤ chunks.flatten.length)
    (hmax : o.maxSize > 0 → (chunks.flatten.length : Int) ≤ o.maxSize)
    (hfit : o.omitHeader = true ∨ (o.varintHeader = true ∧ chunks.flatten.length < 2 ^ 62) ∨
      (o.varintHeader = false ∧ o.headerSize > 0 ∧ chunks.flatten.length < 256 ^ o.headerSize.toNat)) :
    ∃ hdr, (Ty.slice t).encode o v = .ok (hdr ++ chunks.flatten) := by
  simp only [Ty.encode, encodeAll_of_forall₂ hv, Res.bind_ok]
  suffices h : ∃ hdr, encodeLength chunks.flatten.length o = .ok hdr by
    obtain ⟨hdr, h⟩ := h
    exact ⟨hdr, by rw [h]; rfl⟩
  unfold encodeLength
  rw [if_neg (by intro h; have := hmax h.1; omega), if_neg (by omega)]
  split
  · exact ⟨_, rfl⟩
  · rename_i ho
    rcases hfit with h | ⟨h, hl⟩ | ⟨h, hs, hl⟩
    · exact absurd h ho
    · rw [if_pos h]; exact (writeVarint_ok_iff _).mpr hl
    · rw [if_neg (by simp [h]), if_pos hs]
      have : chunks.flatten.length >>> (8 * o.headerSize.toNat) = 0 := by
        rw [Nat.shiftRight_eq_div_pow, Nat.pow_mul]
        exact Nat.div_eq_of_lt hl
      rw [this]
      exact ⟨_, rfl⟩

/-- A vector of exactly the maximum length. -/
example : ∃ hdr, (Ty.slice u8).encode { headerSize := 1, minSize := 2, maxSize := 2 } [7, 8] = .ok (hdr ++ [7, 8]) :=
  C03_encode_accepts u8 _ [7, 8] [[7], [8]] (.cons (by decide) (.cons (by decide) .nil)) (by decide) (by decide)
    (by decide)

/-! ### C07, numbers -/

theorem digitsVal_bad {ds : List Char} {c : Char} (hc : c ∈ ds) (hd : ¬('0' ≤ c ∧ c ≤ '9')) (acc : Nat) :
    digitsVal acc ds = none := by
  induction ds generalizing acc with
  | nil => simp at hc
  | cons x xs ih =>
    rw [digitsVal]
    split
    · rename_i hx
      rcases List.mem_cons.mp hc with rfl | h
      · exact absurd hx hd
      · exact ih h _
    · rfl

theorem atoi_bad {ds : List Char} {c : Char} (hc : c ∈ ds) (hd : ¬('0' ≤ c ∧ c ≤ '9')) (h1 : c ≠ '-')
    (h2 : c ≠ '+') : atoi ds = none := by
  unfold atoi
  split
  · rename_i ds'
    have : c ∈ ds' := by simpa [h1] using hc
    simp [digitsVal_bad this hd]
  · rename_i ds'
    have : c ∈ ds' := by simpa [h2] using hc
    simp [digitsVal_bad this hd]
  · simp [digitsVal_bad hc hd]

theorem splitC_parts (ps : List (List Char)) (h0 : ps ≠ []) (h : ∀ p ∈ ps, ',' ∉ p) :
    splitC ',' (ps.intersperse [',']).flatten = ps := by
  induction ps with
  | nil => exact absurd rfl h0
  | cons p ps ih =>
    cases ps with
    | nil => simp [splitC_no_sep (h p (by simp))]
    | cons q qs =>
      have e : ((p :: q :: qs).intersperse [',']).flatten =
          p ++ ',' :: ((q :: qs).intersperse [',']).flatten := by simp [List.intersperse]
      rw [e, splitC_append (h p (by simp)), ih (by simp) fun p hp => h p (by simp [hp])]

/-- C07. `head=`, `min=` or `max=` with a value that is not a number (nor, for `head`, one of the two words) is
refused, wherever it occurs in the tag. -/
theorem C07_bad_number_refused (before after : List (List Char)) (name val : List Char) (c : Char)
    (hb : ∀ p ∈ before, ',' ∉ p) (ha : ∀ p ∈ after, ',' ∉ p) (hv : ',' ∉ val) (he : '=' ∉ val)
    (hname : name = "head".toList ∨ name = "min".toList ∨ name = "max".toList)
    (hword : name = "head".toList → val ≠ "none".toList ∧ val ≠ "varint".toList)
    (hc : c ∈ val) (hd : ¬('0' ≤ c ∧ c ≤ '9')) (h1 : c ≠ '-') (h2 : c ≠ '+') :
    ∀ o, parseTag ((before ++ (name ++ '=' :: val) :: after).intersperse [',']).flatten ≠ .ok o := by
  intro o h
  have hcomma : ',' ∉ name ++ '=' :: val := by
    rcases hname with rfl | rfl | rfl <;> simp [hv]
  unfold parseTag at h
  rw [splitC_parts _ (by simp) (by
    intro p hp
    rcases List.mem_append.mp hp with hp | hp
    · exact hb p hp
    · rcases List.mem_cons.mp hp with rfl | hp
      · exact hcomma
      · exact ha p hp)] at h
  rw [applyTokens_append] at h
  simp only [Res.bind_eq_ok, applyTokens] at h
  obtain ⟨-, ⟨o1, -, o2, h3, -⟩, -⟩ := h
  have hsp : splitC '=' (name ++ '=' :: val) = [name, val] := by
    rw [splitC_append (by rcases hname with rfl | rfl | rfl <;> decide), splitC_no_sep he]
  have hval : val ≠ [] := by rintro rfl; simp at hc
  have hnum := atoi_bad hc hd h1 h2
  unfold applyToken at h3
  rw [hsp] at h3
  dsimp only at h3
  rcases hname with rfl | rfl | rfl
  · obtain ⟨w1, w2⟩ := hword rfl
    rw [if_neg (by simp [hval]), if_pos rfl, if_neg w1, if_neg w2, hnum] at h3
    simp at h3
  · rw [if_neg (by simp [hval]), if_neg (by decide), if_pos rfl, hnum] at h3
    simp at h3
  · rw [if_neg (by simp [hval]), if_neg (by decide), if_neg (by decide), if_pos rfl, hnum] at h3
    simp at h3

example : ∀ o, parseTag "head=2,min=1x,max=9".toList ≠ .ok o :=
  C07_bad_number_refused ["head=2".toList] ["max=9".toList] "min".toList "1x".toList 'x' (by decide) (by decide)
    (by decide) (by decide) (by decide) (by decide) (by decide) (by decide) (by decide) (by decide)

/-! ### C58 -/

theorem misused_invalid {o : Opts} {k : Kind} (h : misused o k) : o.validForKind k = false := by
  rcases h with ⟨h1, h2, h⟩ | ⟨h1, h2⟩ | ⟨h1, h2⟩
  · have hk : (k == Kind.slice || k == Kind.map) = false := by simp [h1, h2]
    have ht : (o.omitHeader || o.varintHeader || o.headerSize != 0 || o.minSize != 0 || o.maxSize != 0) = true := by
      rcases h with h | h | h | h | h <;> simp [h]
    simp [Opts.validForKind, hk, ht]
  · simp [Opts.validForKind, h1, h2]
  · simp [Opts.validForKind, h1, h2]

mutual

theorem Ty.anyField_tags : {α : Type} → (t : Ty α) → t.anyField misused → t.tagsOk = false
  | _, .uint _ => fun h => by simp [Ty.anyField] at h
  | _, .array _ t => fun h => by
    simp only [Ty.anyField] at h; simp only [Ty.tagsOk]; exact Ty.anyField_tags t h
  | _, .slice t => fun h => by
    simp only [Ty.anyField] at h; simp only [Ty.tagsOk]; exact Ty.anyField_tags t h
  | _, @Ty.map _ _ _ k t => fun h => by
    simp only [Ty.anyField] at h
    rcases h with h | h
    · simp [Ty.tagsOk, Ty.anyField_tags k h]
    · simp [Ty.tagsOk, Ty.anyField_tags t h]
  | _, .struct fs => fun h => by
    simp only [Ty.anyField] at h; simp only [Ty.tagsOk]; exact Fields.anyField_tags fs h
  | _, .ptr t => fun h => by
    simp only [Ty.anyField] at h; simp only [Ty.tagsOk]; exact Ty.anyField_tags t h
  | _, .validated t _ => fun h => by
    simp only [Ty.anyField] at h; simp only [Ty.tagsOk]; exact Ty.anyField_tags t h
  | _, .custom _ => fun h => by simp [Ty.anyField] at h
  | _, .other _ => fun h => by simp [Ty.anyField] at h

theorem Fields.anyField_tags : {α : Type} → (fs : Fields α) → fs.anyField misused → fs.tagsOk = false
  | _, .nil => fun h => by simp [Fields.anyField] at h
  | _, .cons o t fs => fun h => by
    simp only [Fields.anyField] at h
    rcases h with h | ⟨hs, h⟩ | h
    · simp [Fields.tagsOk, misused_invalid h]
    · simp [Fields.tagsOk, hs, Ty.anyField_tags t h]
    · simp [Fields.tagsOk, Fields.anyField_tags fs h]

end

/-- C58. A type with a misused tag anywhere is refused by both directions, whatever the value or input. -/
theorem C58_misused_tag_refused {α : Type} (t : Ty α) (h : t.anyField misused) (v : α) (bs : Bytes) :
    marshal t v = .err .msg ∧ unmarshal t bs = .err .msg := by
  have := Ty.anyField_tags t h
  simp [marshal, unmarshal, this]

/-- A slice of structs with an `optional` integer field. -/
example : (Ty.struct (.cons { headerSize := 2 } (.slice (.struct (.cons { optional := true } u8 .nil))) .nil) :
    Ty (List (UInt8 × Unit) × Unit)).anyField misused := by
  simp [Ty.anyField, Fields.anyField, misused, u8, Ty.kind]

/-! ### C59 -/

/-- The value a map stores for a key. -/
def mapGet {κ ν : Type} [DecidableEq κ] (m : List (κ × ν)) (k : κ) : Option ν :=
  (m.find? (fun e => e.1 = k)).map Prod.snd

theorem mapGet_mapSet {κ ν : Type} [DecidableEq κ] (m : List (κ × ν)) (k k' : κ) (v : ν) :
    mapGet (mapSet m k v) k' = if k = k' then some v else mapGet m k' := by
  induction m with
  | nil => by_cases h : k = k' <;> simp [mapSet, mapGet, h]
  | cons e m ih =>
    obtain ⟨a, b⟩ := e
    rw [mapSet]
    split
    · rename_i h
      subst h
      by_cases h : a = k' <;> simp [mapGet, h]
    · rename_i h
      by_cases h' : a = k'
      · subst h'
        rw [if_neg (fun e => h e.symm)]
        simp [mapGet]
      · have e1 : mapGet ((a, b) :: mapSet m k v) k' = mapGet (mapSet m k v) k' := by simp [mapGet, h']
        have e2 : mapGet ((a, b) :: m) k' = mapGet m k' := by simp [mapGet, h']
        rw [e1, e2, ih]

theorem mapSet_keys_nodup {κ ν : Type} [DecidableEq κ] (m : List (κ × ν)) (k : κ) (v : ν)
    (h : (m.map Prod.fst).Nodup) : ((mapSet m k v).map Prod.fst).Nodup := by
  have keys : ∀ (m : List (κ × ν)), ∀ a ∈ (mapSet m k v).map Prod.fst, a = k ∨ a ∈ m.map Prod.fst := by
    intro m
    induction m with
    | nil => simp [mapSet]
    | cons e m ih =>
      obtain ⟨x, y⟩ := e
      intro a ha
      rw [mapSet] at ha
      split at ha
      · simp only [List.map_cons, List.mem_cons] at ha ⊢
        tauto
      · simp only [List.map_cons, List.mem_cons] at ha ⊢
        rcases ha with rfl | ha
        · tauto
        · rcases ih a ha with h | h <;> tauto
  induction m with
  | nil => simp [mapSet]
  | cons e m ih =>
    obtain ⟨x, y⟩ := e
    rw [mapSet]
    simp only [List.map_cons, List.nodup_cons] at h
    split
    · rename_i hx
      subst hx
      simpa using h
    · rename_i hx
      simp only [List.map_cons, List.nodup_cons]
      refine ⟨fun hm => ?_, ih h.2⟩
      rcases keys m x hm with h' | h'
      · exact hx h'
      · exact h.1 h'

theorem foldl_mapSet {κ ν : Type} [DecidableEq κ] (es m : List (κ × ν)) (k : κ) :
    mapGet (es.foldl (fun m e => mapSet m e.1 e.2) m) k = (mapGet es.reverse k).or (mapGet m k) := by
  induction es generalizing m with
  | nil => simp [mapGet]
  | cons e es ih =>
    rw [List.foldl_cons, ih, mapGet_mapSet, List.reverse_cons]
    simp only [mapGet, List.find?_append]
    cases h : es.reverse.find? (fun e => decide (e.1 = k)) with
    | some x => simp
    | none => by_cases h' : e.1 = k <;> simp [h']

theorem foldl_mapSet_nodup {κ ν : Type} [DecidableEq κ] (es m : List (κ × ν)) (h : (m.map Prod.fst).Nodup) :
    ((es.foldl (fun m e => mapSet m e.1 e.2) m).map Prod.fst).Nodup := by
  induction es generalizing m with
  | nil => exact h
  | cons e es ih => exact ih _ (mapSet_keys_nodup m e.1 e.2 h)

/-- C59. Whatever the input, the keys of a decoded map are distinct. -/
theorem C59_map_keys_distinct {κ ν : Type} [DecidableEq κ] (k : Ty κ) (t : Ty ν) (o : Opts) (bs rest : Bytes)
    (m : List (κ × ν)) (n : Nat) (h : (Ty.map k t).decode o bs = .ok (m, n, rest)) : (m.map Prod.fst).Nodup := by
  simp only [Ty.decode, Res.bind_eq_ok] at h
  obtain ⟨⟨r, l, bs1⟩, -, ⟨body, rest'⟩, -, ⟨es, mm⟩, -, h4⟩ := h
  simp only [Res.ok.injEq, Prod.mk.injEq] at h4
  rw [← h4.1]
  exact foldl_mapSet_nodup es [] (by simp)

/-- C59. A body that lists entries in any order and with repeated keys decodes to the map in which the last entry
of each key wins. -/
theorem C59_last_entry_wins {κ ν : Type} [DecidableEq κ] (k : Ty κ) (t : Ty ν) (o : Opts)
    (es : List ((κ × ν) × Bytes × Bytes)) (hdr rest : Bytes)
    (hes : ∀ e ∈ es, k.encode {} e.1.1 = .ok e.2.1 ∧ t.encode {} e.1.2 = .ok e.2.2 ∧
      k.good {} e.1.1 ∧ t.good {} e.1.2)
    (hk : k.selfDelim {}) (ht : t.selfDelim {}) (hks : ∀ a b, k.same a b → a = b) (hts : ∀ a b, t.same a b → a = b)
    (hne : k.nonEmpty {} ∨ t.nonEmpty {}) (ho : o.omitHeader = false)
    (hl : ((es.map fun e => e.2.1 ++ e.2.2).flatten).length < 2 ^ 63)
    (hhdr : encodeLength ((es.map fun e => e.2.1 ++ e.2.2).flatten).length o = .ok hdr) :
    ∃ m, (Ty.map k t).decode o (hdr ++ (es.map fun e => e.2.1 ++ e.2.2).flatten ++ rest) =
        .ok (m, hdr.length + ((es.map fun e => e.2.1 ++ e.2.2).flatten).length, rest) ∧
      ∀ key, mapGet m key = mapGet (es.map Prod.fst).reverse key := by
  have hdec : ∀ (es : List ((κ × ν) × Bytes × Bytes)),
      (∀ e ∈ es, k.encode {} e.1.1 = .ok e.2.1 ∧ t.encode {} e.1.2 = .ok e.2.2 ∧
        k.good {} e.1.1 ∧ t.good {} e.1.2) →
      ((es.map fun e => e.2.1 ++ e.2.2).flatten).length < 2 ^ 63 →
      decodeMany (fun b => (k.decode {} b).bind fun (x, n, b1) =>
        (t.decode {} b1).bind fun (y, n', b2) => .ok ((x, y), n + n', b2))
        (es.map fun e => e.2.1 ++ e.2.2).flatten =
      .ok (es.map Prod.fst, ((es.map fun e => e.2.1 ++ e.2.2).flatten).length) := by
    intro es
    induction es with
    | nil => intro _ _; exact decodeMany_nil _
    | cons e es ih =>
      intro hes hl
      obtain ⟨⟨a, b⟩, x, y⟩ := e
      obtain ⟨h1, h2, h3, h4⟩ := hes ((a, b), x, y) (by simp)
      simp only [List.map_cons, List.flatten_cons, List.length_append] at hl ⊢
      obtain ⟨a', ha, hsa⟩ := Ty.roundTrip k {} a x (y ++ (es.map fun e => e.2.1 ++ e.2.2).flatten) hk h3 h1
        (by omega)
      obtain ⟨b', hb, hsb⟩ := Ty.roundTrip t {} b y (es.map fun e => e.2.1 ++ e.2.2).flatten ht h4 h2 (by omega)
      obtain rfl := hks _ _ hsa
      obtain rfl := hts _ _ hsb
      have hpos : 0 < x.length + y.length := by
        rcases hne with h | h
        · have := List.length_pos_of_ne_nil (Ty.encode_ne_nil k {} a x h h1); omega
        · have := List.length_pos_of_ne_nil (Ty.encode_ne_nil t {} b y h h2); omega
      have hstep : (fun bs => (k.decode {} bs).bind fun (x, n, b1) =>
          (t.decode {} b1).bind fun (y, n', b2) => (.ok ((x, y), n + n', b2) : Res ((κ × ν) × Nat × Bytes)))
          (x ++ y ++ (es.map fun e => e.2.1 ++ e.2.2).flatten) =
          .ok ((a, b), x.length + y.length, (es.map fun e => e.2.1 ++ e.2.2).flatten) := by
        simp only [List.append_assoc, ha, Res.bind_ok, hb]
      rw [decodeMany_step hstep (by simp; omega), ih (fun e he => hes e (by simp [he])) (by omega)]
      simp
  refine ⟨mapOfList (es.map Prod.fst), ?_, ?_⟩
  · simp only [Ty.decode]
    rw [List.append_assoc, decodeLength_encodeLength hhdr ho hl]
    simp only [Res.bind_ok, nextExact_append, hdec es hes hl]
  · intro key
    rw [mapOfList, foldl_mapSet]
    simp [mapGet]

example : ∀ key, mapGet [((1 : UInt8), (9 : UInt8)), (2, 8), (1, 7)].reverse key =
    if key = 1 then some 7 else if key = 2 then some 8 else none := by
  intro key
  by_cases h1 : key = 1
  · subst h1; decide
  · by_cases h2 : key = 2
    · subst h2; decide
    · have h1' : ¬ (1 : UInt8) = key := fun e => h1 e.symm
      have h2' : ¬ (2 : UInt8) = key := fun e => h2 e.symm
      simp [mapGet, h1, h2, h1', h2']

end Verif.Syntax
