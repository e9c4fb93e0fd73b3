import Verif.Machine.ClientTrace
import Verif.Spec.Views
import Verif.Machine.Added
import Verif.Props.Truncated

/-
The contents of a client's hello.
-/

namespace Verif.Machine

open Verif Verif.Crypto Verif.Messages Verif.Negotiation Verif.Handshake Verif.Spec

theorem dataOf_bodies {bs : List ExtBody} (hn : (bs.map fun b => b.kind.type).Nodup) {b : ExtBody} (hb : b ∈ bs) :
    dataOf b.kind.type (bs.map bodyExt) = [bodyData b] := by
  induction bs with
  | nil => cases hb
  | cons a bs ih =>
    simp only [List.map_cons, List.nodup_cons, List.mem_map, not_exists, not_and] at hn
    rcases List.mem_cons.1 hb with rfl | hb
    · have : dataOf b.kind.type (bs.map bodyExt) = [] := by
        simp only [dataOf, List.map_eq_nil_iff, List.filter_eq_nil_iff, List.mem_map, beq_iff_eq]
        rintro _ ⟨c, hc, rfl⟩
        exact hn.1 c hc
      simp only [dataOf, List.map_cons, bodyExt] at this ⊢
      rw [List.filter_cons_of_pos (by simp)]
      simpa using this
    · have hne : a.kind.type ≠ b.kind.type := fun h => hn.1 b hb h.symm
      have := ih hn.2 hb
      simp only [dataOf, List.map_cons] at this ⊢
      rw [List.filter_cons_of_neg (by simpa [bodyExt] using hne)]
      exact this

theorem hasExt_bodies (t : UInt16) (bs : List ExtBody) :
    hasExt t (bs.map bodyExt) = bs.any fun b => b.kind.type == t := by
  simp [hasExt, bodyExt, Function.comp_def]

/-- The extensions of a hello. -/
def helloBodies (s : CStart) (shares : List (UInt16 × Bytes × Bytes)) (early : Bool) (psk : Option ExtBody) : List ExtBody :=
  helloExts s shares ++ (if early then [.earlyData] else []) ++ psk.toList

theorem helloExts_types (s : CStart) (shares : List (UInt16 × Bytes × Bytes)) :
    ((helloExts s shares).map fun b => b.kind.type) = ([43, 0, 51, 10, 13] : List UInt16) ++
      (if s.cfg.nextProtos.length > 0 then ([16] : List UInt16) else []) ++ (match s.cookie with | some _ => ([44] : List UInt16) | none => []) ++
      (if s.cfg.pskModes.length ≠ 0 then ([45] : List UInt16) else []) := by
  simp only [helloExts, List.map_append]
  congr 1
  · congr 1
    · congr 1
      split <;> rfl
    · cases s.cookie <;> rfl
  · split <;> rfl

theorem helloExts_nodup (s : CStart) (shares : List (UInt16 × Bytes × Bytes)) :
    ((helloExts s shares).map fun b => b.kind.type).Nodup := by
  rw [helloExts_types]
  by_cases h1 : s.cfg.nextProtos.length > 0 <;> by_cases h2 : s.cfg.pskModes.length ≠ 0 <;> cases s.cookie <;>
    (first | rw [if_pos h1, if_pos h2] | rw [if_pos h1, if_neg h2] | rw [if_neg h1, if_pos h2] | rw [if_neg h1, if_neg h2]) <;>
    dsimp only <;> decide

theorem helloExts_not (s : CStart) (shares : List (UInt16 × Bytes × Bytes)) :
    (41 : UInt16) ∉ (helloExts s shares).map (fun b => b.kind.type) ∧
    (42 : UInt16) ∉ (helloExts s shares).map (fun b => b.kind.type) := by
  rw [helloExts_types]
  by_cases h1 : s.cfg.nextProtos.length > 0 <;> by_cases h2 : s.cfg.pskModes.length ≠ 0 <;> cases s.cookie <;>
    (first | rw [if_pos h1, if_pos h2] | rw [if_pos h1, if_neg h2] | rw [if_neg h1, if_pos h2] | rw [if_neg h1, if_neg h2]) <;>
    dsimp only <;> decide

theorem helloBodies_nodup (s : CStart) (shares : List (UInt16 × Bytes × Bytes)) (early : Bool) (psk : Option ExtBody)
    (hp : ∀ b ∈ psk, b.kind.type = 41) : ((helloBodies s shares early psk).map fun b => b.kind.type).Nodup := by
  have h1 := helloExts_nodup s shares
  obtain ⟨h2, h3⟩ := helloExts_not s shares
  simp only [helloBodies, List.map_append, List.append_assoc]
  have h4 : ((if early then [ExtBody.earlyData] else []).map (fun b => b.kind.type) ++ psk.toList.map (fun b => b.kind.type)).Nodup ∧
      ∀ t ∈ (if early then [ExtBody.earlyData] else []).map (fun b => b.kind.type) ++ psk.toList.map (fun b => b.kind.type),
        t = 41 ∨ t = 42 := by
    cases psk with
    | none => cases early <;> simp [ExtBody.kind, ExtKind.type]
    | some b =>
      have := hp b rfl
      have h42 : ExtBody.earlyData.kind.type = 42 := rfl
      cases early <;> simp [this, h42]
  rw [List.nodup_append]
  refine ⟨h1, h4.1, ?_⟩
  rintro a ha b hb rfl
  rcases h4.2 a hb with rfl | rfl
  · exact h2 ha
  · exact h3 ha

/-- Whether a list of PSK identities and binders can be sent depends on the binders' lengths only. -/
theorem psk_marshal_congr {ids : List PskIdentity} {b b' d : Bytes} (hl : b.length = b'.length)
    (h : (ExtBody.preSharedKey typeClientHello ids [(b, ())] 0).marshal = .ok d) :
    ∃ d', (ExtBody.preSharedKey typeClientHello ids [(b', ())] 0).marshal = .ok d' := by
  simp only [ExtBody.marshal, if_true] at h ⊢
  obtain ⟨x, y, hx, hy, rfl⟩ := pskClient_split.1 h
  obtain ⟨h1, h2, h3, h4⟩ := bindersField.1 hy
  refine ⟨_, pskClient_split.2 ⟨x, Spec.binderList [b'], hx, bindersField.2 ⟨?_, ?_, ?_, rfl⟩, rfl⟩⟩
  · intro e he
    rw [List.mem_singleton] at he
    subst he
    have := h1 (b, ()) (by simp)
    dsimp only at this ⊢
    rw [← hl]; exact this
  all_goals
    have : (Spec.binderList [b']).length = y.length := by rw [h4]; exact binderList_length_congr (by simp [hl])
    rw [this]; assumption

theorem setExt_last (ty : UInt16) (d d' : Bytes) (el : List Ext) (h : ty ∉ types el) :
    setExt ty d' (el ++ [(ty, d, ())]) = el ++ [(ty, d', ())] := by
  induction el with
  | nil => simp [setExt]
  | cons e el ih =>
    simp only [types, List.map_cons, List.mem_cons, not_or] at h
    simp only [List.cons_append, setExt, if_neg (Ne.symm h.1), ih h.2]

/-- The hello of a client, and what is in it. -/
structure MadeHello (E : Env) (x : Ctx) (c : Coins) (s : CStart) (m : Msg) (x' : Ctx) where
  shares : List (UInt16 × Bytes × Bytes)
  random : Random
  suites : List UInt16
  early : Bool
  psk : Option ExtBody
  sharesOk : makeShares E.D c.dh s.cfg.groups = .ok shares
  randomOk : c.random = some random
  marshals : ∀ b ∈ helloBodies s shares early psk, b.marshal = .ok (bodyData b)
  made : mkMsg x (.clientHello ⟨wireVersion x, random, [], suites, (helloBodies s shares early psk).map bodyExt⟩) = .ok (m, x')
  pskOk : (s.cfg.psks s.cfg.serverName = none ∧ psk = none ∧ early = false ∧ suites = s.cfg.suites) ∨
    (∃ k p binder trunc, s.cfg.psks s.cfg.serverName = some k ∧ suiteParams k.suite = some p ∧
      psk = some (pskExt k c.now binder) ∧ early = (s.cfg.allowEarlyData && s.retry.isNone) ∧
      suites = compatibleSuites p.hash s.cfg.suites ∧ s.cfg.pskModes.length ≠ 0 ∧
      (⟨wireVersion x, random, [], suites, (helloBodies s shares early psk).map bodyExt⟩ : ClientHello).truncated = .ok trunc ∧
      binder = Spec.binder E.P p.hash k.isResumption k.key trunc)

theorem mkMsg_marshal {x x' : Ctx} {ch : ClientHello} {m : Msg} (h : mkMsg x (.clientHello ch) = .ok (m, x')) :
    ch.marshal = .ok m.body := by
  obtain ⟨d, h1, rfl, _⟩ := mkMsg_ok h
  exact h1

theorem truncated_marshals {ch : ClientHello} {t : Bytes} (h : ch.truncated = .ok t) : ∃ bs, ch.marshal = .ok bs := by
  unfold ClientHello.truncated at h
  split at h
  · cases h
  · split at h
    · cases h
    · simp only [Res.bind_eq_ok] at h
      obtain ⟨bs, h1, _⟩ := h
      exact ⟨bs, h1⟩

theorem CStart.next_hello {E : Env} (hP : E.P.Sized) {x x' : Ctx} {c : Coins} {s : CStart} {w : CWaitSH} {acts : List Action}
    (h : s.next E x c = .ok (w, acts, x')) : Nonempty (MadeHello E x c s w.clientHello x') := by
  obtain ⟨shares, random, exts, h1, h2, h3, h4⟩ := CStart.next_ok h
  obtain ⟨h5, h6⟩ := addAll_made h3 (helloExts_nodup s shares)
  rcases h4 with ⟨k, o, hk, ho, rfl, rfl, rfl⟩ | ⟨hk, hello, hm, rfl, rfl⟩
  · obtain ⟨p, ex, ex0, bk, trunc, bd, ex1, et, hp, he, hmodes, ha0, hbk, htr, hbd, ha1, hmk, _, _, _, _⟩ := offerPsk_ok ho
    have hsz := suiteParams_size hp
    -- early data
    have hex : (∀ b ∈ helloBodies s shares (s.cfg.allowEarlyData && s.retry.isNone) none, b.marshal = .ok (bodyData b)) ∧
        ex = (helloBodies s shares (s.cfg.allowEarlyData && s.retry.isNone) none).map bodyExt := by
      cases hb : (s.cfg.allowEarlyData && s.retry.isNone) with
      | false =>
        rw [hb] at he
        simp only [Bool.false_eq_true, if_false, Res.ok.injEq] at he
        simpa [helloBodies, ← he] using ⟨h5, h6⟩
      | true =>
        rw [hb] at he
        simp only [if_true] at he
        have h42 : ExtBody.earlyData.kind.type ∉ types exts := by
          rw [h6]
          have := (helloExts_not s shares).2
          simpa [types, bodyExt, Function.comp_def, ExtBody.kind, ExtKind.type] using this
        obtain ⟨h7, h8⟩ := addExt_new he h42
        refine ⟨?_, by simp [helloBodies, h8, h6]⟩
        intro b hb'
        simp only [helloBodies, if_true, Option.toList_none, List.append_nil, List.mem_append, List.mem_singleton] at hb'
        rcases hb' with hb' | rfl
        · exact h5 b hb'
        · exact h7
    obtain ⟨hex1, hex2⟩ := hex
    have h41 : (41 : UInt16) ∉ types ex := by
      have h7 := helloBodies_nodup s shares (s.cfg.allowEarlyData && s.retry.isNone) (some (pskExt k c.now [])) (by simp [pskExt, ExtBody.kind, ExtKind.type])
      rw [hex2]
      intro h8
      simp only [types, List.map_map, List.mem_map] at h8
      obtain ⟨b, hb, h8⟩ := h8
      simp only [helloBodies, Option.toList_none, List.append_nil] at hb
      simp only [helloBodies, Option.toList_some, List.map_append] at h7
      rw [List.nodup_append] at h7
      exact h7.2.2 41 (by rw [← List.map_append]; exact List.mem_map.2 ⟨b, hb, h8⟩) 41 (by simp [pskExt, ExtBody.kind, ExtKind.type]) rfl
    -- the placeholder
    have hph : ∃ d0, (pskExt k c.now (zeros p.hash)).marshal = .ok d0 ∧ ex0 = ex ++ [(41, d0, ())] := by
      unfold addIgnore at ha0
      split at ha0
      · rename_i hadd
        simp only [Res.ok.injEq] at ha0
        subst ha0
        obtain ⟨pre, data, hpre⟩ := C33_last_extension _ _ htr
        dsimp only at hpre
        exact absurd (by rw [hpre]; simp [types]) h41
      · simp only [addExt, Res.bind_eq_ok, Res.ok.injEq] at ha0
        obtain ⟨d0, hd0, rfl⟩ := ha0
        exact ⟨d0, hd0, setExt_new _ _ _ h41⟩
    obtain ⟨d0, hd0, rfl⟩ := hph
    -- the binder
    rw [deriveSecret_eq E.P hP _ hsz, Res.ok.injEq] at hbk
    rw [computeFinishedData_eq E.P hP _ hsz, Res.ok.injEq] at hbd
    have hbl : (zeros p.hash).length = bd.length := by
      rw [← hbd, finishedMac, hP.hmac]; simp [zeros]
    obtain ⟨d1, hd1⟩ := psk_marshal_congr hbl hd0
    have hex1' : ex1 = ex ++ [(41, d1, ())] := by
      have hadd : addExt (ex ++ [(41, d0, ())]) (pskExt k c.now bd) = .ok (ex ++ [(41, d1, ())]) := by
        have hd1' : (pskExt k c.now bd).marshal = .ok d1 := hd1
        simp only [addExt, hd1', Res.bind_ok]
        rw [show (pskExt k c.now bd).kind.type = 41 from rfl, setExt_last _ _ _ _ h41]
      simp only [addIgnore, hadd, Res.ok.injEq] at ha1
      exact ha1.symm
    have hd1e : bodyData (pskExt k c.now bd) = d1 := by
      have hd1' : (pskExt k c.now bd).marshal = .ok d1 := hd1
      simp [bodyData, hd1']
    have hall : (helloBodies s shares (s.cfg.allowEarlyData && s.retry.isNone) (some (pskExt k c.now bd))).map bodyExt = ex1 := by
      have h9 : bodyExt (pskExt k c.now bd) = (41, d1, ()) := by rw [bodyExt, hd1e]; rfl
      rw [hex1', hex2]
      simp [helloBodies, h9]
    refine ⟨{
      shares := shares
      random := random
      suites := compatibleSuites p.hash s.cfg.suites
      early := s.cfg.allowEarlyData && s.retry.isNone
      psk := some (pskExt k c.now bd)
      sharesOk := h1
      randomOk := h2
      marshals := ?_
      made := by rw [hall]; exact hmk
      pskOk := ?_ }⟩
    · intro b hb
      simp only [helloBodies, Option.toList_some, List.mem_append, List.mem_singleton] at hb
      rcases hb with hb | rfl
      · refine hex1 b ?_
        simpa [helloBodies] using hb
      · rw [hd1e]; exact hd1
    · obtain ⟨bs, hbs⟩ := truncated_marshals htr
      have hbs' := mkMsg_marshal hmk
      rw [hex1'] at hbs'
      have hp1 := C31_extension_roundtrip_partial (pskExt k c.now bd) d1 (fun _ => by simp) hd1
      obtain ⟨trunc', ht', _⟩ := truncated_eq hbs' rfl hp1
      have heq := C33_binders_do_not_matter _ _ _ _ _ _ ex _ _ _ d0 d1 (by simpa using hbl) (by simp) rfl rfl hd0 hd1 hbs hbs' htr ht'
      refine Or.inr ⟨k, p, bd, trunc, hk, hp, rfl, rfl, rfl, hmodes, ?_, ?_⟩
      · rw [hall, hex1', heq]; exact ht'
      · rw [← hbd, ← hbk, Spec.binder]
        cases k.isResumption <;> rfl
  · exact ⟨{
      shares := shares
      random := random
      suites := s.cfg.suites
      early := false
      psk := none
      sharesOk := h1
      randomOk := h2
      marshals := by simpa [helloBodies] using h5
      made := by simpa [helloBodies, ← h6] using hm
      pskOk := Or.inl ⟨hk, rfl, rfl, rfl⟩ }⟩

theorem carries_bodies {bs : List ExtBody} (hn : (bs.map fun b => b.kind.type).Nodup)
    (hm : ∀ b ∈ bs, b.marshal = .ok (bodyData b)) {b b' : ExtBody} {k : ExtKind} (hb : b ∈ bs) (he : expressible b) (hk : b.kind = k)
    (hc : contents b = b') : Carries k (bs.map bodyExt) b' := by
  subst hk hc
  exact ⟨_, dataOf_bodies hn hb, safeUnmarshal_ok.1 (C31_extension_roundtrip_partial b _ he (hm b hb))⟩

theorem compatibleSuites_eq {s : Nat} {p : Params} (h : suiteParams s = some p) (suites : List UInt16) :
    compatibleSuites p.hash suites = suites.filter fun c => decide (suiteHash c = (suiteParams s).map (·.hash)) := by
  have hsz := suiteParams_size h
  unfold compatibleSuites
  congr 1
  funext c
  simp only [suiteHash, h, Option.map_some, decide_eq_decide]
  cases hc : suiteParams c.toNat with
  | none =>
    simp only [Option.map_none, reduceCtorEq, iff_false]
    intro h0
    rw [← h0] at hsz
    exact absurd hsz (by decide)
  | some q => simp

/-- What is in the hello of a client. -/
theorem MadeHello.offer {E : Env} {x x' : Ctx} {c : Coins} {s : CStart} {m : Msg} (a : MadeHello E x c s m x')
    (hr : s.retry.isNone = s.cookie.isNone) :
    ClientOffer E x.datagram s.cfg s.cfg.suites s.cookie m
      ⟨wireVersion x, a.random, [], a.suites, (helloBodies s a.shares a.early a.psk).map bodyExt⟩ := by
  have hp : ∀ b ∈ a.psk, b.kind.type = 41 := by
    intro b hb
    rcases a.pskOk with ⟨_, h, _⟩ | ⟨k, p, bd, t, _, _, h, _⟩
    · rw [h] at hb; cases hb
    · rw [h] at hb
      simp only [Option.mem_def, Option.some.injEq] at hb
      rw [← hb]; rfl
  have hn := helloBodies_nodup s a.shares a.early a.psk hp
  have hm := a.marshals
  have hmem : ∀ b ∈ helloExts s a.shares, b ∈ helloBodies s a.shares a.early a.psk := by
    intro b hb
    simp only [helloBodies, List.mem_append]
    exact Or.inl (Or.inl hb)
  have hver : wireVersion x = if x.datagram then 0xfefd else 0x0303 := by
    unfold wireVersion; rfl
  obtain ⟨data, hd, hmeq, _⟩ := mkMsg_ok a.made
  have hlen : data.length < 2 ^ 24 := ClientHello.marshal_length hd
  have htypes := helloExts_types s a.shares
  obtain ⟨hno41, hno42⟩ := helloExts_not s a.shares
  have hany : ∀ t : UInt16, hasExt t ((helloBodies s a.shares a.early a.psk).map bodyExt) =
      (decide (t ∈ (helloExts s a.shares).map fun b => b.kind.type) || (a.early && t == 42) || (a.psk.isSome && t == 41)) := by
    intro t
    rw [hasExt_bodies]
    simp only [helloBodies, List.any_append]
    congr 1
    · congr 1
      · rw [Bool.eq_iff_iff]; simp
      · cases a.early
        · rfl
        · have h42 : ExtBody.earlyData.kind.type = 42 := rfl
          simp only [if_true, List.any_cons, List.any_nil, Bool.or_false, Bool.true_and, h42]
          exact Bool.beq_comm
    · cases hpk : a.psk with
      | none => rfl
      | some b =>
        have := hp b hpk
        simp only [Option.toList_some, List.any_cons, this, List.any_nil, Bool.or_false, Option.isSome_some, Bool.true_and]
        exact Bool.beq_comm
  have hbody : m.body = data := by rw [hmeq]
  refine {
    type := by rw [hmeq]; rfl
    length := by rw [hmeq]; exact Nat.mod_eq_of_lt (by omega)
    body := ?_
    version := hver
    sessionId := rfl
    suites_eq := ?_
    versions := carries_bodies hn hm (hmem (.supportedVersions typeClientHello [tls13Version]) (by simp [helloExts])) (by simp [expressible]) rfl rfl
    name := carries_bodies hn hm (hmem (.serverName s.cfg.serverName) (by simp [helloExts])) (by simp [expressible]) rfl rfl
    groups := carries_bodies hn hm (hmem (.supportedGroups s.cfg.groups) (by simp [helloExts])) (by simp [expressible]) rfl rfl
    schemes := carries_bodies hn hm (hmem (.signatureAlgorithms s.cfg.schemes) (by simp [helloExts])) (by simp [expressible]) rfl rfl
    shares := ⟨a.shares.map fun k => (k.1, k.2.1, ()),
      carries_bodies hn hm (hmem (.keyShare typeClientHello 0 (a.shares.map fun k => (k.1, k.2.1, ()))) (by simp [helloExts])) (by simp [expressible]) rfl rfl, ?_⟩
    alpn := ?_
    modes := ?_
    cookie_ := ?_
    early := ?_
    psk := ?_ }
  · rw [← hver, hbody]
    have hv2 : wireVersion x = 0x0303 ∨ wireVersion x = 0xfefd := by
      rw [hver]; cases x.datagram <;> simp
    exact safeUnmarshal_ok.1 (C31_client_hello_roundtrip_partial _ _ hv2 rfl hd)
  · rcases a.pskOk with ⟨h1, _, _, h2⟩ | ⟨k, p, bd, t, h1, h3, _, _, h2, _⟩
    · simp only [h1, offeredSuites]; exact h2
    · simp only [h1, offeredSuites]; rw [h2]; exact compatibleSuites_eq h3 _
  · have := a.sharesOk
    generalize a.shares = l at this
    generalize c.dh = n at this
    generalize s.cfg.groups = gs at this
    induction gs generalizing n l with
    | nil => simp only [makeShares, Res.ok.injEq] at this; subst this; rfl
    | cons g gs ih =>
      simp only [makeShares, Res.bind_eq_ok, Res.ok.injEq] at this
      obtain ⟨⟨pub, priv⟩, _, rest, h2, rfl⟩ := this
      have := ih _ _ h2
      simpa using this
  · split
    · rename_i h0
      rw [hany, htypes, h0]
      rw [if_neg (by simp : ¬ ([] : List Bytes).length > 0)]
      cases s.cookie <;> split <;> simp
    · rename_i h0
      refine carries_bodies hn hm (hmem (.alpn s.cfg.nextProtos) ?_) (by simp [expressible]) rfl rfl
      have : s.cfg.nextProtos.length > 0 := List.length_pos_iff.2 h0
      simp only [helloExts, if_pos this]
      simp
  · split
    · rename_i h0
      rw [hany, htypes, h0]
      rw [if_neg (by simp : ¬ ([] : List UInt8).length ≠ 0)]
      cases s.cookie <;> split <;> simp
    · rename_i h0
      refine carries_bodies hn hm (hmem (.pskModes s.cfg.pskModes) ?_) (by simp [expressible]) rfl rfl
      have : s.cfg.pskModes.length ≠ 0 := by simpa using h0
      simp only [helloExts, if_pos this]
      simp
  · cases hc : s.cookie with
    | none =>
      dsimp only
      rw [hany, htypes, hc]
      by_cases h1 : s.cfg.nextProtos.length > 0 <;> by_cases h2 : s.cfg.pskModes.length ≠ 0
      · rw [if_pos h1, if_pos h2]; simp
      · rw [if_pos h1, if_neg h2]; simp
      · rw [if_neg h1, if_pos h2]; simp
      · rw [if_neg h1, if_neg h2]; simp
    | some ck =>
      refine carries_bodies hn hm (hmem (.cookie ck) ?_) (by simp [expressible]) rfl rfl
      simp [helloExts, hc]
  · dsimp only
    rw [hany]
    rcases a.pskOk with ⟨h1, h2, h3, _⟩ | ⟨k, p, bd, t, h1, _, h2, h3, _⟩
    · rw [h1, h2, h3]; simpa using hno42
    · rw [h1, h2, h3, hr]; simp [hno42]
  · rcases a.pskOk with ⟨h1, h2, h3, _⟩ | ⟨k, p, bd, t, h1, h4, h2, h3, _, _, h5, h6⟩
    · rw [h1]
      dsimp only
      rw [hany, h2, h3]; simpa using hno41
    · rw [h1]
      refine ⟨p, _, t, bd, h4, carries_bodies hn hm (b := pskExt k c.now bd) ?_ (by simp [expressible, pskExt]) rfl rfl, h5, h6⟩
      simp [helloBodies, h2]

/-- The key shares in the hello of a client, and the private keys it keeps. -/
def SharesKept (E : Env) (cfg : Config) (w : CWaitSH) (ch : ClientHello) : Prop :=
  ∃ n shares, makeShares E.D n cfg.groups = .ok shares ∧ w.offeredDH = privates shares ∧
    Carries (.keyShare 1) ch.exts (.keyShare 1 0 (shares.map fun k => (k.1, k.2.1, ())))

theorem MadeHello.kept {E : Env} {x x' x'' : Ctx} {c : Coins} {s : CStart} {w : CWaitSH} {acts : List Action}
    (a : MadeHello E x c s w.clientHello x') (h : s.next E x c = .ok (w, acts, x'')) :
    SharesKept E s.cfg w ⟨wireVersion x, a.random, [], a.suites, (helloBodies s a.shares a.early a.psk).map bodyExt⟩ := by
  have hp : ∀ b ∈ a.psk, b.kind.type = 41 := by
    intro b hb
    rcases a.pskOk with ⟨_, h, _⟩ | ⟨k, p, bd, t, _, _, h, _⟩
    · rw [h] at hb; cases hb
    · rw [h] at hb
      simp only [Option.mem_def, Option.some.injEq] at hb
      rw [← hb]; rfl
  refine ⟨c.dh, a.shares, a.sharesOk, ?_, carries_bodies (helloBodies_nodup s a.shares a.early a.psk hp) a.marshals
    (b := .keyShare typeClientHello 0 (a.shares.map fun k => (k.1, k.2.1, ()))) ?_ (by simp [expressible]) rfl rfl⟩
  · obtain ⟨shares, _, _, h1, _, _, ⟨psk, o, _, _, hw, _, _⟩ | ⟨_, _, _, hw, _⟩⟩ := CStart.next_ok h
    all_goals
      rw [a.sharesOk, Res.ok.injEq] at h1
      exact (congrArg CWaitSH.offeredDH hw).trans (congrArg privates h1.symm)
  · simp only [helloBodies, List.mem_append]
    exact Or.inl (Or.inl (by simp [helloExts]))

/-- The hello a client sends. -/
theorem CStart.next_offer {E : Env} (hP : E.P.Sized) {x x' : Ctx} {c : Coins} {s : CStart} {w : CWaitSH} {acts : List Action}
    (h : s.next E x c = .ok (w, acts, x')) (hr : s.retry.isNone = s.cookie.isNone) :
    ∃ ch, ClientOffer E x.datagram s.cfg s.cfg.suites s.cookie w.clientHello ch ∧ SharesKept E s.cfg w ch := by
  obtain ⟨a⟩ := CStart.next_hello hP h
  exact ⟨_, a.offer hr, a.kept h⟩

theorem cookie_found {el : List Ext} {c : Bytes} (h : findExt .cookie el = .ok (some (.cookie c))) :
    ∃ d, (dataOf 44 el).head? = some d ∧ ExtKind.cookie.unmarshal d = .ok (.cookie c, d.length) := by
  have h' := (C30_find .cookie el).symm.trans h
  rw [show ExtKind.cookie.type = 44 from rfl] at h'
  split at h'
  · cases h'
  · rename_i d ds hd
    rw [hd, List.head?_cons]
    simp only [Res.bind_eq_ok, Res.ok.injEq, Option.some.injEq] at h'
    obtain ⟨b, h1, rfl⟩ := h'
    exact ⟨d, rfl, safeUnmarshal_ok.1 h1⟩

theorem offer_suites {E : Env} {d : Bool} {cfg : Config} {l suites : List UInt16} {cookie : Option Bytes} {m : Msg}
    {ch : ClientHello} (h : ClientOffer E d { cfg with suites := l } suites cookie m ch) : ClientOffer E d cfg suites cookie m ch :=
  ⟨h.type, h.length, h.body, h.version, h.sessionId, h.suites_eq, h.versions, h.name, h.groups, h.schemes, h.shares, h.alpn, h.modes,
    h.cookie_, h.early, h.psk⟩

theorem only_two {el : List Ext} {d : Bytes} (h : el.length = 2) (h1 : (dataOf 44 el).head? = some d) (h2 : dataOf 43 el ≠ []) :
    ∀ e ∈ el, e.1 = 44 ∨ e.1 = 43 := by
  match el, h with
  | [a, b], _ =>
    have ha : a.1 = 44 ∨ b.1 = 44 := by
      by_cases h : a.1 = 44
      · exact Or.inl h
      · by_cases h' : b.1 = 44
        · exact Or.inr h'
        · simp [dataOf, h, h'] at h1
    have hb : a.1 = 43 ∨ b.1 = 43 := by
      by_cases h : a.1 = 43
      · exact Or.inl h
      · by_cases h' : b.1 = 43
        · exact Or.inr h'
        · simp [dataOf, h, h'] at h2
    intro e he
    simp only [List.mem_cons, List.not_mem_nil, or_false] at he
    rcases he with rfl | rfl <;> rcases ha with ha | ha <;> rcases hb with hb | hb <;> simp_all

theorem last_offer {E : Env} {d : Bool} {cfg : Config} {rs : List Msg} {m : Msg} {ch : ClientHello} {suites : List UInt16}
    (h : LastHello E d cfg rs m ch suites) : ∃ ck, ClientOffer E d cfg suites ck m ch := by
  cases h with
  | first _ _ h => exact ⟨_, h⟩
  | retry _ _ _ _ _ _ _ _ h => exact ⟨_, h⟩

/-- The last hello of a client that waits for a ServerHello. -/
theorem lastHello_waitSH {E : Env} (hP : E.P.Sized) {x : Ctx} {cfg : Config} {es : List (Event × Coins)} {w : CWaitSH}
    {acts : List Action} {x' : Ctx} (h : AtSH E x cfg es w acts x') :
    ∃ ch, LastHello E x.datagram cfg (received es) w.clientHello ch w.cfg.suites ∧ (sent acts).getLast? = some w.clientHello ∧
      SharesKept E cfg w ch := by
  obtain ⟨st, c0, x0, a0, hst, hx0, hcase⟩ := h.made
  obtain ⟨_, hcfg, _, _⟩ := CStart.next_sent hst
  rcases hcase with ⟨rfl, rfl, hs⟩ | hR
  · obtain ⟨ch, hch, hk⟩ := CStart.next_offer hP hst rfl
    rw [hx0] at hch
    exact ⟨ch, by rw [hcfg]; exact .first _ _ hch, by rw [hs]; rfl, hk⟩
  · obtain ⟨pre, hrr, prev, ch0, body, p, ck, hrs, hhs, _, ht, ⟨n, hn⟩, hr, _, hoff, hck, ⟨hv1, hv2, hvs⟩, htwo, hst_eq⟩ := hR
    obtain ⟨ch, hch, hk⟩ := CStart.next_offer hP hst (by rw [hst_eq]; rfl)
    rw [hx0, hst_eq] at hch
    rw [hst_eq] at hk
    obtain ⟨d, hd1, hd2⟩ := cookie_found hck
    refine ⟨ch, ?_, by rw [hhs]; simp, hk⟩
    rw [hcfg, hst_eq, hrs]
    refine .retry _ _ _ ck _ _ ⟨retry_letter ht hn hr, _, n, d, hn, rfl, hd1, hd2, only_two htwo hd1 ?_⟩ hoff (offer_suites hch)
    intro h0
    have h' := (C30_find (.supportedVersions typeServerHello) body.exts).symm.trans hvs
    rw [show (ExtKind.supportedVersions typeServerHello).type = 43 from rfl, h0] at h'
    cases h'

end Verif.Machine
