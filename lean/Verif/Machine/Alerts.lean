import Verif.Machine.Safe
import Verif.Machine.ServerView
import Verif.Props.Wire
import Verif.Spec.AlertCodes

/-
Which alerts the states return: lemmas.
-/

namespace Verif.Machine

open Verif Verif.Crypto Verif.Messages Verif.Negotiation Verif.Handshake Verif.Spec

theorem bind_eq_err {α β : Type} {x : Res α} {f : α → Res β} {e : Err} :
    x.bind f = .err e ↔ x = .err e ∨ ∃ a, x = .ok a ∧ f a = .err e := by
  cases x <;> simp [Res.bind]

theorem orAlert_eq_err {α : Type} {a : Nat} {r : Res α} {e : Err} :
    orAlert a r = .err e ↔ e = .alert a ∧ ∃ e', r = .err e' := by
  cases r <;> simp [orAlert, eq_comm]

theorem alert_eq_err {α : Type} {a b : Nat} : (alert a : Res α) = .err (.alert b) ↔ b = a := by
  simp [alert, eq_comm]

/-! ### What returns no error -/

theorem hkdfExpandLoop_noErr (P : Prims) (h : HashId) (prk info : Bytes) (n : Nat) (e : Err) : ∀ (fuel : Nat) (out t : Bytes) (i : UInt8),
    hkdfExpandLoop P h prk info n fuel out t i ≠ .err e
  | 0, out, t, i => by unfold hkdfExpandLoop; split <;> simp
  | fuel + 1, out, t, i => by
    unfold hkdfExpandLoop
    split
    · exact hkdfExpandLoop_noErr P h prk info n e fuel _ _ _
    · simp

theorem hkdfExpandLabel_noErr (P : Prims) (h : HashId) (s l v : Bytes) (n : Nat) (e : Err) : hkdfExpandLabel P h s l v n ≠ .err e := by
  simp [hkdfExpandLabel, hkdfExpand, bind_eq_err, hkdfExpandLoop_noErr]

theorem deriveSecret_noErr (P : Prims) (h : HashId) (s l v : Bytes) (e : Err) : deriveSecret P h s l v ≠ .err e :=
  hkdfExpandLabel_noErr _ _ _ _ _ _ _

theorem computeFinishedData_noErr (P : Prims) (h : HashId) (k v : Bytes) (e : Err) : computeFinishedData P h k v ≠ .err e := by
  simp [computeFinishedData, bind_eq_err, hkdfExpandLabel_noErr]

theorem makeTrafficKeys_noErr (P : Prims) (p : Params) (s : Bytes) (e : Err) : makeTrafficKeys P p s ≠ .err e := by
  simp [makeTrafficKeys, bind_eq_err, hkdfExpandLabel_noErr]

theorem hsSecrets_noErr (P : Prims) (h : HashId) (s : Bytes) (d : Option Bytes) (t : Bytes) (e : Err) : hsSecrets P h s d t ≠ .err e := by
  simp [hsSecrets, bind_eq_err, deriveSecret_noErr]

theorem apSecrets_noErr (P : Prims) (h : HashId) (s t : Bytes) (e : Err) : apSecrets P h s t ≠ .err e := by
  simp [apSecrets, bind_eq_err, deriveSecret_noErr]

theorem earlyTraffic_noErr (P : Prims) (h : HashId) (s t : Bytes) (e : Err) : earlyTraffic P h s t ≠ .err e :=
  deriveSecret_noErr _ _ _ _ _ _

theorem nextSecret_noErr (P : Prims) (h : HashId) (s t : Bytes) (e : Err) : nextSecret P h s t ≠ .err e := hkdfExpandLabel_noErr _ _ _ _ _ _ _

theorem leafKey_noErr (E : Env) (c : CertificateMsg) (e : Err) : leafKey E c ≠ .err e := by
  unfold leafKey
  split
  · simp
  · split <;> simp

theorem keyAgreement_ne (E : Env) (s : CWaitSH) (shares : Option (List KeyShareEntry)) {a : Nat}
    (h : clientDH E s shares = .err (.alert a)) :
    a = Alert.illegalParameter ∧ ∃ k ks, shares = some (k :: ks) ∧ ∀ o ∈ s.offeredDH, o.1 ≠ k.1 := by
  unfold clientDH at h
  split at h
  · cases h
  · cases h
  · rename_i k ks
    split at h
    · rename_i hl
      rw [alert_eq_err] at h
      refine ⟨h, k, ks, rfl, fun o ho he => ?_⟩
      simp only [lookupDH, Option.map_eq_none_iff, List.find?_eq_none, List.mem_reverse, beq_iff_eq] at hl
      exact hl o ho he
    · split at h <;> cases h

theorem dhGroups_noErr (D : Dh) (s : Share) (e : Err) : ∀ (gs : List Nat) (n : Nat), dhGroups D s n gs ≠ .err e
  | [], n => by simp [dhGroups]
  | g :: gs, n => by
    unfold dhGroups
    split
    · exact dhGroups_noErr D s e gs n
    · split
      · split
        · simp
        · simp
        · exact dhGroups_noErr D s e gs _
      · exact dhGroups_noErr D s e gs _

theorem dh_noErr (D : Dh) (gs : List Nat) (e : Err) : ∀ (l : List Share) (n : Nat), Negotiation.dh D gs n l ≠ .err e
  | [], n => by simp [Negotiation.dh]
  | s :: ss, n => by
    unfold Negotiation.dh
    split
    · simp
    · exact dh_noErr D gs e ss _
    · rename_i e' h; exact absurd h (dhGroups_noErr D s e' gs n)
    · simp
    · simp

/-! ### What does not decode -/

theorem ext_err {k : ExtKind} {d : Bytes} {e : Err} (h : safeUnmarshal k.unmarshal d = .err e) :
    ¬ ∃ b : ExtBody, b.kind = k ∧ ExtensionFits b ∧ GroupsKnown b ∧ d = extensionData b := by
  rintro ⟨b, rfl, h1, h2, rfl⟩
  rw [(C74_extension_accepted_partial h1 h2).2] at h
  cases h

theorem parseExtsFrom_err {el : List Ext} {e : Err} : ∀ {ks : List ExtKind} {found : List ExtBody}, (ks.map ExtKind.type).Nodup →
    (∀ b ∈ found, b.kind.type ∉ ks.map ExtKind.type) → parseExtsFrom el found ks = .err e → BadExtensions el ks
  | [], _, _, _, h => by cases h
  | k :: ks, found, hn, hf, h => by
    have hany : found.any (fun b => b.kind.type == k.type) = false := by
      rw [List.any_eq_false]
      intro b hb h
      rw [beq_iff_eq] at h
      exact hf b hb (by simp [h])
    simp only [List.map_cons, List.nodup_cons] at hn
    have hf' : ∀ b ∈ found, b.kind.type ∉ ks.map ExtKind.type := fun b hb h => hf b hb (by simp at h ⊢; right; exact h)
    have later {f} (hf : ∀ b ∈ f, b.kind.type ∉ ks.map ExtKind.type) (h : parseExtsFrom el f ks = .err e) :
        BadExtensions el (k :: ks) := by
      obtain ⟨k', h1, h2⟩ := parseExtsFrom_err hn.2 hf h
      exact ⟨k', List.mem_cons_of_mem _ h1, h2⟩
    simp only [parseExtsFrom, parseExt_spec, hany] at h
    cases hd : dataOf k.type el with
    | nil =>
      rw [hd] at h
      exact later hf' h
    | cons d ds =>
      rw [hd] at h
      simp only [Bool.false_eq_true, if_false, bind_eq_err, Res.bind_eq_ok] at h
      rcases h with h | ⟨f, ⟨b, h1, h2⟩, h⟩
      · refine ⟨k, List.mem_cons_self, ?_⟩
        rcases h with h | ⟨b, h1, h2⟩
        · exact Or.inr ⟨d, by simp [hd], ext_err h⟩
        · split at h2
          · cases h2
          · rename_i hne
            left
            rw [hd]
            have := List.length_pos_iff.2 hne
            simp
            omega
      · split at h2
        · cases h2
          refine later ?_ h
          intro b' hb'
          rcases List.mem_append.1 hb' with hb' | hb'
          · exact hf' b' hb'
          · rw [List.mem_singleton.1 hb', ExtKind.unmarshal_kind (safeUnmarshal_ok.1 h1)]
            exact hn.1
        · cases h2

theorem parseExts_err {el : List Ext} {ks : List ExtKind} {e : Err} (hn : (ks.map ExtKind.type).Nodup)
    (h : parseExts el ks = .err e) : BadExtensions el ks :=
  parseExtsFrom_err hn (by simp) h

theorem findExt_err {k : ExtKind} {e : Err} : ∀ {el : List Ext}, findExt k el = .err e → BadExtensions el [k]
  | [], h => by cases h
  | x :: el, h => by
    unfold findExt at h
    split at h
    · rename_i hx
      simp only [bind_eq_err, reduceCtorEq, and_false, exists_false, or_false] at h
      exact ⟨k, by simp, Or.inr ⟨x.2.1, by simp [dataOf, hx], ext_err h⟩⟩
    · rename_i hx
      obtain ⟨k', hk', h1⟩ := findExt_err h
      rw [List.mem_singleton] at hk'
      subst hk'
      exact ⟨k', by simp, by rwa [show dataOf k'.type (x :: el) = dataOf k'.type el by simp [dataOf, hx]]⟩

theorem badExtensions_mono {el : List Ext} {ks ks' : List ExtKind} (hs : ∀ k ∈ ks, k ∈ ks') (h : BadExtensions el ks) :
    BadExtensions el ks' := by
  obtain ⟨k, h1, h2⟩ := h
  exact ⟨k, hs k h1, h2⟩

theorem wellFormed_read {d : Bool} {parses : Bytes → Bool} {m : Msg} (h : WellFormed d parses m) :
    ∃ b, Decodes d parses m b ∧ readBody d parses m.msgType m.body = .ok b := by
  obtain ⟨b, h0⟩ := h
  have ⟨h1, h2, h3, h4, h5⟩ := h0
  have ht : m.msgType = b.type := by
    rw [← C74_message_numbers] at h1
    exact UInt8.toNat_inj.1 h1
  exact ⟨b, h0, by rw [h2, ht]; exact C74_message_accepted h3 h4 h5⟩

theorem read_err {d : Bool} {parses : Bytes → Bool} {m : Msg} {e : Err} (h : readBody d parses m.msgType m.body = .err e) :
    ¬ WellFormed d parses m := by
  intro hw
  obtain ⟨b, -, h1⟩ := wellFormed_read hw
  rw [h1] at h
  cases h

theorem read_decodes {d : Bool} {parses : Bytes → Bool} {m : Msg} {b : Body} (hv : VersionFits d b)
    (h : readBody d parses m.msgType m.body = .ok b) : Decodes d parses m b := by
  obtain ⟨h1, h2, h3, h4⟩ := C74_message_only hv h
  exact ⟨h1, h2, h3, hv, h4⟩

theorem toBody_not_hello {parses : Bytes → Bool} {ty : UInt8} {bs : Bytes} {b : Body} (ht : ty ≠ typeClientHello)
    (h : toBody parses ty bs = .ok b) (ch : ClientHello) : b ≠ .clientHello ch := by
  rintro rfl
  simp only [toBody, if_neg ht] at h
  repeat' (split at h)
  all_goals (try simp only [Res.bind_eq_ok, Res.ok.injEq, reduceCtorEq, and_false, exists_false] at h)

/-! ### What fails only with internal_error -/

theorem keyUpdate_noErr {E : Env} {x : Ctx} {s : Connected} {a : Nat} (h : s.keyUpdate E x 0 = .err (.alert a)) : False := by
  unfold Connected.keyUpdate at h
  have hm : ∀ e, mkMsg x (.keyUpdate 0) ≠ .err e := by
    have hf : MessageFits (.keyUpdate 0) := trivial
    simp [mkMsg, C74_message_writable hf rfl]
  dsimp only at h
  split at h <;>
  simp [bind_eq_err, nextSecret_noErr, makeTrafficKeys_noErr, orAlert_eq_err, hm] at h

theorem makeShares_err {D : Dh} {a : Nat} : ∀ {gs : List UInt16} {n : Nat}, makeShares D n gs = .err (.alert a) →
    a = Alert.internalError
  | [], _, h => by cases h
  | g :: gs, n, h => by
    simp only [makeShares, bind_eq_err, orAlert_eq_err, Err.alert.injEq, reduceCtorEq, and_false, exists_false, or_false] at h
    rcases h with ⟨h, -⟩ | ⟨_, -, h⟩
    · exact h
    · exact makeShares_err h

theorem addIgnore_noErr (el : List Ext) (b : ExtBody) (e : Err) : addIgnore el b ≠ .err e := by
  unfold addIgnore
  split
  · simp
  · rename_i hne; exact fun h => hne _ h

theorem offerPsk_err {E : Env} {x : Ctx} {cfg : Config} {early : Bool} {now : Int} {psk : Psk} {ch : ClientHello} {a : Nat}
    (h : offerPsk E x cfg early now psk ch = .err (.alert a)) : a = Alert.internalError := by
  unfold offerPsk at h
  split at h
  · exact alert_eq_err.1 h
  dsimp only at h
  rw [bind_eq_err] at h
  rcases h with h | ⟨_, -, h⟩
  · split at h
    · rw [orAlert_eq_err, Err.alert.injEq] at h
      exact h.1
    · cases h
  split at h
  · exact alert_eq_err.1 h
  simp only [bind_eq_err, addIgnore_noErr, deriveSecret_noErr, computeFinishedData_noErr, orAlert_eq_err, Err.alert.injEq,
    false_or] at h
  obtain ⟨_, -, _, -, ⟨h, -⟩ | ⟨_, -, _, -, _, -, h⟩⟩ := h
  · exact h
  · split at h
    · simp only [bind_eq_err, earlyTraffic_noErr, makeTrafficKeys_noErr, reduceCtorEq, and_false, exists_false, or_false] at h
    · cases h
    · cases h
    · cases h

theorem serverRequest_err {x : Ctx} {s : SNegotiated} {t : Bytes} {a : Nat} (h : serverRequest x s t = .err (.alert a)) :
    a = Alert.internalError := by
  unfold serverRequest at h
  split at h
  · simp only [bind_eq_err, orAlert_eq_err, Err.alert.injEq, reduceCtorEq, and_false, exists_false, or_false] at h
    rcases h with ⟨h, -⟩ | ⟨_, -, h, -⟩ <;> exact h
  · cases h

theorem serverAuth_err {E : Env} {x : Ctx} {s : SNegotiated} {hid : HashId} {t : Bytes} {a : Nat}
    (h : serverAuth E x s hid t = .err (.alert a)) : a = Alert.internalError := by
  unfold serverAuth at h
  split at h
  · rw [bind_eq_err] at h
    rcases h with h | ⟨_, -, h⟩
    · exact serverRequest_err h
    · dsimp only at h
      split at h
      · cases h
      · simp only [bind_eq_err, orAlert_eq_err, Err.alert.injEq, reduceCtorEq, and_false, exists_false, or_false] at h
        rcases h with ⟨h, -⟩ | ⟨_, -, ⟨h, -⟩ | ⟨_, -, h, -⟩⟩ <;> exact h
  · cases h

/-! ### The ClientHello -/

theorem pskFrom_cached {P : Prims} {now : Int} {bs : List Bytes} {ctx : Bytes} {cache : Bytes → Option Psk} {j : Nat} {k : Psk} {p : Params} :
    ∀ {ids : List Identity} {i : Nat}, pskFrom P now bs ctx cache i ids = .ok (some (j, k, p)) →
    ∃ id ∈ ids, cache (hexString id.identity) = some k
  | [], _, h => by cases h
  | id :: ids, i, h => by
    unfold pskFrom at h
    split at h
    · obtain ⟨id', h1, h2⟩ := pskFrom_cached h
      exact ⟨id', List.mem_cons_of_mem _ h1, h2⟩
    · rename_i k' hk
      split at h
      · cases h
      · split at h
        · cases h
        · rw [Res.bind_eq_ok] at h
          obtain ⟨_, -, h⟩ := h
          split at h
          · cases h
          · split at h
            · cases h
            · simp only [Res.ok.injEq, Option.some.injEq, Prod.mk.injEq] at h
              obtain ⟨-, rfl, -⟩ := h
              exact ⟨id, List.mem_cons_self, hk⟩

theorem found_none {α : Type} {el : List Ext} {ks : List ExtKind} {found : List ExtBody} {k : ExtKind}
    (f : ExtBody → Option α) (hn : (ks.map ExtKind.type).Nodup) (h : parseExts el ks = .ok found) (hk : k ∈ ks)
    (hf : ∀ b, (f b).isSome → b.kind.type = k.type) (hs : ∀ b, b.kind = k → (f b).isSome) (hv : found.findSome? f = none) :
    dataOf k.type el = [] := by
  rcases parsed_findSome f hn h hk hf with ⟨h1, _⟩ | ⟨d, b, h1, h2, h3, h4⟩
  · exact h1
  · have := hs b h3
    rw [← h4, hv] at this
    cases this

theorem hasExt_of {k : ExtKind} {el : List Ext} {d : Bytes} (h : dataOf k.type el = [d]) : hasExt k.type el = true := by
  have : d ∈ dataOf k.type el := by rw [h]; simp
  simp only [dataOf, List.mem_map, List.mem_filter] at this
  obtain ⟨e, ⟨h1, h2⟩, -⟩ := this
  exact List.any_eq_true.2 ⟨e, h1, h2⟩

theorem cipherSuite_err {psk : Option Psk} {supported : List Nat} {e : Err} : ∀ {offered : List Nat},
    cipherSuite psk supported offered = .err e → e = .msg
  | [], h => by cases h; rfl
  | s :: ss, h => by
    unfold cipherSuite at h
    split at h
    · split at h
      · cases h
      · exact cipherSuite_err h
    · split at h
      · cases h
      · exact cipherSuite_err h

theorem carried_truncated {ch : ClientHello} (hf : MessageFits (.clientHello ch)) {found : List ExtBody}
    (h : parseExts ch.exts offerKinds = .ok found) (hi : (offerOf found).ids ≠ []) {e : Err} (ht : ch.truncated = .err e) :
    ∀ y, ch.exts.getLast? = some y → y.1 ≠ 41 := by
  intro y hy h41
  obtain ⟨⟨d, hd, hu⟩, -⟩ := psk_carried h hi
  have hm : ∀ e, ch.marshal ≠ .err e := by
    intro e
    have h1 : (Body.clientHello { ch with sessionId := [] }).marshal = .ok _ :=
      C74_message_writable ⟨hf.1, by simp [Between], hf.2.2.1, hf.2.2.2⟩ rfl
    have h2 : (Body.clientHello { ch with sessionId := [] }).marshal = ch.marshal := rfl
    rw [← h2, h1]
    simp
  have hyd : y.2.1 = d := by
    have : y.2.1 ∈ dataOf (ExtKind.type (.preSharedKey 1)) ch.exts := by
      simp only [dataOf, List.mem_map, List.mem_filter]
      exact ⟨y, ⟨List.mem_of_getLast? hy, by rw [h41]; rfl⟩, rfl⟩
    rw [hd] at this
    simpa using this
  unfold ClientHello.truncated at ht
  rw [hy] at ht
  dsimp only at ht
  rw [if_neg (by rw [h41]; decide), bind_eq_err] at ht
  rcases ht with ht | ⟨_, -, ht⟩
  · exact hm _ ht
  · rw [hyd] at ht
    have hu' : ExtKind.unmarshal (.preSharedKey typeClientHello) d = _ := hu
    rw [hu'] at ht
    simp only [Res.bind_ok] at ht
    generalize hn : (match Syntax.marshal bindersTy ((offerOf found).binders, ()) with
      | .ok d => d.length
      | _ => 0) = n at ht
    split at ht <;> split at ht <;> cases ht

end Verif.Machine
