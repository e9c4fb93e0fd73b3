import Verif.Spec.Panics
import Verif.Props.Truncated
import Verif.Props.Negotiation
import Verif.Props.PskNegotiation
import Verif.Machine.ClientView
import Verif.Machine.ServerView

/-
Which steps of the state machines cannot panic.
-/

namespace Verif.Machine

open Verif Verif.Crypto Verif.Messages Verif.Negotiation Verif.Handshake Verif.Spec

theorem safe_orAlert {α : Type} {a : Nat} {r : Res α} (h : r.Safe) : (orAlert a r).Safe := by
  cases r <;> first | exact h | trivial

theorem safe_alert {α : Type} (a : Nat) : (alert a : Res α).Safe := trivial

/-! ### Making messages -/

theorem Body.marshal_safe (b : Body) : b.marshal.Safe := by
  cases b <;> simp only [Body.marshal, ServerHello.marshal, CertificateMsg.marshal, CertRequest.marshal, CertVerify.marshal,
    Ticket.marshal, Res.safe_ok] <;> try exact Syntax.C06_marshal_safe _ _
  · unfold ClientHello.marshal; split <;> exact Syntax.C06_marshal_safe _ _
  · unfold Finished.marshal; split <;> trivial

theorem mkMsg_safe (x : Ctx) (b : Body) : (mkMsg x b).Safe :=
  Res.safe_bind (Body.marshal_safe b) fun _ _ => trivial

/-- What an extension needs to be marshalled without a panic (extensions.go:573-582). -/
def Marshallable : ExtBody → Prop
  | .supportedVersions _ vs => vs ≠ []
  | _ => True

theorem ExtBody.marshal_safe {b : ExtBody} (h : Marshallable b) : b.marshal.Safe := by
  cases b <;> simp only [ExtBody.marshal, Res.safe_ok] <;> try exact Syntax.C06_marshal_safe _ _
  · split
    · split
      · exact Syntax.C06_marshal_safe _ _
      · trivial
    · split
      · split
        · trivial
        · exact Syntax.C06_marshal_safe _ _
      · split
        · split
          · split
            · exact Syntax.C06_marshal_safe _ _
            · trivial
          · trivial
        · trivial
  · split
    · exact Syntax.C06_marshal_safe _ _
    · split
      · split
        · trivial
        · exact Syntax.C06_marshal_safe _ _
      · trivial
  · split
    · exact Syntax.C06_marshal_safe _ _
    · split
      · split
        · exact absurd rfl h
        · exact Syntax.C06_marshal_safe _ _
      · trivial

theorem addExt_safe {el : List Ext} {b : ExtBody} (h : Marshallable b) : (addExt el b).Safe :=
  Res.safe_bind (ExtBody.marshal_safe h) fun _ _ => trivial

theorem addAll_safe : ∀ {bs : List ExtBody} {el : List Ext}, (∀ b ∈ bs, Marshallable b) → (addAll el bs).Safe
  | [], _, _ => trivial
  | b :: bs, el, h =>
    Res.safe_bind (addExt_safe (h b (by simp))) fun _ _ => addAll_safe fun b' hb => h b' (by simp [hb])

theorem addIgnore_safe {el : List Ext} {b : ExtBody} (h : Marshallable b) : (addIgnore el b).Safe := by
  have := addExt_safe (el := el) h
  unfold addIgnore
  split
  · trivial
  · exact this

theorem helloExts_marshallable (s : CStart) (shares : List (UInt16 × Bytes × Bytes)) :
    ∀ b ∈ helloExts s shares, Marshallable b := by
  intro b hb
  simp only [helloExts, List.mem_append, List.mem_cons, List.not_mem_nil, or_false] at hb
  rcases hb with ((hb | hb) | hb) | hb
  · rcases hb with rfl | rfl | rfl | rfl | rfl <;> simp [Marshallable]
  · split at hb
    · simp only [List.mem_cons, List.not_mem_nil, or_false] at hb; subst hb; trivial
    · cases hb
  · split at hb
    · simp only [List.mem_cons, List.not_mem_nil, or_false] at hb; subst hb; trivial
    · cases hb
  · split at hb
    · simp only [List.mem_cons, List.not_mem_nil, or_false] at hb; subst hb; trivial
    · cases hb

/-! ### The client's first state -/

theorem makeShares_safe (D : Dh) : ∀ (gs : List UInt16) (n : Nat), (makeShares D n gs).Safe
  | [], _ => trivial
  | g :: gs, n => by
    refine Res.safe_bind (safe_orAlert ?_) fun _ _ => Res.safe_bind (makeShares_safe D gs (n + 1)) fun _ _ => trivial
    unfold newKeyShare
    split
    · split <;> trivial
    · trivial

/-- Replacing the data of an extension by data of the same length does not change whether the list can be encoded. -/
theorem encExts_setExt {ty : UInt16} {d d' : Bytes} (hl : d.length = d'.length) : ∀ {el : List Ext} {E : Bytes},
    encExts (setExt ty d el) = .ok E → ∃ E', encExts (setExt ty d' el) = .ok E' ∧ E'.length = E.length
  | [], E, h => by
    simp only [encExts, setExt, Syntax.encodeAll, Res.bind_eq_ok, extTy_encode, Res.ok.injEq] at h ⊢
    obtain ⟨a, ⟨h1, rfl⟩, b, rfl, rfl⟩ := h
    exact ⟨_, ⟨_, ⟨by omega, rfl⟩, [], rfl, rfl⟩, by simp [hl]⟩
  | e :: el, E, h => by
    unfold setExt at h ⊢
    split
    · rename_i he
      rw [if_pos he] at h
      simp only [encExts, Syntax.encodeAll, Res.bind_eq_ok, extTy_encode, Res.ok.injEq] at h ⊢
      obtain ⟨a, ⟨h1, rfl⟩, b, h2, rfl⟩ := h
      exact ⟨_, ⟨_, ⟨by omega, rfl⟩, b, h2, rfl⟩, by simp [hl]⟩
    · rename_i he
      rw [if_neg he] at h
      simp only [encExts, Syntax.encodeAll, Res.bind_eq_ok, Res.ok.injEq] at h ⊢
      obtain ⟨a, ha, b, hb, rfl⟩ := h
      obtain ⟨b', hb', hl'⟩ := encExts_setExt hl hb
      exact ⟨_, ⟨a, ha, b', hb', rfl⟩, by simp [hl']⟩

theorem setExt_setExt (ty : UInt16) (d d' : Bytes) : ∀ el : List Ext, setExt ty d' (setExt ty d el) = setExt ty d' el
  | [] => by simp [setExt]
  | e :: el => by
    rw [setExt]
    split
    · rename_i h; simp [setExt, h]
    · rename_i h; simp [setExt, h, setExt_setExt ty d d' el]

theorem marshal_setExt {v : UInt16} {r : Random} {sid : Bytes} {cs : List UInt16} {el : List Ext} {ty : UInt16}
    {d d' bs : Bytes} (hl : d.length = d'.length) (h : ClientHello.marshal ⟨v, r, sid, cs, setExt ty d el⟩ = .ok bs) :
    ∃ bs', ClientHello.marshal ⟨v, r, sid, cs, setExt ty d' el⟩ = .ok bs' := by
  obtain ⟨hd, hs⟩ := ClientHello.marshal_split v r sid cs
  obtain ⟨a, E, h1, h2, h3, rfl⟩ := (hs _ _).1 h
  obtain ⟨E', h4, h5⟩ := encExts_setExt hl h2
  exact ⟨_, (hs _ _).2 ⟨a, E', h1, h4, by omega, rfl⟩⟩

/-- Whether the extension with one binder can be marshalled, and how long it is, depends on the length of the binder only. -/
theorem pskExt_marshal {psk : Psk} {now : Int} {b b' d : Bytes} (hl : b.length = b'.length)
    (h : (pskExt psk now b).marshal = .ok d) : ∃ d', (pskExt psk now b').marshal = .ok d' ∧ d.length = d'.length := by
  simp only [pskExt, ExtBody.marshal, if_true] at h ⊢
  obtain ⟨i, y, h1, h2, rfl⟩ := pskClient_split.1 h
  have hb : ∀ (c y : Bytes), binderTy.slice.encode { headerSize := 2, minSize := 33 } [(c, ())] = .ok y ↔
      (32 ≤ c.length ∧ c.length < 256) ∧ y = beBytes 2 (1 + c.length) ++ (beBytes 1 c.length ++ c) := by
    intro c y
    have h := fun n y => @encodeLength_fixed n 2 33 0 (by decide) y
    simp only [Int.cast_ofNat_Int] at h
    simp only [Syntax.Ty.encode, Syntax.encodeAll, Res.bind_eq_ok, binder_encode, Res.ok.injEq, h]
    constructor
    · rintro ⟨_, ⟨_, ⟨h1, h2, rfl⟩, _, rfl, rfl⟩, l, ⟨-, -, -, rfl⟩, rfl⟩
      exact ⟨⟨h1, h2⟩, by simp⟩
    · rintro ⟨⟨h1, h2⟩, rfl⟩
      exact ⟨_, ⟨_, ⟨h1, h2, rfl⟩, _, rfl, rfl⟩, _, ⟨by simp, by simp; omega, by simp; omega, rfl⟩, by simp⟩
  obtain ⟨⟨h3, h4⟩, rfl⟩ := (hb _ _).1 h2
  exact ⟨_, pskClient_split.2 ⟨i, _, h1, (hb _ _).2 ⟨⟨by omega, by omega⟩, rfl⟩, rfl⟩, by simp [hl]⟩

theorem ClientHello.truncated_marshals {ch : ClientHello} {t : Bytes} (h : ch.truncated = .ok t) :
    ∃ bs, ch.marshal = .ok bs := by
  unfold ClientHello.truncated at h
  split at h
  · cases h
  · split at h
    · cases h
    · obtain ⟨bs, h1, -⟩ := Res.bind_eq_ok.1 h
      exact ⟨bs, h1⟩

theorem offerPsk_safe {E : Env} (hP : E.P.Sized) (x : Ctx) (cfg : Config) (sendEarly : Bool) (now : Int) (psk : Psk)
    (ch : ClientHello) : (offerPsk E x cfg sendEarly now psk ch).Safe := by
  unfold offerPsk
  split
  · trivial
  · rename_i p hp
    have hz := suiteParams_size hp
    refine Res.safe_bind ?_ fun exts _ => ?_
    · split
      · exact safe_orAlert (addExt_safe trivial)
      · trivial
    split
    · trivial
    refine Res.safe_bind (addIgnore_safe trivial) fun exts0 h0 => ?_
    dsimp only
    refine Res.safe_bind (by rw [deriveSecret_eq E.P hP _ hz]; trivial) fun bk _ => ?_
    refine Res.safe_bind (safe_orAlert (C32_truncated_safe _)) fun trunc ht => ?_
    rw [orAlert_ok] at ht
    rw [computeFinishedData_eq E.P hP _ hz, Res.bind_ok]
    refine Res.safe_bind (addIgnore_safe trivial) fun exts1 h1 => ?_
    obtain ⟨bs, hbs⟩ := ClientHello.truncated_marshals ht
    have hm : ∃ bs', ClientHello.marshal { ch with suites := compatibleSuites p.hash ch.suites, exts := exts1 } = .ok bs' := by
      have hlen : (zeros p.hash).length = (finishedMac E.P p.hash bk trunc).length := by
        simp [zeros, finishedMac, hP.hmac]
      cases h2 : (pskExt psk now (zeros p.hash)).marshal with
      | ok d =>
        obtain ⟨d', h3, h4⟩ := pskExt_marshal hlen h2
        simp only [addIgnore, addExt, h2, Res.bind_ok, Res.ok.injEq] at h0
        simp only [addIgnore, addExt, h3, Res.bind_ok, Res.ok.injEq] at h1
        subst h0; subst h1
        have hk : (pskExt psk now (finishedMac E.P p.hash bk trunc)).kind.type = (pskExt psk now (zeros p.hash)).kind.type := rfl
        rw [hk, setExt_setExt]
        exact marshal_setExt h4 hbs
      | err e =>
        cases h3 : (pskExt psk now (finishedMac E.P p.hash bk trunc)).marshal with
        | ok d =>
          obtain ⟨d', h4, -⟩ := pskExt_marshal hlen.symm h3
          rw [h2] at h4; cases h4
        | err e' =>
          simp only [addIgnore, addExt, h2, Res.bind, Res.ok.injEq] at h0
          simp only [addIgnore, addExt, h3, Res.bind, Res.ok.injEq] at h1
          subst h0; subst h1
          exact ⟨bs, hbs⟩
        | panic => have := ExtBody.marshal_safe (b := pskExt psk now (finishedMac E.P p.hash bk trunc)) trivial; rw [h3] at this; cases this
        | diverge => have := ExtBody.marshal_safe (b := pskExt psk now (finishedMac E.P p.hash bk trunc)) trivial; rw [h3] at this; cases this
      | panic => have := ExtBody.marshal_safe (b := pskExt psk now (zeros p.hash)) trivial; rw [h2] at this; cases this
      | diverge => have := ExtBody.marshal_safe (b := pskExt psk now (zeros p.hash)) trivial; rw [h2] at this; cases this
    obtain ⟨bs', hbs'⟩ := hm
    have hmk : ∃ y, mkMsg x (.clientHello { ch with suites := compatibleSuites p.hash ch.suites, exts := exts1 }) = .ok y := by
      simp only [mkMsg, Body.marshal]
      rw [hbs']
      exact ⟨_, rfl⟩
    obtain ⟨⟨m, x'⟩, hmk⟩ := hmk
    rw [hmk]
    dsimp only
    rw [Machine.earlyTraffic_eq E.P hP _ hz, Res.bind_ok, makeTrafficKeys_eq E.P hP _ hz]
    trivial

theorem CStart.next_safe {E : Env} (hP : E.P.Sized) (x : Ctx) (c : Coins) (s : CStart) : (s.next E x c).Safe := by
  unfold CStart.next
  refine Res.safe_bind (makeShares_safe _ _ _) fun shares _ => ?_
  split
  · trivial
  refine Res.safe_bind (safe_orAlert (addAll_safe (helloExts_marshallable s shares))) fun exts _ => ?_
  dsimp only
  split
  · exact Res.safe_bind (offerPsk_safe hP _ _ _ _ _ _) fun _ _ => trivial
  · exact Res.safe_bind (safe_orAlert (mkMsg_safe _ _)) fun _ _ => trivial

/-! ### Reading extensions -/

theorem findExt_kind {k : ExtKind} {el : List Ext} {b : ExtBody} (h : findExt k el = .ok (some b)) :
    b.kind = k ∧ ∃ d, k.unmarshal d = .ok (b, d.length) := by
  rw [C30_find] at h
  split at h
  · cases h
  · rename_i d _ _
    simp only [Res.bind_eq_ok, Res.ok.injEq, Option.some.injEq] at h
    obtain ⟨b', h1, rfl⟩ := h
    have h2 := safeUnmarshal_ok.1 h1
    exact ⟨ExtKind.unmarshal_kind h2, d, h2⟩

theorem serverVersions_one {d : Bytes} {b : ExtBody} {n : Nat}
    (h : ExtKind.unmarshal (.supportedVersions typeServerHello) d = .ok (b, n)) :
    ∃ v, b = .supportedVersions typeServerHello [v] := by
  simp only [ExtKind.unmarshal, typeServerHello, typeClientHello, show ((2 : UInt8) = 1) = False by decide, if_false,
    true_or, if_true, Res.bind_eq_ok, Res.ok.injEq, Prod.mk.injEq] at h
  obtain ⟨⟨v, m⟩, _, h, _⟩ := h
  exact ⟨v.1, h.symm⟩

theorem serverShare_one {d : Bytes} {b : ExtBody} {n : Nat}
    (h : ExtKind.unmarshal (.keyShare typeServerHello) d = .ok (b, n)) : ∃ s, b = .keyShare typeServerHello 0 [s] := by
  simp only [ExtKind.unmarshal, typeServerHello, typeClientHello, typeHelloRetryRequest,
    show ((2 : UInt8) = 1) = False by decide, show ((2 : UInt8) = 6) = False by decide, if_false, if_true,
    Res.bind_eq_ok] at h
  obtain ⟨⟨v, m⟩, _, h⟩ := h
  dsimp only at h
  split at h
  · simp only [Res.ok.injEq, Prod.mk.injEq] at h; exact ⟨v.1, h.1.symm⟩
  · cases h

/-! ### The client's later states -/

theorem isCurve_mem {g : Nat} (h : isCurve g = true) : g ∈ [23, 24, 25] := by
  simpa [isCurve, or_assoc] using h

theorem checkHello_safe (w : CWaitSH) (m : Msg) : (checkHello w m).Safe := by
  unfold checkHello
  split
  · trivial
  refine Res.safe_bind (safe_orAlert (ServerHello.unmarshal_safe _)) fun r _ => ?_
  obtain ⟨sh, n⟩ := r
  dsimp only
  split
  · trivial
  refine Res.safe_bind (safe_orAlert (C32_find_safe _ _)) fun found hf => ?_
  rw [orAlert_ok] at hf
  split
  · split
    · trivial
    · split <;> trivial
  · obtain ⟨_, d, h1⟩ := findExt_kind hf
    obtain ⟨v, h2⟩ := serverVersions_one h1
    cases h2
  · rename_i b h1 h2
    obtain ⟨_, d, h3⟩ := findExt_kind hf
    obtain ⟨v, rfl⟩ := serverVersions_one h3
    exact absurd rfl (h1 _ _ _)
  · trivial

theorem handleRetry_safe {E : Env} {x : Ctx} {w : CWaitSH} {m : Msg} {hrr : ServerHello}
    (hs : ∃ p, suiteParams hrr.suite.toNat = some p) : (handleRetry E x w m hrr).Safe := by
  unfold handleRetry
  refine Res.safe_bind (safe_orAlert (C32_find_safe _ _)) fun found hf => ?_
  rw [orAlert_ok] at hf
  split
  · split
    · trivial
    · obtain ⟨p, hp⟩ := hs
      rw [hp]
      trivial
  · rename_i b h1
    obtain ⟨hk, -⟩ := findExt_kind hf
    cases b <;> first | (exact absurd rfl (h1 _)) | cases hk
  · trivial

theorem keyAgreement_safe {D : Dh} {g : Nat} {pub priv : Bytes} (h : isCurve g = true → D.point g pub = true) :
    (keyAgreement D g pub priv).Safe := by
  unfold keyAgreement
  split
  · rename_i hc
    split
    · trivial
    · rw [if_pos (h hc)]; trivial
  · split
    · split <;> trivial
    · split
      · split <;> trivial
      · trivial

theorem clientDH_safe {E : Env} {w : CWaitSH} {shares : Option (List KeyShareEntry)} (hne : shares ≠ some [])
    (h : ∀ s ss, shares = some (s :: ss) → isCurve s.1.toNat = true → E.D.point s.1.toNat s.2.1 = true) :
    (clientDH E w shares).Safe := by
  unfold clientDH
  split
  · trivial
  · exact absurd rfl hne
  · rename_i s ss
    split
    · trivial
    · rename_i priv _
      have := keyAgreement_safe (priv := priv) (h s ss rfl)
      cases hk : keyAgreement E.D s.1.toNat s.2.1 priv with
      | ok a => trivial
      | err e => trivial
      | panic => rw [hk] at this; cases this
      | diverge => rw [hk] at this; cases this

theorem handleHello_safe {E : Env} (hP : E.P.Sized) {x : Ctx} {w : CWaitSH} {m : Msg} {sh : ServerHello}
    (hpt : ∀ g key, Carries (.keyShare typeServerHello) sh.exts (.keyShare typeServerHello 0 [(g, key, ())]) →
      g.toNat ∈ [23, 24, 25] → E.D.point g.toNat key = true) : (handleHello E x w m sh).Safe := by
  unfold handleHello
  refine Res.safe_bind (safe_orAlert (C32_parse_safe _ _)) fun found hf => ?_
  rw [orAlert_ok] at hf
  have hsh : ∀ l, findShares found = some l → ∃ g key, l = [(g, key, ())] ∧
      Carries (.keyShare typeServerHello) sh.exts (.keyShare typeServerHello 0 [(g, key, ())]) := by
    intro l hl
    obtain ⟨b, ⟨d, hd, hu⟩, hk, hb⟩ := found_carries (k := .keyShare typeServerHello) asShares (by decide) hf (by simp)
      (by intro b hb; cases b <;> simp [asShares] at hb; rfl) hl
    obtain ⟨⟨g, key, _⟩, rfl⟩ := serverShare_one hu
    simp only [asShares, Option.some.injEq] at hb
    exact ⟨g, key, hb.symm, d, hd, hu⟩
  dsimp only
  refine Res.safe_bind (clientDH_safe ?_ ?_) fun r _ => ?_
  · intro h
    obtain ⟨_, _, h1, _⟩ := hsh _ h
    cases h1
  · intro s ss h hc
    obtain ⟨g, key, h1, h2⟩ := hsh _ h
    cases h1
    exact hpt g key h2 (isCurve_mem hc)
  · obtain ⟨usingDH, dhs⟩ := r
    dsimp only
    split
    · trivial
    · rename_i p hp
      have hz := suiteParams_size hp
      rw [hsSecrets_eq E.P hP _ hz, Res.bind_ok, makeTrafficKeys_eq E.P hP _ hz, Res.bind_ok, makeTrafficKeys_eq E.P hP _ hz]
      trivial

theorem leafKey_safe {E : Env} {c : CertificateMsg} (hne : c.list ≠ []) (hp : ∀ e ∈ c.list, E.parses e.1 = true) :
    (leafKey E c).Safe := by
  unfold leafKey
  split
  · rename_i h; exact absurd h hne
  · rename_i e es he
    have := hp e (by rw [he]; simp)
    unfold Env.parses at this
    cases hx : E.x509 e.1 with
    | none => rw [hx] at this; cases this
    | some c => trivial

theorem certificate_parses {parses : Bytes → Bool} {bs : Bytes} {c : CertificateMsg} {n : Nat}
    (h : CertificateMsg.unmarshal parses bs = .ok (c, n)) : ∀ e ∈ c.list, parses e.1 = true := by
  simp only [CertificateMsg.unmarshal, Res.bind_eq_ok] at h
  obtain ⟨⟨⟨ctx, l, _⟩, n'⟩, _, h⟩ := h
  dsimp only at h
  split at h
  · rename_i ha
    simp only [Res.ok.injEq, Prod.mk.injEq] at h
    obtain ⟨rfl, _⟩ := h
    simpa using ha
  · cases h

theorem sign_safe (P : Prims) (S : Sig) (a : UInt16) (k : PrivKey) (h : Bytes) : (CertVerify.sign P S a k h).Safe := by
  refine Res.safe_bind ?_ fun _ _ => trivial
  unfold Crypto.sign
  split
  · trivial
  dsimp only
  split
  · split
    · split <;> trivial
    · trivial
  · split
    · trivial
    · split
      · trivial
      · split <;> trivial
  · trivial

theorem certByScheme_safe (schemes : List Nat) : ∀ certs, (certByScheme schemes certs).Safe
  | [] => trivial
  | c :: cs => by
    unfold certByScheme
    split
    · trivial
    · exact certByScheme_safe schemes cs

theorem clientAuth_safe {E : Env} {x : Ctx} {s : CWaitFinished} {t : Bytes}
    (h : s.params.usingClientAuth = true → s.request ≠ none) : (clientAuth E x s t).Safe := by
  unfold clientAuth
  split
  · rename_i hu
    split
    · rename_i hr; exact absurd hr (h hu)
    · refine Res.safe_bind (safe_orAlert (C32_find_safe _ _)) fun found hf => ?_
      rw [orAlert_ok] at hf
      split
      · rename_i schemes
        have hcs := certByScheme_safe (schemes.map (·.toNat)) s.certificates
        have hc : certificate none (schemes.map (·.toNat)) s.certificates =
          certByScheme (schemes.map (·.toNat)) s.certificates := rfl
        rw [hc]
        split
        · exact Res.safe_bind (safe_orAlert (mkMsg_safe _ _)) fun _ _ => trivial
        · refine Res.safe_bind (safe_orAlert (mkMsg_safe _ _)) fun _ _ => ?_
          refine Res.safe_bind (safe_orAlert (sign_safe _ _ _ _ _)) fun _ _ => ?_
          exact Res.safe_bind (safe_orAlert (mkMsg_safe _ _)) fun _ _ => trivial
        · rename_i hk; rw [hk] at hcs; cases hcs
        · rename_i hk; rw [hk] at hcs; cases hcs
      · rename_i b h1
        obtain ⟨hk, -⟩ := findExt_kind hf
        cases b <;> first | (exact absurd rfl (h1 _)) | cases hk
      · trivial
  · trivial

theorem clientEOED_safe {E : Env} (hP : E.P.Sized) {x : Ctx} {s : CWaitFinished} {t : Bytes} (hz : 0 < s.sec.cp.hash.size) :
    (clientEOED E x s t).Safe := by
  unfold clientEOED
  split
  · refine Res.safe_bind (mkMsg_safe _ _) fun _ _ => ?_
    dsimp only
    rw [makeTrafficKeys_eq E.P hP _ hz]
    trivial
  · trivial

theorem Connected.keyUpdate_safe {E : Env} (hP : E.P.Sized) {x : Ctx} {s : Connected} {r : UInt8} (hz : 0 < s.cp.hash.size) :
    (s.keyUpdate E x r).Safe := by
  unfold Connected.keyUpdate nextSecret
  refine Res.safe_bind ?_ fun a _ => ?_
  · split <;> rw [hkdfExpandLabel_eq E.P hP _ hz] <;> trivial
  · dsimp only
    rw [makeTrafficKeys_eq E.P hP _ hz, Res.bind_ok]
    exact Res.safe_bind (safe_orAlert (mkMsg_safe _ _)) fun _ _ => trivial

theorem Connected.process_safe {E : Env} (hP : E.P.Sized) {x : Ctx} {s : Connected} {now : Int} {m : Msg}
    (hz : 0 < s.cp.hash.size) : (s.process E x now m).Safe := by
  unfold Connected.process nextSecret
  refine Res.safe_bind (safe_orAlert (C32_body_safe _ _ _)) fun b _ => ?_
  split
  · dsimp only
    refine Res.safe_bind ?_ fun a ha => ?_
    · split <;> rw [hkdfExpandLabel_eq E.P hP _ hz] <;> trivial
    · have hcp : a.2.cp = s.cp := by
        split at ha <;> rw [hkdfExpandLabel_eq E.P hP _ hz] at ha <;> cases ha <;> rfl
      rw [makeTrafficKeys_eq E.P hP _ hz, Res.bind_ok]
      split
      · exact Res.safe_bind (Connected.keyUpdate_safe hP (by rw [hcp]; exact hz)) fun _ _ => trivial
      · trivial
  · split
    · trivial
    · unfold ticketPsk
      rw [hkdfExpandLabel_eq E.P hP _ hz]
      trivial
  · trivial

theorem Connected.process_cp {E : Env} {x x' : Ctx} {s s' : Connected} {now : Int} {m : Msg} {acts : List Action}
    (h : s.process E x now m = .ok (s', acts, x')) : s'.cp = s.cp := by
  rcases Connected.process_ok h with ⟨r, t, s1, keys, _, _, _, hs1, _, ⟨_, acts', h1, _⟩ | ⟨_, rfl, _⟩⟩ |
    ⟨_, _, _, _, _, _, rfl, _⟩
  · obtain ⟨_, _, _, _, rfl, _⟩ := Connected.keyUpdate_ok h1
    subst hs1
    cases hc : s.isClient <;> simp [hc]
  · subst hs1; split <;> rfl
  · rfl

/-- What keeps the client's states from panicking. -/
def CGood (E : Env) : CState → Prop
  | .start _ => False
  | .waitSH w => (∀ s ∈ w.cfg.suites, ∃ p, suiteParams s.toNat = some p) ∧ w.params.usingClientAuth = false
  | .waitEE s => 0 < s.sec.cp.hash.size ∧ s.params.usingClientAuth = false
  | .waitCertCR s => 0 < s.sec.cp.hash.size ∧ s.params.usingClientAuth = false
  | .waitCert s => 0 < s.sec.cp.hash.size
  | .waitCV s => 0 < s.sec.cp.hash.size ∧ s.cert.list ≠ [] ∧ (∀ e ∈ s.cert.list, E.parses e.1 = true) ∧
      (s.params.usingClientAuth = true → s.request ≠ none)
  | .waitFinished s => 0 < s.sec.cp.hash.size ∧ (s.params.usingClientAuth = true → s.request ≠ none)
  | .connected s => 0 < s.cp.hash.size

theorem CGood.step_safe {E : Env} (hP : E.P.Sized) {x : Ctx} {c : Coins} {s : CState} {e : Event} (h : CGood E s)
    (hm : ∀ m, e = .msg m → HarmlessToClient E m) : (s.step E x c e).Safe := by
  unfold CState.step
  cases e with
  | bad => trivial
  | appData d => cases s <;> trivial
  | msg m =>
    have hm := hm m rfl
    dsimp only
    cases s with
    | start s => cases h
    | waitSH w =>
      refine Res.safe_bind ?_ fun r _ => ?_
      · refine Res.safe_bind (checkHello_safe _ _) fun sh hc => ?_
        obtain ⟨ht, ⟨n, hu⟩, _, _, hs⟩ := checkHello_ok hc
        split
        · exact Res.safe_bind (handleRetry_safe (h.1 _ hs)) fun _ _ => trivial
        · exact Res.safe_bind (handleHello_safe hP fun g key h1 h2 => hm.point ht sh n g key hu h1 h2) fun _ _ => trivial
      · split
        · exact Res.safe_bind (CStart.next_safe hP _ _ _) fun _ _ => trivial
        · trivial
    | waitEE s =>
      simp only [CWaitEE.next]
      split
      · trivial
      refine Res.safe_bind (safe_orAlert (safeUnmarshal_safe (unmarshalEE_safe _))) fun _ _ => ?_
      refine Res.safe_bind (safe_orAlert (C32_parse_safe _ _)) fun _ _ => ?_
      rw [makeTrafficKeys_eq E.P hP _ (by exact h.1), Res.bind_ok]
      split <;> trivial
    | waitCertCR s =>
      refine Res.safe_bind (safe_orAlert (C32_body_safe _ _ _)) fun _ _ => ?_
      dsimp only
      split
      · trivial
      · split <;> trivial
      · trivial
    | waitCert s =>
      simp only [CWaitCert.next]
      split
      · trivial
      exact Res.safe_bind (safe_orAlert (safeUnmarshal_safe (CertificateMsg.unmarshal_safe _ _))) fun _ _ => trivial
    | waitCV s =>
      simp only [CWaitCV.next]
      split
      · trivial
      refine Res.safe_bind (safe_orAlert (safeUnmarshal_safe (CertVerify.unmarshal_safe _))) fun _ _ => ?_
      refine Res.safe_bind (leafKey_safe h.2.1 h.2.2.1) fun _ _ => ?_
      split
      · trivial
      · split
        · trivial
        · split
          · split <;> trivial
          · trivial
    | waitFinished s =>
      simp only [CWaitFinished.next]
      split
      · trivial
      rw [computeFinishedData_eq E.P hP _ h.1, Res.bind_ok]
      refine Res.safe_bind (safe_orAlert (safeUnmarshal_safe (Finished.unmarshal_safe _ _))) fun _ _ => ?_
      split
      · trivial
      rw [apSecrets_eq E.P hP _ h.1, Res.bind_ok, makeTrafficKeys_eq E.P hP _ h.1, Res.bind_ok,
        makeTrafficKeys_eq E.P hP _ h.1, Res.bind_ok]
      refine Res.safe_bind (clientEOED_safe hP h.1) fun _ _ => ?_
      refine Res.safe_bind (clientAuth_safe h.2) fun _ _ => ?_
      dsimp only
      rw [computeFinishedData_eq E.P hP _ h.1, Res.bind_ok]
      refine Res.safe_bind (safe_orAlert (mkMsg_safe _ _)) fun _ _ => ?_
      rw [deriveSecret_eq E.P hP _ h.1]
      trivial
    | connected s => exact Res.safe_bind (Connected.process_safe hP h) fun _ _ => trivial

theorem CStart.next_good {E : Env} {x x' : Ctx} {c : Coins} {s : CStart} {w : CWaitSH} {acts : List Action}
    (hs : ∀ g ∈ s.cfg.suites, ∃ p, suiteParams g.toNat = some p) (h : s.next E x c = .ok (w, acts, x')) :
    CGood E (.waitSH w) := by
  obtain ⟨_, _, _, _, _, _, ⟨_, _, _, _, rfl, _⟩ | ⟨_, _, _, rfl, _⟩⟩ := CStart.next_ok h <;> exact ⟨hs, rfl⟩

theorem eeParams_clientAuth (p : ConnParams) (found : List ExtBody) :
    (eeParams p found).usingClientAuth = p.usingClientAuth := rfl

theorem CGood.step_good {E : Env} {x x' : Ctx} {c : Coins} {s s' : CState} {e : Event} {acts : List Action} (h : CGood E s)
    (hm : ∀ m, e = .msg m → HarmlessToClient E m) (hs : s.step E x c e = .ok (s', acts, x')) : CGood E s' := by
  cases CState.step_ok hs with
  | retry w m hrr st w' acts x' check random handle start =>
    obtain ⟨ck, p, _, _, hp, rfl⟩ := handleRetry_ok handle
    refine CStart.next_good ?_ start
    intro g hg
    simp only [List.mem_cons, List.not_mem_nil, or_false] at hg
    subst hg
    exact ⟨p, hp⟩
  | hello w m sh e acts x' check random handle =>
    obtain ⟨found, usingDH, dhs, p, _, _, _, _, _, hp, _, _, _, rfl, _⟩ := handleHello_ok handle
    exact ⟨suiteParams_size hp, h.2⟩
  | ee s m s' acts x' next =>
    obtain ⟨_, exts, found, keys, _, _, _, _, _, ⟨_, rfl⟩ | ⟨_, rfl⟩⟩ := CWaitEE.next_ok next
    · exact ⟨h.1, fun hu => by rw [eeParams_clientAuth, h.2] at hu; cases hu⟩
    · exact ⟨h.1, h.2⟩
  | certCR s m s' acts x' next =>
    obtain ⟨_, _, ⟨c, ht, hb, rfl⟩ | ⟨r, _, _, _, rfl⟩⟩ := CWaitEE.nextCertCR_ok next
    · have hu := safeUnmarshal_ok.1 (toBody_certificate' (by rw [← ht]; exact hb))
      exact ⟨h.1, (hm m rfl).certificate ht _ _ hu, certificate_parses hu,
        fun hu => by rw [h.2] at hu; cases hu⟩
    · exact h.1
  | cert s m s' acts x' next =>
    obtain ⟨ht, _, _, c, hc, rfl⟩ := CWaitCert.next_ok next
    have hu := safeUnmarshal_ok.1 hc
    exact ⟨h, (hm m rfl).certificate ht _ _ hu, certificate_parses hu, fun _ => by simp⟩
  | cv s m s' acts x' next =>
    obtain ⟨_, _, _, _, _, _, _, _, _, _, rfl⟩ := CWaitCV.next_ok next
    exact ⟨h.1, h.2.2.2⟩
  | finished s m s' acts x' next =>
    obtain ⟨_, _, _, _, _, _, _, _, _, _, _, _, _, _, _, _, _, _, _, _, _, _, _, _, _, _, rfl, _⟩ := CWaitFinished.next_ok next
    exact h.1
  | post s m s' acts x' next =>
    show 0 < s'.cp.hash.size
    rw [Connected.process_cp next]
    exact h
  | data s d => exact h

theorem CGood.run_safe {E : Env} (hP : E.P.Sized) : ∀ (es : List (Event × Coins)) {x : Ctx} {s : CState}, CGood E s →
    (∀ m ∈ received es, HarmlessToClient E m) → (s.run E x es).Safe
  | [], _, _, _, _ => trivial
  | (e, c) :: es, x, s, h, hm => by
    have hm1 : ∀ m, e = .msg m → HarmlessToClient E m := fun m he => hm m (by subst he; simp [received])
    refine Res.safe_bind (h.step_safe hP hm1) fun r hr => ?_
    obtain ⟨s', acts, x'⟩ := r
    refine Res.safe_bind (CGood.run_safe hP es (h.step_good hm1 hr) fun m hme => hm m ?_) fun _ _ => trivial
    cases e <;> simp [received] at hme ⊢ <;> simp [hme]

theorem clientRun_safe {E : Env} (hP : E.P.Sized) {x : Ctx} {cfg : Config} {c : Coins} {es : List (Event × Coins)}
    (hs : ∀ s ∈ cfg.suites, ∃ p, suiteParams s.toNat = some p) (hm : ∀ m ∈ received es, HarmlessToClient E m) :
    (clientRun E x cfg c es).Safe := by
  refine Res.safe_bind (CStart.next_safe hP _ _ _) fun r hr => ?_
  obtain ⟨w, acts, x'⟩ := r
  exact Res.safe_bind (CGood.run_safe hP es (CStart.next_good hs hr) hm) fun _ _ => trivial

/-! ### The server -/

theorem readHello_safe (x : Ctx) (m : Msg) : (readHello x m).Safe := by
  unfold readHello
  split
  · trivial
  refine Res.safe_bind (safe_orAlert (safeUnmarshal_safe (ClientHello.unmarshal_safe _ _))) fun _ _ => ?_
  split
  · trivial
  refine Res.safe_bind (safe_orAlert (C32_parse_safe _ _)) fun _ _ => ?_
  dsimp only
  split
  · trivial
  · split <;> trivial

theorem cookie_carried {el : List Ext} {found : List ExtBody} (h : parseExts el offerKinds = .ok found)
    (hc : (offerOf found).cookie ≠ []) : Carries .cookie el (.cookie (offerOf found).cookie) := by
  cases hf : findCookie found with
  | none => simp [offerOf, hf] at hc
  | some c =>
    obtain ⟨b, h1, h2, h3⟩ := found_carries (k := .cookie) asCookie offerKinds_nodup h (by decide) (by
      intro b hb; cases b <;> simp [asCookie] at hb ⊢; rfl) hf
    cases b <;> simp [asCookie] at h3
    subst h3
    simpa [offerOf, hf] using h1

theorem checkCookie_safe {cfg : Config} {o : Offer} (hne : o.cookie ≠ [] → cfg.cookieProtector ≠ none)
    (hret : ∀ p, cfg.cookieProtector = some p → ProtectorReturns p) : (checkCookie cfg o).Safe := by
  unfold checkCookie
  split
  · rename_i hl
    split
    · rename_i hn; exact absurd hn (hne (by intro h; simp [h] at hl))
    · rename_i prot hp
      refine Res.safe_bind (safe_orAlert ((hret prot hp).2 _)) fun plain _ => ?_
      refine Res.safe_bind ?_ fun r _ => ?_
      · unfold decodeCookie
        have := Syntax.plain_safe (t := cookieStructTy) (by decide) plain
        cases h : Syntax.unmarshal cookieStructTy plain with
        | ok v => trivial
        | err e => dsimp only; split <;> trivial
        | panic => rw [h] at this; cases this
        | diverge => rw [h] at this; cases this
      · dsimp only
        split <;> split <;> (try trivial) <;> split <;> trivial
  · trivial

theorem dh_safe {D : Dh} {groups : List Nat} : ∀ {shares : List Share} {n : Nat},
    (∀ s ∈ shares, isCurve s.group = true → D.point s.group s.key = true) → (Negotiation.dh D groups n shares).Safe
  | [], _, _ => trivial
  | s :: ss, n, h => by
    unfold Negotiation.dh
    rcases dhGroups_spec D s groups n with ⟨k, pub, priv, _, _, _, h1⟩ | ⟨⟨k, h1⟩, _⟩ | ⟨_, _, hc, hp⟩
    · rw [h1]; trivial
    · rw [h1]; exact dh_safe fun s' hs' => h s' (by simp [hs'])
    · rw [h s (by simp) hc] at hp; cases hp

theorem makeRetry_safe (x : Ctx) (suite : UInt16) (sid cookie : Bytes) : (makeRetry x suite sid cookie).Safe := by
  refine Res.safe_bind (addAll_safe ?_) fun _ _ => mkMsg_safe _ _
  intro b hb
  simp only [List.mem_cons, List.not_mem_nil, or_false] at hb
  rcases hb with rfl | rfl <;> simp [Marshallable]

theorem choosePsk_safe {E : Env} (hP : E.P.Sized) {x : Ctx} {cfg : Config} {now : Int} {ch : ClientHello} {o : Offer}
    {first : Option (Bytes × Params)} (hl : o.ids ≠ [] → o.ids.length = o.binders.length) :
    (choosePsk E x cfg now ch o first).Safe := by
  unfold choosePsk
  split
  · rename_i hi
    refine Res.safe_bind ?_ fun r _ => ?_
    · split
      · exact Res.safe_bind (safe_orAlert (makeRetry_safe _ _ _ _)) fun _ _ => trivial
      · trivial
    · obtain ⟨base, x'⟩ := r
      refine Res.safe_bind (safe_orAlert (C32_truncated_safe _)) fun trunc _ => ?_
      refine Res.safe_bind (safe_orAlert ?_) fun _ _ => trivial
      rcases C27_first_known_decides E.P hP now (o.ids.map fun i : PskIdentity => (⟨i.1, i.2.1⟩ : Identity))
        (o.binders.map fun b : BinderEntry => b.1) (base ++ trunc) cfg.psks
        (by simpa using hl (by intro h; simp [h] at hi)) with ⟨_, h1⟩ | ⟨_, _, _, _, _, _, _, _, ⟨_, _, h1⟩ | ⟨_, h1⟩⟩ <;>
      · rw [h1]; trivial
  · trivial

theorem cipherSuite_safe (psk : Option Psk) (supported : List Nat) : ∀ offered, (cipherSuite psk supported offered).Safe
  | [] => trivial
  | s :: ss => by
    unfold cipherSuite
    split
    · split
      · trivial
      · exact cipherSuite_safe _ supported ss
    · split
      · trivial
      · exact cipherSuite_safe _ supported ss

theorem chooseRetry_safe {E : Env} {x : Ctx} {cfg : Config} {c : Coins} {m : Msg} {ch : ClientHello} {o : Offer}
    {suite : UInt16} (hs : ∃ p, suiteParams suite.toNat = some p) (hcfg : SoundServerConfig cfg) (hc : c.appCookie.Safe) :
    (chooseRetry E x cfg c m ch o suite).Safe := by
  unfold chooseRetry
  split
  · rename_i hr
    split
    · exact Res.safe_bind (safe_orAlert (makeRetry_safe _ _ _ _)) fun _ _ => trivial
    · refine Res.safe_bind ?_ fun r _ => ?_
      · split
        · trivial
        · exact Res.safe_bind (safe_orAlert hc) fun _ _ => trivial
      · dsimp only
        split
        · obtain ⟨p, hp⟩ := hs
          rw [hp]
          refine Res.safe_bind (safe_orAlert (Syntax.C06_marshal_safe _ _)) fun plain _ => ?_
          split
          · rename_i hn; exact absurd hn (hcfg.protector hr)
          · rename_i prot hpr
            refine Res.safe_bind (safe_orAlert ((hcfg.returns prot hpr).1 _ _)) fun _ _ => ?_
            exact Res.safe_bind (safe_orAlert (makeRetry_safe _ _ _ _)) fun _ _ => trivial
        · trivial
  · trivial

theorem chooseCert_safe {cfg : Config} {usingPSK : Bool} {o : Offer} (h : ∀ c ∈ cfg.certificates, c.chain ≠ []) :
    (chooseCert cfg usingPSK o).Safe := by
  unfold chooseCert
  split
  · trivial
  · split
    · rename_i name groups algs _ _ _
      refine Res.safe_bind (safe_orAlert ?_) fun _ _ => trivial
      have := C29_selection_partial (some name) (algs.map (·.toNat)) cfg.certificates h
      cases hc : certificate (some name) (algs.map (·.toNat)) cfg.certificates with
      | ok a => trivial
      | err e => trivial
      | panic => rw [hc] at this; cases this
      | diverge => rw [hc] at this; cases this
    · trivial

theorem alpn_safe (p : Option Psk) (offered supported : List Bytes) : (alpn p offered supported).Safe := by
  have := C28_alpn p offered supported
  cases h : alpn p offered supported with
  | ok a => trivial
  | err e => trivial
  | panic => rw [h] at this; cases this
  | diverge => rw [h] at this; cases this

/-- The PSK that was chosen is of a suite mint implements. -/
theorem choosePsk_suite {E : Env} (hP : E.P.Sized) {x x' : Ctx} {cfg : Config} {now : Int} {ch : ClientHello} {o : Offer}
    {first : Option (Bytes × Params)} {i : Nat} {k : Psk} {p : Params}
    (hl : o.ids ≠ [] → o.ids.length = o.binders.length)
    (h : choosePsk E x cfg now ch o first = .ok (some (i, k, p), x')) : suiteParams k.suite = some p := by
  rcases choosePsk_ok h with ⟨_, h1, _⟩ | ⟨hi, base, trunc, _, _, h1⟩
  · cases h1
  · obtain ⟨_, _, _, _, _, h2, _⟩ := C27_selected_proves_possession E.P hP _ _ _ _ _ (by simpa using hl hi) _ _ _ h1
    exact h2

theorem finish_safe {E : Env} (hP : E.P.Sized) {x : Ctx} {s : SStart} {m : Msg} {ch : ClientHello} {o : Offer}
    {firstHello : Option Bytes} {dhc : Option DhChoice} {pskc : Option PskChoice} {usingDH usingPSK : Bool} {suite : UInt16}
    {retry : Option Msg} (hc : ∀ c ∈ s.cfg.certificates, c.chain ≠ []) (hu : usingPSK = true → pskc.isSome)
    (hz : ∀ i k p, pskc = some (i, k, p) → 0 < p.hash.size) :
    (s.finish E x m ch o firstHello dhc pskc usingDH usingPSK suite retry).Safe := by
  unfold SStart.finish
  split
  · trivial
  refine Res.safe_bind (chooseCert_safe hc) fun cert _ => ?_
  refine Res.safe_bind ?_ fun _ _ => ?_
  · unfold serverEarly
    split
    · rename_i he
      have : usingPSK = true := by
        simp only [Negotiation.earlyData, Bool.and_eq_true] at he
        exact he.1.2
      have := hu this
      cases hp : pskc with
      | none => rw [hp] at this; cases this
      | some t =>
        obtain ⟨i, k, p⟩ := t
        dsimp only
        rw [Machine.earlyTraffic_eq E.P hP _ (hz i k p hp)]
        trivial
    · trivial
  · exact Res.safe_bind (safe_orAlert (alpn_safe _ _ _)) fun _ _ => trivial

theorem readHello_facts {x : Ctx} {m : Msg} {ch : ClientHello} {o : Offer} (h : readHello x m = .ok (ch, o)) :
    m.msgType = typeClientHello ∧ (∃ n, ClientHello.unmarshal (wireVersion x) m.body = .ok (ch, n)) ∧
    ∃ found, parseExts ch.exts offerKinds = .ok found ∧ o = offerOf found := by
  obtain ⟨ht, hu, _, found, hf, ho, _⟩ := readHello_ok h
  exact ⟨ht, ⟨_, safeUnmarshal_ok.1 hu⟩, found, hf, ho⟩

theorem SStart.next_safe {E : Env} (hP : E.P.Sized) {x : Ctx} {c : Coins} {s : SStart} {m : Msg}
    (hcfg : SoundServerConfig s.cfg) (hm : HarmlessToServer E s.cfg m) (hc : c.appCookie.Safe) : (s.next E x c m).Safe := by
  unfold SStart.next
  refine Res.safe_bind (readHello_safe _ _) fun r hr => ?_
  obtain ⟨ch, o⟩ := r
  obtain ⟨ht, ⟨n, hu⟩, found, hf, rfl⟩ := readHello_facts hr
  dsimp only
  refine Res.safe_bind (checkCookie_safe (fun hne => hm.cookie ht _ _ _ _ hu (cookie_carried hf hne)) hcfg.returns)
    fun first _ => ?_
  split
  · trivial
  refine Res.safe_bind (dh_safe ?_) fun dhc hd => ?_
  · intro sh hsh hcu
    simp only [List.mem_map] at hsh
    obtain ⟨⟨g, key, _⟩, he, rfl⟩ := hsh
    exact hm.point ht _ _ _ _ g key hu (shares_carried hf he) he (isCurve_mem hcu)
  have hl : (offerOf found).ids ≠ [] → (offerOf found).ids.length = (offerOf found).binders.length :=
    fun h => (psk_carried hf h).2
  refine Res.safe_bind (choosePsk_safe hP hl) fun r hp => ?_
  obtain ⟨pskc, x1⟩ := r
  have hpk : ∀ i k p, pskc = some (i, k, p) → suiteParams k.suite = some p := by
    rintro i k p rfl
    exact choosePsk_suite hP hl hp
  dsimp only
  refine Res.safe_bind (safe_orAlert (cipherSuite_safe _ _ _)) fun suite hs => ?_
  rw [orAlert_ok] at hs
  split
  · trivial
  have hknown : ∃ p, suiteParams (UInt16.ofNat suite).toNat = some p := by
    have hmem : suite ∈ ch.suites.map (·.toNat) ∧ ∃ p, suiteParams suite = some p := by
      cases hpc : pskc with
      | none =>
        rw [hpc] at hs
        obtain ⟨pre, post, h1, h2, _⟩ := (((C28_suite_without_psk _ _).1 _).1 hs)
        obtain ⟨g, hg, rfl⟩ := List.mem_map.1 h2
        exact ⟨by rw [h1]; simp, hcfg.suites g hg⟩
      | some t =>
        obtain ⟨i, k, p⟩ := t
        rw [hpc] at hs
        obtain ⟨rfl, h2⟩ := ((C28_suite_with_psk_partial k _ _).1 _).1 hs
        exact ⟨h2, p, hpk i k p hpc⟩
    obtain ⟨h1, p, h2⟩ := hmem
    obtain ⟨g, -, rfl⟩ := List.mem_map.1 h1
    refine ⟨p, ?_⟩
    rw [UInt16.ofNat_toNat]
    exact h2
  refine Res.safe_bind (chooseRetry_safe hknown hcfg hc) fun r _ => ?_
  obtain ⟨retry, send, x2⟩ := r
  dsimp only
  have hfin : ∀ x' : Ctx, (((SStart.finish E x s m ch (offerOf found) (first.map (·.1)) dhc pskc
      (pskMode dhc.isSome pskc.isSome (offerOf found).modes).1 (pskMode dhc.isSome pskc.isSome (offerOf found).modes).2
      (UInt16.ofNat suite) retry).bind fun n => .ok (.negotiated n, x')) : Res (SStartResult × Ctx)).Safe := by
    intro x'
    refine Res.safe_bind (finish_safe hP hcfg.chains ?_ ?_) fun _ _ => trivial
    · intro h
      exact (C28_psk_mode _ _ _ _ _ rfl).2.1 h
    · rintro i k p rfl
      exact suiteParams_size (hpk i k p rfl)
  split
  · trivial
  · exact hfin x2

/-- A negotiated state has a certificate unless a PSK is used. -/
theorem SStart.next_cert {E : Env} {x x' : Ctx} {c : Coins} {s : SStart} {m : Msg} {n : SNegotiated}
    (h : s.next E x c m = .ok (.negotiated n, x')) : n.params.usingPSK = false → n.cert ≠ none := by
  obtain ⟨f, _, ⟨_, _, _, h1⟩ | ⟨_, n', h1, h2⟩⟩ := SStart.next_ok h
  · cases h1
  · cases h1
    obtain ⟨_, cert, psk, et, proto, hc, _, _, _, rfl⟩ := SStart.finish_ok h2
    intro hu
    dsimp only at hu ⊢
    rcases chooseCert_ok hc with ⟨h3, _⟩ | ⟨_, _, _, _, _, _, _, _, _, rfl⟩
    · rw [hu] at h3; cases h3
    · simp

theorem serverHelloExts_marshallable (s : SNegotiated) : ∀ b ∈ serverHelloExts s, Marshallable b := by
  intro b hb
  simp only [serverHelloExts, List.mem_append, List.mem_cons, List.not_mem_nil, or_false] at hb
  rcases hb with (rfl | hb) | hb
  · simp [Marshallable]
  · split at hb
    · simp only [List.mem_cons, List.not_mem_nil, or_false] at hb; subst hb; trivial
    · cases hb
  · split at hb
    · simp only [List.mem_cons, List.not_mem_nil, or_false] at hb; subst hb; trivial
    · cases hb

theorem encryptedExts_marshallable (s : SNegotiated) : ∀ b ∈ encryptedExts s, Marshallable b := by
  intro b hb
  simp only [encryptedExts, List.mem_append] at hb
  rcases hb with hb | hb
  · split at hb
    · simp only [List.mem_cons, List.not_mem_nil, or_false] at hb; subst hb; trivial
    · cases hb
  · split at hb
    · simp only [List.mem_cons, List.not_mem_nil, or_false] at hb; subst hb; trivial
    · cases hb

theorem serverAuth_safe {E : Env} {x : Ctx} {s : SNegotiated} {h : HashId} {t : Bytes}
    (hc : s.params.usingPSK = false → s.cert ≠ none) : (serverAuth E x s h t).Safe := by
  unfold serverAuth
  split
  · rename_i hu
    refine Res.safe_bind ?_ fun r _ => ?_
    · unfold serverRequest
      split
      · refine Res.safe_bind (safe_orAlert (addExt_safe trivial)) fun _ _ => ?_
        exact Res.safe_bind (safe_orAlert (mkMsg_safe _ _)) fun _ _ => trivial
      · trivial
    · dsimp only
      split
      · rename_i hn; exact absurd hn (hc (by simpa using hu))
      · refine Res.safe_bind (safe_orAlert (mkMsg_safe _ _)) fun _ _ => ?_
        refine Res.safe_bind (safe_orAlert (sign_safe _ _ _ _ _)) fun _ _ => ?_
        exact Res.safe_bind (safe_orAlert (mkMsg_safe _ _)) fun _ _ => trivial
  · trivial

theorem SNegotiated.next_safe {E : Env} (hP : E.P.Sized) {x : Ctx} {c : Coins} {s : SNegotiated}
    (hc : s.params.usingPSK = false → s.cert ≠ none) : (s.next E x c).Safe := by
  unfold SNegotiated.next
  split
  · trivial
  refine Res.safe_bind (safe_orAlert (addAll_safe (serverHelloExts_marshallable s))) fun _ _ => ?_
  refine Res.safe_bind (safe_orAlert (mkMsg_safe _ _)) fun _ _ => ?_
  dsimp only
  split
  · trivial
  rename_i p hp
  have hz := suiteParams_size hp
  rw [hsSecrets_eq E.P hP _ hz, Res.bind_ok, makeTrafficKeys_eq E.P hP _ hz, Res.bind_ok, makeTrafficKeys_eq E.P hP _ hz,
    Res.bind_ok]
  refine Res.safe_bind (safe_orAlert (addAll_safe (encryptedExts_marshallable s))) fun _ _ => ?_
  refine Res.safe_bind (safe_orAlert (mkMsg_safe _ _)) fun _ _ => ?_
  refine Res.safe_bind (serverAuth_safe hc) fun _ _ => ?_
  dsimp only
  rw [computeFinishedData_eq E.P hP _ hz, Res.bind_ok]
  refine Res.safe_bind (mkMsg_safe _ _) fun _ _ => ?_
  rw [apSecrets_eq E.P hP _ hz, Res.bind_ok, makeTrafficKeys_eq E.P hP _ hz, Res.bind_ok]
  split
  · rw [makeTrafficKeys_eq E.P hP _ hz]; trivial
  · split <;> trivial

/-- What keeps the server's states from panicking. -/
def SGood (E : Env) (cfg : Config) : SState → Prop
  | .start s => s.cfg = cfg
  | .negotiated _ => False
  | .waitEOED s => 0 < s.sec.cp.hash.size
  | .readPast => True
  | .waitFlight2 _ => False
  | .waitCert s => 0 < s.sec.cp.hash.size
  | .waitCV s => 0 < s.sec.cp.hash.size ∧ s.cert.list ≠ [] ∧ ∀ e ∈ s.cert.list, E.parses e.1 = true
  | .waitFinished s => 0 < s.sec.cp.hash.size
  | .connected s => 0 < s.cp.hash.size

theorem ne_panic_of_safe {α : Type} {r : Res α} (h : r.Safe) : r ≠ .panic := by
  rintro rfl; cases h

theorem SGood.step_safe {E : Env} (hP : E.P.Sized) {cfg : Config} (hcfg : SoundServerConfig cfg) {x : Ctx} {c : Coins}
    {s : SState} {e : Event} (h : SGood E cfg s) (hm : ∀ m, e = .msg m → HarmlessToServer E cfg m)
    (hc : c.appCookie.Safe) : s.step E x c e ≠ .panic := by
  cases e with
  | bad => cases s <;> simp [SState.step, alert]
  | appData d => cases s <;> simp [SState.step, alert]
  | msg m =>
    have hm := hm m rfl
    cases s with
    | readPast => simp [SState.step]
    | negotiated s => cases h
    | waitFlight2 s => cases h
    | start s =>
      obtain rfl : s.cfg = cfg := h
      refine ne_panic_of_safe (Res.safe_bind (SStart.next_safe hP hcfg hm hc) fun r hr => ?_)
      obtain ⟨r, x1⟩ := r
      cases r with
      | retry hrr => trivial
      | negotiated n => exact Res.safe_bind (SNegotiated.next_safe hP (SStart.next_cert hr)) fun _ _ => trivial
    | waitEOED s =>
      refine ne_panic_of_safe (Res.safe_bind ?_ fun _ _ => trivial)
      unfold SWait.nextEOED
      split
      · trivial
      · split
        · trivial
        · rw [makeTrafficKeys_eq E.P hP _ h]; trivial
    | waitCert s =>
      refine ne_panic_of_safe ?_
      simp only [SState.step, SWait.nextCert]
      split
      · trivial
      refine Res.safe_bind (safe_orAlert (safeUnmarshal_safe (CertificateMsg.unmarshal_safe _ _))) fun _ _ => ?_
      split <;> trivial
    | waitCV s =>
      refine ne_panic_of_safe ?_
      simp only [SState.step, SWaitCV.next]
      split
      · trivial
      refine Res.safe_bind (safe_orAlert (safeUnmarshal_safe (CertVerify.unmarshal_safe _))) fun _ _ => ?_
      refine Res.safe_bind (leafKey_safe h.2.1 h.2.2) fun _ _ => ?_
      split
      · trivial
      · split
        · split <;> trivial
        · trivial
    | waitFinished s =>
      refine ne_panic_of_safe ?_
      simp only [SState.step, SWaitFinished.next]
      split
      · trivial
      refine Res.safe_bind (safe_orAlert (safeUnmarshal_safe (Finished.unmarshal_safe _ _))) fun _ _ => ?_
      rw [computeFinishedData_eq E.P hP _ h, Res.bind_ok]
      split
      · trivial
      rw [deriveSecret_eq E.P hP _ h, Res.bind_ok, makeTrafficKeys_eq E.P hP _ h]
      trivial
    | connected s => exact ne_panic_of_safe (Res.safe_bind (Connected.process_safe hP h) fun _ _ => trivial)

theorem SGood.flight2 {E : Env} {cfg : Config} {s : SWait} (h : 0 < s.sec.cp.hash.size) : SGood E cfg s.nextFlight2 := by
  unfold SWait.nextFlight2
  split <;> exact h

theorem SGood.step_good {E : Env} {cfg : Config} {x x' : Ctx} {c : Coins} {s s' : SState} {e : Event} {acts : List Action}
    (h : SGood E cfg s) (hs : s.step E x c e = .ok (s', acts, x')) : SGood E cfg s' := by
  cases SState.step_ok hs with
  | skip => trivial
  | early s d => exact h
  | retry s m hrr x' next => exact h
  | hello s m n x1 s' acts x2 next neg =>
    obtain ⟨f, _, ⟨_, _, _, rfl, _⟩ | ⟨_, _, rfl, _⟩ | ⟨_, _, rfl, _⟩⟩ := SNegotiated.next_ok neg
    · exact suiteParams_size f.suiteOk
    · trivial
    · exact SGood.flight2 (suiteParams_size f.suiteOk)
  | eoed s m s' acts x' next =>
    obtain ⟨_, _, _, _, _, rfl, _⟩ := SWait.nextEOED_ok next
    exact SGood.flight2 h
  | cert s m s' acts x' next =>
    obtain ⟨_, _, _, c, hc, ⟨_, rfl⟩ | ⟨hne, rfl⟩⟩ := SWait.nextCert_ok next
    · exact h
    · exact ⟨h, hne, certificate_parses (safeUnmarshal_ok.1 hc)⟩
  | cv s m s' acts x' next =>
    obtain ⟨_, _, _, _, _, _, _, _, _, rfl⟩ := SWaitCV.next_ok next
    exact h.1
  | finished s m s' acts x' next =>
    obtain ⟨_, _, _, _, _, _, _, _, _, _, _, rfl, _⟩ := SWaitFinished.next_ok next
    exact h
  | post s m s' acts x' next =>
    show 0 < s'.cp.hash.size
    rw [Connected.process_cp next]
    exact h
  | data s d => exact h

theorem bind_ne_panic {α β : Type} {r : Res α} {f : α → Res β} (hr : r ≠ .panic) (hf : ∀ a, r = .ok a → f a ≠ .panic) :
    r.bind f ≠ .panic := by
  cases r with
  | ok a => exact hf a rfl
  | err e => simp [Res.bind]
  | panic => exact absurd rfl hr
  | diverge => simp [Res.bind]

theorem SGood.run_safe {E : Env} (hP : E.P.Sized) {cfg : Config} (hcfg : SoundServerConfig cfg) :
    ∀ (es : List (Event × Coins)) {x : Ctx} {s : SState}, SGood E cfg s →
    (∀ m ∈ received es, HarmlessToServer E cfg m) → (∀ e ∈ es, e.2.appCookie.Safe) → s.run E x es ≠ .panic
  | [], _, _, _, _, _ => by simp [SState.run]
  | (e, c) :: es, x, s, h, hm, hc => by
    have hm1 : ∀ m, e = .msg m → HarmlessToServer E cfg m := fun m he => hm m (by subst he; simp [received])
    refine bind_ne_panic (h.step_safe hP hcfg hm1 (hc (e, c) (by simp))) fun r hr => ?_
    obtain ⟨s', acts, x'⟩ := r
    refine bind_ne_panic (SGood.run_safe hP hcfg es (h.step_good hr) (fun m hme => hm m ?_)
      fun e' he' => hc e' (by simp [he'])) fun _ _ => by simp
    cases e <;> simp [received] at hme ⊢ <;> simp [hme]

theorem serverRun_ne_panic {E : Env} (hP : E.P.Sized) {x : Ctx} {cfg : Config} {es : List (Event × Coins)}
    (hcfg : SoundServerConfig cfg) (hm : ∀ m ∈ received es, HarmlessToServer E cfg m)
    (hc : ∀ e ∈ es, e.2.appCookie.Safe) : serverRun E x cfg es ≠ .panic :=
  SGood.run_safe hP hcfg es (s := .start ⟨cfg⟩) rfl hm hc

end Verif.Machine
