import Verif.Machine.Finish

/-
The hello of a client whose configuration fits, and what a compatible server makes of it.
-/

namespace Verif.Machine

open Verif Verif.Crypto Verif.Messages Verif.Negotiation Verif.Handshake Verif.Spec

variable {E : Env} {d : Bool} {now : Int → Prop}

/-! ### The client -/

theorem makeShares_fits {D : Dh} : ∀ {gs : List UInt16} (n : Nat), (∀ g ∈ gs, DhWorks D g) →
    ∃ shares, makeShares D n gs = .ok shares ∧ shares.map (·.1) = gs
  | [], _, _ => ⟨[], rfl, rfl⟩
  | g :: gs, n, h => by
    obtain ⟨pub, priv, hk⟩ := (h g (by simp)).gen n
    obtain ⟨rest, hr, hm⟩ := makeShares_fits (gs := gs) (n + 1) fun g' hg' => h g' (List.mem_cons_of_mem _ hg')
    exact ⟨(g, pub, priv) :: rest, by simp only [makeShares, hk, orAlert, Res.bind_ok, hr], by simp [hm]⟩

theorem orAlert_val {α : Type} (a : Nat) (v : α) : orAlert a (.ok v) = .ok v := rfl

theorem bodyData_ok {b : ExtBody} {r : Bytes} (h : b.marshal = .ok r) : bodyData b = r := by simp [bodyData, h]

theorem suiteParams_bounds {s : Nat} {p : Params} (h : suiteParams s = some p) : 32 ≤ p.hash.size ∧ p.hash.size < 256 := by
  unfold suiteParams at h
  split at h
  · cases h; decide
  · split at h
    · cases h; decide
    · cases h

/-- The cookie, if there is one, is neither empty nor too long. -/
def CookieFits (s : CStart) : Prop := ∀ k, s.cookie = some k → 0 < k.length ∧ k.length ≤ 10000

/-- The extensions of the hello marshal, and are not too long. -/
theorem helloExts_fits {s : CStart} (hf : ClientFits s.cfg) (hdh : ∀ g ∈ s.cfg.groups, DhWorks E.D g) (hc : CookieFits s)
    {n : Nat} {shares : List (UInt16 × Bytes × Bytes)} (hs : makeShares E.D n s.cfg.groups = .ok shares)
    (hsm : shares.map (·.1) = s.cfg.groups) :
    (∀ b ∈ helloExts s shares, b.marshal = .ok (bodyData b)) ∧ extsSize ((helloExts s shares).map bodyExt) ≤ 50006 := by
  have hlen : shares.length = s.cfg.groups.length := by rw [← hsm, List.length_map]
  obtain ⟨d1, m1, l1⟩ : ∃ r, (ExtBody.supportedVersions typeClientHello [tls13Version]).marshal = .ok r ∧ r.length = 3 := ⟨[2, 3, 4], by decide, rfl⟩
  obtain ⟨d2, m2, l2⟩ := fits_serverName hf.name.1 (by have := hf.name.2; omega)
  obtain ⟨d3, m3, l3⟩ := fits_clientShares (l := shares.map fun k => (k.1, k.2.1, ())) (by
    intro e he
    obtain ⟨k, hk, rfl⟩ := List.mem_map.1 he
    obtain ⟨hg, m, hm⟩ := makeShares_mem hs k hk
    have := dhWorks_size (hdh _ hg) hm
    exact ⟨this.2, this.1⟩) (by have := hf.groups.2; simpa [hlen] using this) 0
  obtain ⟨d4, m4, l4⟩ := fits_u16List hf.groups.1 (by have := hf.groups.2; omega)
  obtain ⟨d5, m5, l5⟩ := fits_u16List hf.schemes.1 (by have := hf.schemes.2; omega)
  have m4' : (ExtBody.supportedGroups s.cfg.groups).marshal = .ok d4 := m4
  have m5' : (ExtBody.signatureAlgorithms s.cfg.schemes).marshal = .ok d5 := m5
  have h6 : ∀ b ∈ (if s.cfg.nextProtos.length > 0 then [ExtBody.alpn s.cfg.nextProtos] else []),
      b.marshal = .ok (bodyData b) ∧ (bodyData b).length ≤ 12802 := by
    intro b hb
    split at hb
    · rename_i h0
      rw [List.mem_singleton] at hb
      subst hb
      obtain ⟨r, mr, lr⟩ := fits_alpn (l := s.cfg.nextProtos) (by intro h; simp [h] at h0)
        (fun p hp => by have := hf.protos.2 p hp; omega) (by have := hf.protos.1; omega)
      have := hf.protos.1
      rw [bodyData_ok mr]
      exact ⟨mr, by omega⟩
    · cases hb
  have h7 : ∀ b ∈ (if s.cfg.pskModes.length ≠ 0 then [ExtBody.pskModes s.cfg.pskModes] else []),
      b.marshal = .ok (bodyData b) ∧ (bodyData b).length ≤ 256 := by
    intro b hb
    split at hb
    · rename_i h0
      rw [List.mem_singleton] at hb
      subst hb
      obtain ⟨r, mr, lr⟩ := fits_modes (l := s.cfg.pskModes) (by omega) (by have := hf.modes; omega)
      have := hf.modes
      rw [bodyData_ok mr]
      exact ⟨mr, by omega⟩
    · cases hb
  have h8 : ∀ b ∈ (match s.cookie with | some c => [ExtBody.cookie c] | none => []),
      b.marshal = .ok (bodyData b) ∧ (bodyData b).length ≤ 10002 := by
    intro b hb
    split at hb
    · rename_i k hk
      rw [List.mem_singleton] at hb
      subst hb
      obtain ⟨h1, h2⟩ := hc k hk
      obtain ⟨r, mr, lr⟩ := fits_cookie h1 (by omega)
      rw [bodyData_ok mr]
      exact ⟨mr, by omega⟩
    · cases hb
  have e1 := bodyData_ok m1
  have e2 := bodyData_ok m2
  have e3 := bodyData_ok m3
  have e4 := bodyData_ok m4'
  have e5 := bodyData_ok m5'
  constructor
  · intro b hb
    simp only [helloExts, List.mem_append, List.mem_cons, List.not_mem_nil, or_false] at hb
    rcases hb with (((rfl | rfl | rfl | rfl | rfl) | hb) | hb) | hb
    · rw [e1]; exact m1
    · rw [e2]; exact m2
    · rw [e3]; exact m3
    · rw [e4]; exact m4'
    · rw [e5]; exact m5'
    · exact (h6 b hb).1
    · exact (h8 b hb).1
    · exact (h7 b hb).1
  · have s6 : extsSize ((if s.cfg.nextProtos.length > 0 then [ExtBody.alpn s.cfg.nextProtos] else []).map bodyExt) ≤ 12806 := by
      split
      · rename_i h0
        have := (h6 (.alpn s.cfg.nextProtos) (by simp [h0])).2
        simp only [extsSize, List.map_cons, List.map_nil, Syntax.sumBy_cons, Syntax.sumBy_nil, bodyExt]
        omega
      · simp [extsSize]
    have s7 : extsSize ((if s.cfg.pskModes.length ≠ 0 then [ExtBody.pskModes s.cfg.pskModes] else []).map bodyExt) ≤ 260 := by
      split
      · rename_i h0
        have := (h7 (.pskModes s.cfg.pskModes) (by rw [if_pos h0]; simp)).2
        simp only [extsSize, List.map_cons, List.map_nil, Syntax.sumBy_cons, Syntax.sumBy_nil, bodyExt]
        omega
      · simp [extsSize]
    have s1 : extsSize (([.supportedVersions typeClientHello [tls13Version], .serverName s.cfg.serverName,
        .keyShare typeClientHello 0 (shares.map fun k => (k.1, k.2.1, ())), .supportedGroups s.cfg.groups,
        .signatureAlgorithms s.cfg.schemes] : List ExtBody).map bodyExt) ≤ 20000 := by
      have hg := hf.groups.2
      have hsch := hf.schemes.2
      have hn := hf.name.2
      simp only [List.length_map, hlen] at l3
      simp only [extsSize, List.map_cons, List.map_nil, Syntax.sumBy_cons, Syntax.sumBy_nil, bodyExt, e1, e2, e3, e4, e5]
      omega
    cases hk : s.cookie with
    | none =>
      simp only [helloExts, hk, List.append_nil, List.map_append]
      simp only [extsSize, Syntax.sumBy_append] at s1 s6 s7 ⊢
      omega
    | some k =>
      have := (h8 (.cookie k) (by rw [hk]; simp)).2
      have s8 : extsSize ([ExtBody.cookie k].map bodyExt) ≤ 10006 := by
        simp only [extsSize, List.map_cons, List.map_nil, Syntax.sumBy_cons, Syntax.sumBy_nil, bodyExt]
        omega
      simp only [helloExts, hk, List.map_append]
      simp only [extsSize, Syntax.sumBy_append] at s1 s6 s7 s8 ⊢
      omega

/-- The client's first step succeeds. -/
theorem client_start (hP : E.P.Sized) {s : CStart} (hf : ClientFits s.cfg) (hdh : ∀ g ∈ s.cfg.groups, DhWorks E.D g)
    (hc : CookieFits s) (hk : ∀ k, s.cfg.psks s.cfg.serverName = some k → (suiteParams k.suite).isSome ∧ s.cfg.pskModes ≠ [] ∧
      0 < (offeredSuites (some k) s.cfg.suites).length) (x : Ctx) {c : Coins} (hr : ∃ r, c.random = some r) :
    ∃ w acts x', s.next E x c = .ok (w, acts, x') := by
  obtain ⟨r, hr⟩ := hr
  obtain ⟨shares, hs, hsm⟩ := makeShares_fits (D := E.D) c.dh hdh
  obtain ⟨hm, hsize⟩ := helloExts_fits hf hdh hc hs hsm
  obtain ⟨exts, he⟩ := addAll_fits [] (helloExts s shares) fun b hb => ⟨_, hm b hb⟩
  obtain ⟨_, he'⟩ := addAll_made he (helloExts_nodup s shares)
  cases hpsk : s.cfg.psks s.cfg.serverName with
  | none =>
    obtain ⟨b, hb⟩ := fits_clientHello (ch := ⟨wireVersion x, r, [], s.cfg.suites, exts⟩) hf.suites.1 (by have := hf.suites.2; show s.cfg.suites.length < _; omega)
      (by show extsSize exts < _; rw [he']; omega)
    obtain ⟨m, x', hmk⟩ := mkMsg_fits (b := .clientHello ⟨wireVersion x, r, [], s.cfg.suites, exts⟩) x hb
    simp only [CStart.next, hs, Res.bind_ok, hr, he, orAlert_val, hpsk, hmk]
    exact ⟨_, _, _, rfl⟩
  | some k =>
    obtain ⟨h1, h2, h3⟩ := hk k hpsk
    obtain ⟨p, hp⟩ := Option.isSome_iff_exists.1 h1
    have hsz := suiteParams_size hp
    obtain ⟨hb1, hb2⟩ := suiteParams_bounds hp
    have hkf := hf.psk k hpsk
    have hsuites : (compatibleSuites p.hash s.cfg.suites).length ≤ s.cfg.suites.length := List.length_filter_le _ _
    have h3' : 0 < (compatibleSuites p.hash s.cfg.suites).length := by
      rw [compatibleSuites_eq hp]; exact h3
    have h2' : s.cfg.pskModes.length ≠ 0 := by simpa using h2
    -- early data
    obtain ⟨ex, hex, hexs, hex41⟩ : ∃ ex, (if (s.cfg.allowEarlyData && s.retry.isNone) then orAlert Alert.internalError (addExt exts .earlyData) else .ok exts) = .ok ex ∧
        extsSize ex ≤ 50010 ∧ (41 : UInt16) ∉ types ex := by
      have hn := helloExts_not s shares
      have h41 : (41 : UInt16) ∉ types exts := by
        rw [he']; simpa [types, bodyExt, Function.comp_def] using hn.1
      cases hb : (s.cfg.allowEarlyData && s.retry.isNone) with
      | false => exact ⟨exts, rfl, by rw [he']; omega, h41⟩
      | true =>
        have hmk : ExtBody.earlyData.marshal = .ok [] := rfl
        have h42 : (42 : UInt16) ∉ types exts := by
          rw [he']; simpa [types, bodyExt, Function.comp_def] using hn.2
        refine ⟨exts ++ [(42, [], ())], ?_, ?_, ?_⟩
        · simp only [if_true, addExt, hmk, Res.bind_ok, orAlert, ExtBody.kind, ExtKind.type]
          rw [setExt_new _ _ _ h42]
        · simp only [extsSize, Syntax.sumBy_append, Syntax.sumBy_cons, Syntax.sumBy_nil] at hsize ⊢
          rw [he']
          simp only [List.length_nil]
          omega
        · simp only [types, List.map_append, List.mem_append] at h41 ⊢
          simp [h41]
    -- any binder of the right length leads to a hello
    have hhello : ∀ bd : Bytes, bd.length = p.hash.size → ∃ data, (pskExt k c.now bd).marshal = .ok data ∧
        ∃ body, (⟨wireVersion x, r, [], compatibleSuites p.hash s.cfg.suites, ex ++ [(41, data, ())]⟩ : ClientHello).marshal = .ok body := by
      intro bd hbd
      obtain ⟨data, hd, hl⟩ := fits_clientPsk (id := k.identity) (binder := bd) (age := sinceMs c.now k.receivedAt + k.ticketAgeAdd)
        hkf.1 (by omega) (by omega) (by omega)
      refine ⟨data, hd, fits_clientHello h3' (by have := hf.suites.2; show (compatibleSuites _ _).length < _; omega) ?_⟩
      simp only [extsSize, Syntax.sumBy_append, Syntax.sumBy_cons, Syntax.sumBy_nil] at hexs ⊢
      omega
    obtain ⟨d0, hd0, b0, hb0⟩ := hhello (zeros p.hash) (by simp [zeros])
    have hp0 := C31_extension_roundtrip_partial (pskExt k c.now (zeros p.hash)) d0 (fun _ => by simp) hd0
    obtain ⟨trunc, htr, _⟩ := truncated_eq hb0 rfl hp0
    have hbl : (finishedMac E.P p.hash (derive E.P p.hash (hkdfExtract E.P p.hash (some (zeros p.hash)) k.key)
        (if k.isResumption then labelResumptionBinder else labelExternalBinder) []) trunc).length = p.hash.size := by
      simp [finishedMac, hP.hmac]
    obtain ⟨d1, hd1, b1, hb1⟩ := hhello _ hbl
    obtain ⟨m, x', hmk⟩ := mkMsg_fits (b := .clientHello _) x hb1
    have ha0 : addIgnore ex (pskExt k c.now (zeros p.hash)) = .ok (ex ++ [(41, d0, ())]) := by
      simp only [addIgnore, addExt, hd0, Res.bind_ok]
      rw [show (pskExt k c.now (zeros p.hash)).kind.type = 41 from rfl, setExt_new _ _ _ hex41]
    have ha1 : addIgnore (ex ++ [(41, d0, ())]) (pskExt k c.now (finishedMac E.P p.hash (derive E.P p.hash (hkdfExtract E.P p.hash (some (zeros p.hash)) k.key)
        (if k.isResumption then labelResumptionBinder else labelExternalBinder) []) trunc)) = .ok (ex ++ [(41, d1, ())]) := by
      simp only [addIgnore, addExt, hd1, Res.bind_ok]
      rw [show ∀ b, (pskExt k c.now b).kind.type = 41 from fun _ => rfl, setExt_last _ _ _ _ hex41]
    have hoffer : ∃ o, offerPsk E x s.cfg (s.cfg.allowEarlyData && s.retry.isNone) c.now k ⟨wireVersion x, r, [], s.cfg.suites, exts⟩ = .ok o := by
      simp only [offerPsk, hp, hex, Res.bind_ok, if_neg h2', ha0, deriveSecret_eq E.P hP _ hsz, htr, orAlert_val,
        computeFinishedData_eq E.P hP _ hsz, ha1, hmk, earlyTraffic_eq E.P hP _ hsz, makeTrafficKeys_eq E.P hP _ hsz]
      exact ⟨_, rfl⟩
    obtain ⟨o, ho⟩ := hoffer
    simp only [CStart.next, hs, Res.bind_ok, hr, he, orAlert_val, hpsk, ho]
    exact ⟨_, _, _, rfl⟩

/-! ### What the server reads -/

theorem find_body {bs : List ExtBody} (hn : (bs.map fun b => b.kind.type).Nodup) {b : ExtBody} (hb : b ∈ bs) :
    (bs.find? fun b' => b'.kind.type == b.kind.type) = some b := by
  induction bs with
  | nil => cases hb
  | cons a bs ih =>
    simp only [List.map_cons, List.nodup_cons] at hn
    rcases List.mem_cons.1 hb with rfl | hb
    · simp
    · rw [List.find?_cons_of_neg, ih hn.2 hb]
      intro h
      rw [beq_iff_eq] at h
      exact hn.1 (List.mem_map.2 ⟨b, hb, h.symm⟩)

theorem find_body_none {bs : List ExtBody} {t : UInt16} (h : t ∉ bs.map fun b => b.kind.type) :
    (bs.find? fun b' => b'.kind.type == t) = none := by
  rw [List.find?_eq_none]
  intro b hb hbt
  exact h (List.mem_map.2 ⟨b, hb, by simpa using hbt⟩)

/-- What a server finds in the first hello of a client. -/
structure OfferRead (s : CStart) (shares : List (UInt16 × Bytes × Bytes)) (early : Bool) (psk : Option ExtBody) (o : Offer) : Prop where
  versions : o.versions = some [tls13Version]
  serverName : o.serverName = some s.cfg.serverName
  groups : o.groups = some s.cfg.groups
  sigAlgs : o.sigAlgs = some s.cfg.schemes
  earlyData : o.earlyData = early
  shares_ : o.shares = shares.map fun k => (k.1, k.2.1, ())
  noPsk : psk = none → o.ids = [] ∧ o.binders = []
  psk_ : ∀ k t b, psk = some (pskExt k t b) → o.ids = [(k.identity, sinceMs t k.receivedAt + k.ticketAgeAdd, ())] ∧ o.binders = [(b, ())]
  alpn : o.alpn = s.cfg.nextProtos
  modes : o.modes = s.cfg.pskModes
  cookie : o.cookie = s.cookie.getD []

theorem hello_read {x x' y : Ctx} {c : Coins} {s : CStart} {m : Msg} (a : MadeHello E x c s m x')
    (hy : y.datagram = x.datagram) (d : Bool) :
    ∃ o, readHello y (arrived d m) =
        .ok (⟨wireVersion x, a.random, [], a.suites, (helloBodies s a.shares a.early a.psk).map bodyExt⟩, o) ∧
      OfferRead s a.shares a.early a.psk o := by
  have hp : ∀ b ∈ a.psk, ∃ k t bd, b = pskExt k t bd := by
    intro b hb
    rcases a.pskOk with ⟨_, h, _⟩ | ⟨k, p, bd, t, _, _, h, _⟩
    · rw [h] at hb; cases hb
    · rw [h] at hb
      simp only [Option.mem_def, Option.some.injEq] at hb
      exact ⟨_, _, _, hb.symm⟩
  have hn := helloBodies_nodup s a.shares a.early a.psk (fun b hb => by obtain ⟨k, t, bd, rfl⟩ := hp b hb; rfl)
  have hm := a.marshals
  have hmem : ∀ b ∈ helloExts s a.shares, b ∈ helloBodies s a.shares a.early a.psk := by
    intro b hb
    simp only [helloBodies, List.mem_append]
    exact Or.inl (Or.inl hb)
  have hall : ∀ b ∈ helloBodies s a.shares a.early a.psk, b ∈ helloExts s a.shares ∨ b = .earlyData ∨ ∃ k t bd, b = pskExt k t bd := by
    intro b hb
    simp only [helloBodies, List.mem_append, Option.mem_toList] at hb
    rcases hb with (hb | hb) | hb
    · exact .inl hb
    · split at hb
      · exact .inr (.inl (by simpa using hb))
      · cases hb
    · exact .inr (.inr (hp b hb))
  have hexts : ∀ b ∈ helloExts s a.shares, b = .supportedVersions typeClientHello [tls13Version] ∨ b = .serverName s.cfg.serverName ∨
      b = .keyShare typeClientHello 0 (a.shares.map fun k => (k.1, k.2.1, ())) ∨ b = .supportedGroups s.cfg.groups ∨
      b = .signatureAlgorithms s.cfg.schemes ∨ b = .alpn s.cfg.nextProtos ∨ b = .pskModes s.cfg.pskModes ∨ ∃ k, s.cookie = some k ∧ b = .cookie k := by
    intro b hb
    simp only [helloExts, List.mem_append, List.mem_cons, List.not_mem_nil, or_false] at hb
    rcases hb with (((rfl | rfl | rfl | rfl | rfl) | hb) | hb) | hb
    · simp
    · simp
    · simp
    · simp
    · simp
    · split at hb
      · rw [List.mem_singleton] at hb; simp [hb]
      · cases hb
    · split at hb
      · rename_i k hk
        rw [List.mem_singleton] at hb; simp [hb, hk]
      · cases hb
    · split at hb
      · rw [List.mem_singleton] at hb; simp [hb]
      · cases hb
  obtain ⟨found, hfound, hf⟩ := parse_bodies (ks := offerKinds) hn hm
    (by
      intro b hb
      rcases hall b hb with hb | rfl | ⟨k, t, bd, rfl⟩
      · rcases hexts b hb with rfl | rfl | rfl | rfl | rfl | rfl | rfl | ⟨_, _, rfl⟩ <;> simp [expressible]
      · simp [expressible]
      · simp [expressible, pskExt])
    (by decide)
    (by
      intro b hb k hk
      simp only [offerKinds, List.mem_cons, List.not_mem_nil, or_false] at hk
      rcases hall b hb with hb | rfl | ⟨k, t, bd, rfl⟩
      · rcases hexts b hb with rfl | rfl | rfl | rfl | rfl | rfl | rfl | ⟨_, _, rfl⟩ <;>
          rcases hk with rfl | rfl | rfl | rfl | rfl | rfl | rfl | rfl | rfl | rfl <;>
          simp [ExtBody.kind, ExtKind.type]
      · rcases hk with rfl | rfl | rfl | rfl | rfl | rfl | rfl | rfl | rfl | rfl <;>
          simp [ExtBody.kind, ExtKind.type]
      · rcases hk with rfl | rfl | rfl | rfl | rfl | rfl | rfl | rfl | rfl | rfl <;>
          simp [ExtBody.kind, ExtKind.type, pskExt])
  have hpres : ∀ {α : Type} (f : ExtBody → Option α) (b : ExtBody), b ∈ helloBodies s a.shares a.early a.psk → b.kind ∈ offerKinds →
      (∀ b', (f b').isSome → b'.kind.type = b.kind.type) → found.findSome? f = f (contents b) := by
    intro α f b hb hk hfb
    rw [hf f b.kind hk hfb, find_body hn hb]
    rfl
  have habs : ∀ {α : Type} (f : ExtBody → Option α) (k : ExtKind), k ∈ offerKinds →
      (∀ b', (f b').isSome → b'.kind.type = k.type) → k.type ∉ (helloBodies s a.shares a.early a.psk).map (fun b => b.kind.type) →
      found.findSome? f = none := by
    intro α f k hk hfk hnot
    rw [hf f k hk hfk, find_body_none hnot]
    rfl
  have htypes : ∀ t, t ∈ (helloBodies s a.shares a.early a.psk).map (fun b => b.kind.type) ↔
      t ∈ (helloExts s a.shares).map (fun b => b.kind.type) ∨ (a.early = true ∧ t = 42) ∨ (a.psk ≠ none ∧ t = 41) := by
    intro t
    simp only [helloBodies, List.map_append, List.mem_append, or_assoc]
    refine or_congr Iff.rfl (or_congr ?_ ?_)
    · cases a.early
      · simp
      · simp [ExtBody.kind, ExtKind.type]
    · cases hpk : a.psk with
      | none => simp
      | some b =>
        obtain ⟨k, t', bd, rfl⟩ := hp b hpk
        simp [pskExt, ExtBody.kind, ExtKind.type]
  obtain ⟨h41, h42⟩ := helloExts_not s a.shares
  have hty := helloExts_types s a.shares
  have hver : wireVersion y = wireVersion x := by unfold wireVersion; rw [hy]
  obtain ⟨data, hd, hmeq, _⟩ := mkMsg_ok a.made
  have ht : m.msgType = typeClientHello := by rw [hmeq]; rfl
  have hb : m.body = data := by rw [hmeq]
  have hread := C31_client_hello_roundtrip_partial _ data (by
    show wireVersion x = 0x0303 ∨ wireVersion x = 0xfefd
    unfold wireVersion
    cases x.datagram
    · exact .inl rfl
    · exact .inr rfl) rfl (show ClientHello.marshal _ = .ok data from hd)
  dsimp only at hread
  have O : OfferRead s a.shares a.early a.psk (offerOf found) := {
    versions := hpres asVersions (.supportedVersions typeClientHello [tls13Version]) (hmem _ (by simp [helloExts])) (by decide) isSome_versions
    serverName := hpres asServerName (.serverName s.cfg.serverName) (hmem _ (by simp [helloExts])) (by simp [offerKinds, ExtBody.kind]) isSome_serverName
    groups := hpres asGroups (.supportedGroups s.cfg.groups) (hmem _ (by simp [helloExts])) (by simp [offerKinds, ExtBody.kind]) isSome_groups
    sigAlgs := hpres asSigAlgs (.signatureAlgorithms s.cfg.schemes) (hmem _ (by simp [helloExts])) (by simp [offerKinds, ExtBody.kind]) isSome_sigAlgs
    earlyData := by
      show (found.findSome? asEarlyData).isSome = a.early
      cases he : a.early with
      | true =>
        rw [hpres asEarlyData .earlyData (by simp [helloBodies, he]) (by simp [offerKinds, ExtBody.kind]) isSome_early]
        rfl
      | false =>
        rw [habs asEarlyData .earlyData (by simp [offerKinds]) isSome_early (by
          rw [htypes]
          rintro (h | h | h)
          · exact h42 h
          · rw [he] at h; cases h.1
          · exact absurd h.2 (by decide))]
        rfl
    shares_ := by
      show (found.findSome? asShares).getD [] = _
      rw [hpres asShares (.keyShare typeClientHello 0 (a.shares.map fun k => (k.1, k.2.1, ()))) (hmem _ (by simp [helloExts])) (by simp [offerKinds, ExtBody.kind]) isSome_shares]
      rfl
    noPsk := by
      intro hpk
      have hfp : findPsk found = none := habs asPsk (.preSharedKey typeClientHello) (by simp [offerKinds]) isSome_psk (by
        rw [htypes]
        rintro (h | h | h)
        · exact h41 h
        · exact absurd h.2 (by decide)
        · exact h.1 hpk)
      simp [offerOf, hfp]
    psk_ := by
      intro k t b hpk
      have hfp : findPsk found = some ([(k.identity, sinceMs t k.receivedAt + k.ticketAgeAdd, ())], [(b, ())], 0) :=
        hpres asPsk (pskExt k t b) (by simp [helloBodies, hpk]) (by simp [offerKinds, ExtBody.kind, pskExt]) isSome_psk
      simp [offerOf, hfp]
    alpn := by
      show (found.findSome? asAlpn).getD [] = _
      by_cases h0 : s.cfg.nextProtos.length > 0
      · rw [hpres asAlpn (.alpn s.cfg.nextProtos) (hmem _ (by simp [helloExts, h0])) (by simp [offerKinds, ExtBody.kind]) isSome_alpn]
        rfl
      · rw [habs asAlpn .alpn (by simp [offerKinds]) isSome_alpn (by
          rw [htypes, hty, if_neg h0]
          rintro (h | h | h)
          · revert h
            split <;> split <;> decide
          · exact absurd h.2 (by decide)
          · exact absurd h.2 (by decide))]
        have : s.cfg.nextProtos = [] := by simpa using h0
        rw [this]; rfl
    modes := by
      show (found.findSome? asModes).getD [] = _
      by_cases h0 : s.cfg.pskModes.length ≠ 0
      · rw [hpres asModes (.pskModes s.cfg.pskModes) (hmem _ (by simp only [helloExts, if_pos h0]; simp)) (by simp [offerKinds, ExtBody.kind]) isSome_modes]
        rfl
      · rw [habs asModes .pskModes (by simp [offerKinds]) isSome_modes (by
          rw [htypes, hty, if_neg h0]
          rintro (h | h | h)
          · revert h
            split <;> split <;> decide
          · exact absurd h.2 (by decide)
          · exact absurd h.2 (by decide))]
        have : s.cfg.pskModes = [] := by simpa using h0
        rw [this]; rfl
    cookie := by
      show (found.findSome? asCookie).getD [] = _
      cases hk : s.cookie with
      | some k =>
        rw [hpres asCookie (.cookie k) (hmem _ (by simp [helloExts, hk])) (by simp [offerKinds, ExtBody.kind]) isSome_cookie]
        rfl
      | none =>
        rw [habs asCookie .cookie (by simp [offerKinds]) isSome_cookie (by
            rw [htypes, hty, hk]
            rintro (h | h | h)
            · revert h
              dsimp only
              split <;> split <;> decide
            · exact absurd h.2 (by decide)
            · exact absurd h.2 (by decide))] }
  refine ⟨offerOf found, ?_, O⟩
  have hv : (version (([tls13Version] : List UInt16).map (·.toNat)) [0x0304]).1 = true := by decide
  simp only [readHello, arrived_type, arrived_body, ht, ne_eq, not_true_eq_false, if_false, hver, hb, hread, orAlert_val, Res.bind_ok,
    hfound, O.versions, hv, if_true]

end Verif.Machine
