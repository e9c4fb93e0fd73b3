import Verif.Machine.Hellos
import Verif.Props.Negotiation
import Verif.Props.PskNegotiation

/-
What a server that is compatible with a client negotiates from its hello.
-/

namespace Verif.Machine

open Verif Verif.Crypto Verif.Messages Verif.Negotiation Verif.Handshake Verif.Spec

variable {E : Env} {d : Bool} {now : Int → Prop}

/-! ### Key agreement -/

theorem toNat_mem {g : UInt16} {l : List UInt16} : g.toNat ∈ l.map (·.toNat) ↔ g ∈ l := by
  simp only [List.mem_map]
  constructor
  · rintro ⟨a, ha, h⟩
    rwa [← UInt16.toNat_inj.1 h]
  · exact fun h => ⟨g, h, rfl⟩

/-- What the server has of a share it answered. -/
def Agreed (D : Dh) (shares : List (UInt16 × Bytes × Bytes)) (sg : List UInt16) (r : DhChoice) : Prop :=
  ∃ k ∈ shares, k.1 ∈ sg ∧ r.1 = k.1.toNat ∧ (∃ n priv, newKeyShare D n k.1.toNat = .ok (r.2.1, priv)) ∧
    keyAgreement D k.1.toNat r.2.1 k.2.2 = .ok r.2.2

theorem dhGroups_honest {D : Dh} {g : UInt16} {pub priv : Bytes} (hw : DhWorks D g) {n0 : Nat}
    (hk : newKeyShare D n0 g.toNat = .ok (pub, priv)) (n : Nat) : ∀ sg : List UInt16,
    (g ∈ sg ∧ ∃ own own' z, newKeyShare D n g.toNat = .ok (own, own') ∧ keyAgreement D g.toNat own priv = .ok z ∧
      dhGroups D ⟨g.toNat, pub⟩ n (sg.map (·.toNat)) = .ok (some (g.toNat, own, z), n + 1)) ∨
    (g ∉ sg ∧ dhGroups D ⟨g.toNat, pub⟩ n (sg.map (·.toNat)) = .ok (none, n))
  | [] => .inr ⟨by simp, rfl⟩
  | g' :: sg => by
    by_cases h : g' = g
    · subst h
      obtain ⟨own, own', ho⟩ := hw.gen n
      obtain ⟨z, hz1, hz2⟩ := hw.agree _ _ _ _ _ _ hk ho
      refine .inl ⟨by simp, own, own', z, ho, hz1, ?_⟩
      simp only [List.map_cons, dhGroups, ne_eq, not_true_eq_false, if_false, ho, hz2]
    · have h' : g'.toNat ≠ g.toNat := fun e => h (UInt16.toNat_inj.1 e)
      rcases dhGroups_honest hw hk n sg with ⟨hm, own, own', z, h1, h2, h3⟩ | ⟨hm, h3⟩
      · exact .inl ⟨by simp [hm], own, own', z, h1, h2, by simp only [List.map_cons, dhGroups, ne_eq, h', not_false_eq_true, if_true, h3]⟩
      · exact .inr ⟨by simp [hm, Ne.symm h], by simp only [List.map_cons, dhGroups, ne_eq, h', not_false_eq_true, if_true, h3]⟩

theorem dh_honest {D : Dh} (sg : List UInt16) : ∀ (shares : List (UInt16 × Bytes × Bytes)),
    (∀ k ∈ shares, DhWorks D k.1 ∧ ∃ n, newKeyShare D n k.1.toNat = .ok (k.2.1, k.2.2)) → ∀ n,
    (∃ r, dh D (sg.map (·.toNat)) n (shares.map fun k => ⟨k.1.toNat, k.2.1⟩) = .ok (some r) ∧ Agreed D shares sg r) ∨
    (dh D (sg.map (·.toNat)) n (shares.map fun k => ⟨k.1.toNat, k.2.1⟩) = .ok none ∧ ∀ k ∈ shares, k.1 ∉ sg)
  | [], _, _ => .inr ⟨rfl, by simp⟩
  | (g, pub, priv) :: shares, h, n => by
    obtain ⟨hw, n0, hk⟩ := h (g, pub, priv) (by simp)
    rcases dhGroups_honest hw hk n sg with ⟨hm, own, own', z, h1, h2, h3⟩ | ⟨hm, h3⟩
    · refine .inl ⟨(g.toNat, own, z), by simp only [List.map_cons, dh, h3], (g, pub, priv), by simp, hm, rfl, ⟨n, own', h1⟩, h2⟩
    · rcases dh_honest sg shares (fun k hk => h k (List.mem_cons_of_mem _ hk)) n with ⟨r, h4, k, h5, h6⟩ | ⟨h4, h5⟩
      · exact .inl ⟨r, by simp only [List.map_cons, dh, h3, h4], k, List.mem_cons_of_mem _ h5, h6⟩
      · refine .inr ⟨by simp only [List.map_cons, dh, h3, h4], ?_⟩
        intro k hk
        rcases List.mem_cons.1 hk with rfl | hk
        · exact hm
        · exact h5 k hk

theorem lookup_of_mem {shares : List (UInt16 × Bytes × Bytes)} (hn : (shares.map (·.1)).Nodup) {k : UInt16 × Bytes × Bytes}
    (hk : k ∈ shares) : lookupDH (privates shares) k.1 = some k.2.2 := by
  have hfind : ((privates shares).reverse.find? fun e => e.1 == k.1) = some (k.1, k.2.2) := by
    cases hf : ((privates shares).reverse.find? fun e => e.1 == k.1) with
    | none =>
      rw [List.find?_eq_none] at hf
      exact absurd (hf (k.1, k.2.2) (List.mem_reverse.2 (List.mem_map.2 ⟨k, hk, rfl⟩))) (by simp)
    | some e =>
      have h1 := List.mem_of_find?_eq_some hf
      have h2 := List.find?_some hf
      simp only [List.mem_reverse, privates, List.mem_map] at h1
      obtain ⟨k', hk', rfl⟩ := h1
      have h3 : k'.1 = k.1 := by simpa using h2
      have : k' = k := by
        clear hf h2
        induction shares with
        | nil => cases hk
        | cons a l ih =>
          simp only [List.map_cons, List.nodup_cons] at hn
          rcases List.mem_cons.1 hk with e | hk <;> rcases List.mem_cons.1 hk' with e' | hk'
          · rw [e, e']
          · exact absurd (List.mem_map.2 ⟨k', hk', h3.trans (congrArg Prod.fst e)⟩) hn.1
          · exact absurd (List.mem_map.2 ⟨k, hk, h3.symm.trans (congrArg Prod.fst e')⟩) hn.1
          · exact ih hn.2 hk hk'
      rw [this]
  rw [lookupDH, hfind]
  rfl

/-! ### Cipher suites and protocols -/

theorem cipherSuite_common (supported : List UInt16) : ∀ offered : List UInt16, (∃ s ∈ offered, s ∈ supported) →
    ∃ s ∈ offered, s ∈ supported ∧ cipherSuite none (supported.map (·.toNat)) (offered.map (·.toNat)) = .ok s.toNat
  | [], h => by obtain ⟨s, hs, _⟩ := h; cases hs
  | s :: l, h => by
    by_cases hs : s ∈ supported
    · refine ⟨s, by simp, hs, ?_⟩
      have : (supported.map (·.toNat)).any (s.toNat == ·) = true := by
        rw [List.any_eq_true]; exact ⟨s.toNat, toNat_mem.2 hs, by simp⟩
      simp only [List.map_cons, cipherSuite, this, if_true]
    · obtain ⟨s', h1, h2⟩ := h
      rcases List.mem_cons.1 h1 with rfl | h1
      · exact absurd h2 hs
      · obtain ⟨t, h3, h4, h5⟩ := cipherSuite_common supported l ⟨s', h1, h2⟩
        refine ⟨t, List.mem_cons_of_mem _ h3, h4, ?_⟩
        have : (supported.map (·.toNat)).any (s.toNat == ·) = false := by
          rw [List.any_eq_false]
          intro v hv hvs
          have : s.toNat = v := by simpa using hvs
          rw [← this] at hv
          exact hs (toNat_mem.1 hv)
        simp only [List.map_cons, cipherSuite, this, Bool.false_eq_true, if_false, h5]

theorem cipherSuite_psk (k : Psk) (supported : List Nat) : ∀ offered : List Nat, k.suite ∈ offered →
    cipherSuite (some k) supported offered = .ok k.suite
  | [], h => by cases h
  | s :: l, h => by
    by_cases hs : s = k.suite
    · simp only [cipherSuite, hs, if_true]
    · rcases List.mem_cons.1 h with rfl | h
      · exact absurd rfl hs
      · simp only [cipherSuite, hs, if_false, cipherSuite_psk k supported l h]

theorem alpnLoop_mem (k : Option Psk) (supported : List Bytes) : ∀ offered : List Bytes, ∀ p, alpnLoop k supported offered = some p → p ∈ offered
  | [], p, h => by simp [alpnLoop] at h
  | q :: l, p, h => by
    cases k with
    | none =>
      simp only [alpnLoop] at h
      split at h
      · cases h; simp
      · exact List.mem_cons_of_mem _ (alpnLoop_mem none supported l p h)
    | some k =>
      simp only [alpnLoop] at h
      split at h
      · exact List.mem_cons_of_mem _ (alpnLoop_mem (some k) supported l p h)
      · split at h
        · cases h; simp
        · exact List.mem_cons_of_mem _ (alpnLoop_mem (some k) supported l p h)

theorem alpnLoop_finds {k : Psk} {supported : List Bytes} (hs : k.nextProto ∈ supported) : ∀ offered : List Bytes, k.nextProto ∈ offered →
    alpnLoop (some k) supported offered ≠ none
  | [], h => by cases h
  | q :: l, h => by
    simp only [alpnLoop]
    split
    · rename_i hq
      rcases List.mem_cons.1 h with h | h
      · exact absurd h.symm hq
      · exact alpnLoop_finds hs l h
    · rename_i hq
      have hq : q = k.nextProto := by simpa using hq
      rw [if_pos (by rw [List.any_eq_true]; exact ⟨_, hs, by simp [hq]⟩)]
      simp

/-- Negotiation of the protocol succeeds, with a short name. -/
theorem alpn_fits {k : Option Psk} {offered supported : List Bytes} (hl : ∀ p ∈ offered, p.length ≤ 255)
    (hk : ∀ k', k = some k' → k'.isResumption = true → offered = [] ∨ (k'.nextProto ∈ offered ∧ k'.nextProto ∈ supported)) :
    ∃ p, alpn k offered supported = .ok p ∧ p.length < 256 := by
  unfold alpn
  cases ha : alpnLoop k supported offered with
  | some p =>
    have := hl p (alpnLoop_mem _ _ _ _ ha)
    exact ⟨p, rfl, by omega⟩
  | none =>
    cases k with
    | none => exact ⟨[], rfl, by simp⟩
    | some k' =>
      dsimp only
      by_cases hr : k'.isResumption = true
      · rcases hk k' rfl hr with rfl | ⟨h1, h2⟩
        · exact ⟨[], by simp, by simp⟩
        · exact absurd ha (alpnLoop_finds h2 _ h1)
      · exact ⟨[], by simp [hr], by simp⟩

theorem alpnLoop_supported (k : Option Psk) (supported : List Bytes) : ∀ offered : List Bytes, ∀ p,
    alpnLoop k supported offered = some p → p ∈ supported ∧ ∀ k', k = some k' → p = k'.nextProto
  | [], p, h => by simp [alpnLoop] at h
  | q :: l, p, h => by
    cases k with
    | none =>
      simp only [alpnLoop] at h
      split at h
      · rename_i hq
        cases h
        exact ⟨by simpa using hq, fun _ h => by cases h⟩
      · exact alpnLoop_supported none supported l p h
    | some k =>
      simp only [alpnLoop] at h
      split at h
      · exact alpnLoop_supported (some k) supported l p h
      · rename_i hk
        split at h
        · rename_i hq
          cases h
          exact ⟨by simpa using hq, fun k' h => by cases h; simpa using hk⟩
        · exact alpnLoop_supported (some k) supported l p h

/-- The protocol negotiated is none, or one both sides have. -/
theorem alpn_agreed {k : Option Psk} {offered supported : List Bytes} {p : Bytes} (h : alpn k offered supported = .ok p) :
    p = [] ∨ (p ∈ offered ∧ p ∈ supported) := by
  unfold alpn at h
  split at h
  · rename_i q hq
    cases h
    exact .inr ⟨alpnLoop_mem _ _ _ _ hq, (alpnLoop_supported _ _ _ _ hq).1⟩
  · split at h
    · split at h
      · cases h
      · cases h; exact .inl rfl
    · cases h; exact .inl rfl

/-- A resumed session keeps its protocol. -/
theorem alpn_resumed {k : Psk} {offered supported : List Bytes} {p : Bytes} (h : alpn (some k) offered supported = .ok p)
    (hr : k.isResumption = true) : p = if offered = [] then [] else k.nextProto := by
  unfold alpn at h
  split at h
  · rename_i q hq
    cases h
    have h1 := alpnLoop_mem _ _ _ _ hq
    rw [if_neg (by rintro rfl; cases h1)]
    exact (alpnLoop_supported _ _ _ _ hq).2 k rfl
  · dsimp only at h
    split at h
    · cases h
    · rename_i hn
      cases h
      rw [hr, Bool.true_and, decide_eq_true_eq, Nat.not_lt, Nat.le_zero_eq, List.length_eq_zero_iff] at hn
      rw [if_pos hn]

/-! ### Certificates -/

theorem certificate_found {name : Bytes} (hname : 0 < name.length) {schemes : List UInt16} {certs : List Cert} (hc : ∀ c ∈ certs, c.chain ≠ [])
    (h : ∃ c ∈ certs, name ∈ leafNames c ∧ ∃ s ∈ schemes, schemeValidForKey s.toNat c.key = true) :
    ∃ c ∈ certs, ∃ s ∈ schemes, name ∈ leafNames c ∧ schemeValidForKey s.toNat c.key = true ∧
      certificate (some name) (schemes.map (·.toNat)) certs = .ok (c, s.toNat) := by
  obtain ⟨out, ho, hout⟩ := certsByName_spec name certs hc
  have hmem : ∀ c, c ∈ out ↔ c ∈ certs ∧ name ∈ leafNames c := by
    intro c
    rw [hout]
    refine and_congr_right fun hcc => ?_
    simp only [NameOk, leafNames]
    cases hch : c.chain with
    | nil => exact absurd hch (hc c hcc)
    | cons l r =>
      have hne : name ≠ [] := by intro h; rw [h] at hname; cases hname
      constructor
      · intro h
        obtain ⟨_, l', r', h1, h2⟩ := h name rfl
        cases h1
        exact h2
      · intro h nm hnm
        cases hnm
        exact ⟨hne, l, r, rfl, h⟩
  obtain ⟨c, hcm, hn, s, hs, hv⟩ := h
  have hco : c ∈ out := (hmem c).2 ⟨hcm, hn⟩
  have hlen : out.length ≠ 0 := by
    intro h0
    rw [List.length_eq_zero_iff] at h0
    rw [h0] at hco; cases hco
  rcases certByScheme_cases schemes out with ⟨c', a, h1, h2, h3, h4⟩ | ⟨_, h2⟩
  · obtain ⟨h5, h6⟩ := (hmem c').1 h2
    exact ⟨c', h5, a, h3, h6, h4, by simp only [certificate, ho, Res.bind_ok, if_neg hlen, h1]⟩
  · exact absurd hv (by rw [h2 c hco s hs]; simp)

/-! ### The first step of the server -/

/-- The hello leads to a PSK, or to none. -/
theorem choosePsk_honest (hP : E.P.Sized) {x x' y : Ctx} {c0 c : Coins} {s : CStart} {m : Msg} (a : MadeHello E x c0 s m x') {o : Offer}
    (O : OfferRead s a.shares a.early a.psk o) {scfg : Config} (hc0 : now c0.now) (hc : now c.now) :
    (∀ k k', SharePsk now s.cfg scfg k k' → ∃ p, suiteParams k.suite = some p ∧
      choosePsk E y scfg c.now ⟨wireVersion x, a.random, [], a.suites, (helloBodies s a.shares a.early a.psk).map bodyExt⟩ o none =
        .ok (some (0, k', p), y)) ∧
    (NoCommonPsk s.cfg scfg →
      choosePsk E y scfg c.now ⟨wireVersion x, a.random, [], a.suites, (helloBodies s a.shares a.early a.psk).map bodyExt⟩ o none =
        .ok (none, y)) := by
  constructor
  · intro k k' S
    rcases a.pskOk with ⟨h, _⟩ | ⟨k1, p, bd, trunc, hk1, hp, hpsk, _, _, _, htr, hbd⟩
    · rw [S.client] at h; cases h
    · rw [S.client, Option.some.injEq] at hk1
      subst hk1
      refine ⟨p, hp, ?_⟩
      obtain ⟨hids, hbinders⟩ := O.psk_ _ _ _ hpsk
      have hp' : suiteParams k'.suite = some p := by rw [S.suite]; exact hp
      have hsz := suiteParams_size hp
      have hage : (k'.isResumption && !ticketAgeOk c.now k' (sinceMs c0.now k.receivedAt + k.ticketAgeAdd)) = false := by
        cases hr : k'.isResumption with
        | false => rfl
        | true =>
          rw [S.sort] at hr
          obtain ⟨hadd, hages⟩ := S.ages hr
          obtain ⟨u, v, h1, h2, h3, h4, h5, h6⟩ := hages _ _ hc0 hc
          have : ticketAgeOk c.now k' (sinceMs c0.now k.receivedAt + k.ticketAgeAdd) = true := by
            rw [ticketAgeOk_iff]
            unfold AgePlausible
            dsimp only
            have hs := sinceMs_toNat c0.now k.receivedAt
            rw [h1] at hs
            rw [h2, hadd, UInt32.toNat_add]
            have := (k.ticketAgeAdd).toNat_lt
            omega
          simp [this]
      have hbinder : computeBinder E.P p.hash k' trunc = .ok bd := by
        rw [computeBinder_eq E.P hP _ hsz, hbd, S.sort, S.key]
      simp only [choosePsk, hids, List.length_singleton, Nat.lt_add_one, gt_iff_lt, if_true, Res.bind_ok, htr, orAlert_val,
        List.nil_append, Negotiation.psk, List.map_cons, List.map_nil, pskFrom, S.server, hage, Bool.false_eq_true, if_false, hp', hbinder,
        hbinders, List.getElem?_cons_zero, ne_eq, not_true_eq_false]
  · intro N
    rcases a.pskOk with ⟨h, hpsk, _⟩ | ⟨k, p, bd, trunc, hk, hp, hpsk, _, _, _, htr, hbd⟩
    · obtain ⟨hids, _⟩ := O.noPsk hpsk
      simp [choosePsk, hids]
    · obtain ⟨hids, hbinders⟩ := O.psk_ _ _ _ hpsk
      unfold NoCommonPsk at N
      rw [hk] at N
      obtain ⟨_, _, hnone, _⟩ := N
      simp only [choosePsk, hids, List.length_singleton, Nat.lt_add_one, gt_iff_lt, if_true, Res.bind_ok, htr, orAlert_val,
        List.nil_append, Negotiation.psk, List.map_cons, List.map_nil, pskFrom, hnone]

theorem foldl_and (l : List UInt8) : ∀ b : Bool, l.foldl (fun b m => b && m == 1) b = (b && l.all (· == 1)) := by
  induction l with
  | nil => simp
  | cons a l ih => intro b; simp [ih, Bool.and_assoc]

/-- The parts of a hello that the key agreement of the server depends on. -/
theorem offer_dh {s : CStart} (hf : ClientFits s.cfg) (hdh : ∀ g ∈ s.cfg.groups, DhWorks E.D g) {x x' : Ctx} {c0 c : Coins}
    {w : CWaitSH} {acts : List Action} (hw : s.next E x c0 = .ok (w, acts, x')) (a : MadeHello E x c0 s w.clientHello x') {o : Offer}
    (O : OfferRead s a.shares a.early a.psk o) (scfg : Config) :
    ∃ dhc, Negotiation.dh E.D (scfg.groups.map (·.toNat)) c.dh (o.shares.map fun e => ⟨e.1.toNat, e.2.1⟩) = .ok dhc ∧
      (∀ r, dhc = some r → ∃ (g : UInt16) (priv z : Bytes), r.1 = g.toNat ∧ 0 < r.2.1.length ∧
        r.2.1.length = keyExchangeSize g.toNat ∧ lookupDH w.offeredDH g = some priv ∧
        keyAgreement E.D g.toNat r.2.1 priv = .ok z ∧ r.2.2 = z) ∧
      ((∃ g ∈ s.cfg.groups, g ∈ scfg.groups) → dhc.isSome = true) := by
  obtain ⟨shares, random, exts, hs, hr, _, hcase⟩ := CStart.next_ok hw
  have hshares : a.shares = shares := by
    have := a.sharesOk
    rw [hs, Res.ok.injEq] at this
    exact this.symm
  have hsm : shares.map (·.1) = s.cfg.groups := by
    obtain ⟨sh', h1, h2⟩ := makeShares_fits (D := E.D) c0.dh hdh
    rw [hs, Res.ok.injEq] at h1
    rw [h1]; exact h2
  have hworks : ∀ k ∈ shares, DhWorks E.D k.1 ∧ ∃ n, newKeyShare E.D n k.1.toNat = .ok (k.2.1, k.2.2) := by
    intro k hk
    obtain ⟨h1, h2⟩ := makeShares_mem hs k hk
    exact ⟨hdh _ h1, h2⟩
  have hdist : (shares.map (·.1)).Nodup := by rw [hsm]; exact hf.distinct
  have hoff : w.offeredDH = privates shares := by rcases hcase with ⟨k, o', _, _, rfl, _⟩ | ⟨_, hello, _, rfl, _⟩ <;> rfl
  have hmap : (o.shares.map fun e => (⟨e.1.toNat, e.2.1⟩ : Share)) = shares.map fun k => ⟨k.1.toNat, k.2.1⟩ := by
    rw [O.shares_, hshares, List.map_map]; rfl
  rw [hmap]
  rcases dh_honest scfg.groups shares hworks c.dh with ⟨r, h1, h2⟩ | ⟨h1, h2⟩
  · refine ⟨some r, h1, fun r' hr' => ?_, fun _ => rfl⟩
    cases hr'
    obtain ⟨k, h1, h2, h3, ⟨n, priv, h4⟩, h5⟩ := h2
    have h6 := dhWorks_size (hworks k h1).1 h4
    exact ⟨k.1, k.2.2, r.2.2, h3, h6.2, h6.1, by rw [hoff]; exact lookup_of_mem hdist h1, h5, rfl⟩
  · refine ⟨none, h1, fun r' hr' => (by cases hr'), ?_⟩
    rintro ⟨g, hg, hg'⟩
    rw [← hsm] at hg
    obtain ⟨k, hk, rfl⟩ := List.mem_map.1 hg
    exact absurd hg' (h2 k hk)

theorem offered_mem {k : Option Psk} {suites : List UInt16} {s : UInt16} (h : s ∈ offeredSuites k suites) : s ∈ suites := by
  unfold offeredSuites at h
  split at h
  · exact h
  · exact (List.mem_filter.1 h).1

/-- Without a common PSK, a suite is chosen, and there is no early data. -/
theorem offer_suite {s : CStart} {scfg : Config} (U : UseCert E now s.cfg scfg) {x x' : Ctx} {c0 : Coins} {m : Msg}
    (a : MadeHello E x c0 s m x') : a.early = false ∧ ∃ s0 ∈ offeredSuites (s.cfg.psks s.cfg.serverName) s.cfg.suites, s0 ∈ scfg.suites ∧
      cipherSuite none (scfg.suites.map (·.toNat)) (a.suites.map (·.toNat)) = .ok s0.toNat := by
  have hearly : a.early = false ∧ a.suites = offeredSuites (s.cfg.psks s.cfg.serverName) s.cfg.suites := by
    have N := U.noPsk
    unfold NoCommonPsk at N
    rcases a.pskOk with ⟨h, _, h1, h2⟩ | ⟨k1, p1, bd, trunc, hk1, hp1, _, h1, h2, _⟩
    · rw [h]; exact ⟨h1, h2⟩
    · rw [hk1] at N
      refine ⟨by rw [h1, N.2.2.2]; rfl, ?_⟩
      rw [hk1, h2, compatibleSuites_eq hp1]
      rfl
  obtain ⟨s0, hs0, hs0s, hsuite⟩ := cipherSuite_common scfg.suites a.suites (by rw [hearly.2]; exact U.suite)
  exact ⟨hearly.1, s0, by rw [← hearly.2]; exact hs0, hs0s, hsuite⟩

/-- A server that uses no PSK answers a hello with a ServerHello, if it is satisfied with the cookie or wants none. -/
theorem server_cert {s : CStart} {scfg : Config} (hf : ClientFits s.cfg) (hdh : ∀ g ∈ s.cfg.groups, DhWorks E.D g)
    (U : UseCert E now s.cfg scfg) {x x' y y1 y2 : Ctx} {c0 c : Coins} {w : CWaitSH} {acts : List Action}
    (hw : s.next E x c0 = .ok (w, acts, x')) (a : MadeHello E x c0 s w.clientHello x') {o : Offer}
    (hread : readHello y (arrived d w.clientHello) =
      .ok (⟨wireVersion x, a.random, [], a.suites, (helloBodies s a.shares a.early a.psk).map bodyExt⟩, o))
    (O : OfferRead s a.shares a.early a.psk o) {first : Option (Bytes × Params)} {retry : Option Msg}
    (hcookie : checkCookie scfg o = .ok first)
    (hchoice : choosePsk E y scfg c.now ⟨wireVersion x, a.random, [], a.suites, (helloBodies s a.shares a.early a.psk).map bodyExt⟩ o
      first = .ok (none, y1))
    (hdiffers : ∀ f, first = some f → ∀ su ∈ s.cfg.suites, su ∈ scfg.suites → f.2.suite = su.toNat)
    (hretry : ∀ su ∈ s.cfg.suites, su ∈ scfg.suites → chooseRetry E y1 scfg c (arrived d w.clientHello)
      ⟨wireVersion x, a.random, [], a.suites, (helloBodies s a.shares a.early a.psk).map bodyExt⟩ o su = .ok (retry, false, y2))
    (hhellos : ∀ y : Ctx, y.datagram = d → hashMsgBytes (first.map (·.1)) ++ y.bytesOpt retry ++ y.bytes (arrived d w.clientHello) =
      hashMsgBytes w.firstHello ++ y.bytesOpt w.retry ++ y.bytes w.clientHello) :
    ∃ n, SStart.next E y c ⟨scfg⟩ (arrived d w.clientHello) = .ok (.negotiated n, y2) ∧ Matched E d now w n := by
  obtain ⟨shares, random, exts, hs, hr, _, hcase⟩ := CStart.next_ok hw
  have hcfg : w.cfg = s.cfg := by rcases hcase with ⟨k, o', _, _, rfl, _⟩ | ⟨_, hello, _, rfl, _⟩ <;> rfl
  have hparams : w.params = { serverName := s.cfg.serverName, clientSendingEarlyData := a.early } := by
    rcases a.pskOk with ⟨h1, _, h2, _⟩ | ⟨k1, p, bd, trunc, h1, _, _, h2, _⟩ <;>
      rcases hcase with ⟨k, o', h3, _, rfl, _⟩ | ⟨h3, hello, _, rfl, _⟩
    · rw [h1] at h3; cases h3
    · rw [h2]
    · rw [h2]
    · rw [h1] at h3; cases h3
  have hprotos : ∀ p ∈ o.alpn, p.length ≤ 255 := by
    rw [O.alpn]; exact fun p hp => (hf.protos.2 p hp).2
  obtain ⟨hearly, s0, hs0o, hs0s, hsuite⟩ := offer_suite U a
  have hs0c := offered_mem hs0o
  obtain ⟨dhc, hdhc, hdhFacts, hsome⟩ := offer_dh (c := c) hf hdh hw a O scfg
  have hdsome := hsome U.group
  obtain ⟨r, rfl⟩ := Option.isSome_iff_exists.1 hdsome
  have hmode : pskMode true false o.modes = (true, false) := by simp [pskMode]
  obtain ⟨cert, hcm, sch, hsch, hname, hvalid, hcert⟩ := certificate_found hf.name.1 U.chains U.certificate
  obtain ⟨proto, hproto, hprotoLen⟩ := alpn_fits (k := none) (supported := scfg.nextProtos) hprotos (by intro k1 hk1; cases hk1)
  have hoearly : o.earlyData = false := by rw [O.earlyData, hearly]
  have hdiff : suiteDiffers first s0.toNat = false := by
    cases hfirst : first with
    | none => rfl
    | some f => simp [suiteDiffers, hdiffers f hfirst s0 hs0c hs0s]
  have hsuiteNat : UInt16.ofNat s0.toNat = s0 := by simp
  obtain ⟨r1, r2, r3⟩ := r
  have hnext : ∃ n, SStart.next E y c ⟨scfg⟩ (arrived d w.clientHello) = .ok (.negotiated n, y2) ∧
      n = { cfg := scfg
            params :=
              { usingPSK := false, usingDH := true, clientSendingEarlyData := false, usingEarlyData := false,
                rejectedEarlyData := false, suite := s0, serverName := s.cfg.serverName, nextProto := proto }
            dhGroup := r1
            dhPublic := r2
            dhSecret := some r3
            pskSecret := []
            earlyTraffic := []
            selectedPSK := 0
            cert := some cert
            certScheme := sch.toNat
            sessionId := []
            firstHello := first.map (·.1)
            retry := retry
            clientHello := arrived d w.clientHello } := by
    refine ⟨_, ?_, rfl⟩
    simp only [SStart.next, hread, Res.bind_ok, hcookie, List.length_nil, ne_eq, not_true_eq_false, false_and, if_false, hdhc, hchoice,
      Option.map_none, hsuite, orAlert_val, hdiff, Bool.false_eq_true, hretry s0 hs0c hs0s, SStart.finish, Option.isSome_some, Option.isSome_none, hmode, Bool.not_true,
      Bool.false_and, chooseCert, if_true, O.serverName, O.groups, O.sigAlgs, hcert, Negotiation.earlyData, hoearly, serverEarly, hproto, hsuiteNat,
      Option.getD_some, Option.map_some]
  obtain ⟨n, hn, rfl⟩ := hnext
  refine ⟨_, hn, ?_⟩
  exact {
    suiteOffered := by rw [hcfg]; exact hs0c
    suiteKnown := U.known _ hs0s
    session := by simp
    hellos := hhellos
    dh := by
      intro _
      obtain ⟨g, priv, z, h1, h2, h3, h4, h5, h6⟩ := hdhFacts _ rfl
      exact ⟨g, priv, z, h1, h2, h3, h4, h5, by rw [← h6]⟩
    noDh := fun h => by cases h
    psk := fun h => by cases h
    clientParams := by rw [hparams, hearly]
    early := rfl
    notRejected := rfl
    earlyPsk := fun h => by cases h
    earlyKeys := fun h => by cases h
    notAuth := rfl
    proto := hprotoLen
    agreed := by rw [hcfg, ← O.alpn]; exact alpn_agreed hproto
    resumed := by
      intro k1 k1' S1
      rw [hcfg] at S1
      have N := U.noPsk
      unfold NoCommonPsk at N
      rw [S1.client] at N
      have h2 : scfg.psks (hexString k1.identity) = some k1' := S1.server
      rw [N.2.2.1] at h2
      cases h2
    cert := by
      intro _
      refine ⟨cert, sch, rfl, rfl, usable_mono (U.usable cert hcm hname) (by simpa using hsch), hvalid, ?_, ?_⟩
      · rw [hcfg]; exact U.verified cert hcm hname
      · rw [hcfg]; exact fun f hf => U.accepted f hf cert hcm hname
    auth := by
      intro _ hreq
      rw [hcfg]
      exact U.clientAuth hreq }

/-- A compatible server answers the hello with a ServerHello. -/
theorem server_start (hP : E.P.Sized) {ccfg scfg : Config} (C : Compatible E now ccfg scfg) {x x' y : Ctx} {c0 c : Coins} {w : CWaitSH}
    {acts : List Action} (hw : ({ cfg := ccfg } : CStart).next E x c0 = .ok (w, acts, x')) (hx : x.datagram = d) (hy : y.datagram = d)
    (hc0 : now c0.now) (hc : now c.now) :
    ∃ n, SStart.next E y c ⟨scfg⟩ (arrived d w.clientHello) = .ok (.negotiated n, y) ∧ Matched E d now w n := by
  obtain ⟨a⟩ := CStart.next_hello hP hw
  obtain ⟨o, hread, O⟩ := hello_read a (hy.trans hx.symm) d
  obtain ⟨hpk, hnopk⟩ := choosePsk_honest (now := now) (y := y) (c := c) hP a O (scfg := scfg) hc0 hc
  obtain ⟨shares, random, exts, hs, hr, _, hcase⟩ := CStart.next_ok hw
  have hcfg : w.cfg = ccfg := by rcases hcase with ⟨k, o', _, _, rfl, _⟩ | ⟨_, hello, _, rfl, _⟩ <;> rfl
  have hfirst : w.firstHello = none ∧ w.retry = none := by rcases hcase with ⟨k, o', _, _, rfl, _⟩ | ⟨_, hello, _, rfl, _⟩ <;> exact ⟨rfl, rfl⟩
  have hparams : w.params = { serverName := ccfg.serverName, clientSendingEarlyData := a.early } := by
    rcases a.pskOk with ⟨h1, _, h2, _⟩ | ⟨k1, p, bd, trunc, h1, _, _, h2, _⟩ <;>
      rcases hcase with ⟨k, o', h3, _, rfl, _⟩ | ⟨h3, hello, _, rfl, _⟩
    · dsimp only at h1 h3; rw [h1] at h3; cases h3
    · rw [h2]
    · rw [h2]
    · dsimp only at h1 h3; rw [h1] at h3; cases h3
  have hcookie : checkCookie scfg o = .ok none := by simp [checkCookie, O.cookie]
  obtain ⟨dhc, hdh, hdhFacts, hsome⟩ := offer_dh (c := c) C.fits C.dh hw a O scfg
  have hhellos : ∀ y : Ctx, y.datagram = d → hashMsgBytes none ++ y.bytesOpt none ++ y.bytes (arrived d w.clientHello) =
      hashMsgBytes w.firstHello ++ y.bytesOpt w.retry ++ y.bytes w.clientHello := by
    intro z hz
    rw [hfirst.1, hfirst.2, bytes_arrived hz]
  have hretry : ∀ su, chooseRetry E y scfg c (arrived d w.clientHello)
      ⟨wireVersion x, a.random, [], a.suites, (helloBodies { cfg := ccfg } a.shares a.early a.psk).map bodyExt⟩ o su = .ok (none, false, y) := by
    intro su
    simp [chooseRetry, C.noCookie]
  have hprotos : ∀ p ∈ o.alpn, p.length ≤ 255 := by
    rw [O.alpn]; exact fun p hp => (C.fits.protos.2 p hp).2
  rcases C.method with ⟨k, k', S⟩ | U
  · -- with a PSK
    obtain ⟨p, hp, hchoice⟩ := hpk k k' S
    obtain ⟨s0, hs0, hs0'⟩ := S.offered
    have hearly : a.early = ccfg.allowEarlyData ∧ a.suites = compatibleSuites p.hash ccfg.suites := by
      rcases a.pskOk with ⟨h, _⟩ | ⟨k1, p1, bd, trunc, hk1, hp1, _, h1, h2, _⟩
      · dsimp only at h; rw [S.client] at h; cases h
      · dsimp only at hk1
        rw [S.client, Option.some.injEq] at hk1
        subst hk1
        rw [hp, Option.some.injEq] at hp1
        subst hp1
        exact ⟨by rw [h1]; simp, h2⟩
    have hmem : s0 ∈ a.suites := by
      rw [hearly.2, compatibleSuites, List.mem_filter]
      refine ⟨hs0, ?_⟩
      rw [hs0', hp]; simp
    have hsuite : cipherSuite (some k') (scfg.suites.map (·.toNat)) (a.suites.map (·.toNat)) = .ok k'.suite := by
      apply cipherSuite_psk
      rw [S.suite, ← hs0']
      exact toNat_mem.2 hmem
    have hk'suite : UInt16.ofNat k'.suite = s0 := by rw [S.suite, ← hs0']; simp
    have hmode : (pskMode dhc.isSome true o.modes).2 = true := by
      simp only [pskMode, foldl_and, O.modes, Bool.true_and]
      have h1 : 0 < ccfg.pskModes.length := List.length_pos_iff.2 S.modes
      rcases S.exchange with ⟨md, h2, h3⟩ | h2
      · have : ccfg.pskModes.all (· == 1) = false := by
          rw [List.all_eq_false]; exact ⟨md, h2, by simpa using h3⟩
        simp [this, h1]
      · simp [hsome h2, h1]
    have hearlyOk : Negotiation.earlyData true a.early scfg.allowEarlyData = (a.early, false) := by
      rw [Negotiation.earlyData]
      cases he : a.early with
      | false => simp
      | true =>
        rw [he] at hearly
        simp [S.early hearly.1.symm]
    obtain ⟨proto, hproto, hprotoLen⟩ := alpn_fits (k := some k') (supported := scfg.nextProtos) hprotos (by
      intro k1 hk1 hres
      cases hk1
      rw [S.sort] at hres
      rw [O.alpn]
      exact S.protocol hres)
    obtain ⟨et, het⟩ : ∃ et, serverEarly E y (arrived d w.clientHello) a.early k'.key (some (0, k', p)) = .ok et := by
      unfold serverEarly
      split
      · dsimp only
        rw [earlyTraffic_eq E.P hP _ (suiteParams_size hp)]
        exact ⟨_, rfl⟩
      · exact ⟨_, rfl⟩
    have hnext : ∃ n, SStart.next E y c ⟨scfg⟩ (arrived d w.clientHello) = .ok (.negotiated n, y) ∧
        n = { cfg := scfg
              params :=
                { usingPSK := true, usingDH := (pskMode dhc.isSome true o.modes).1, clientSendingEarlyData := a.early, usingEarlyData := a.early,
                  rejectedEarlyData := false, suite := s0, serverName := ccfg.serverName, nextProto := proto }
              dhGroup := match (generalizing := false) dhc with | some (g, _, _) => g | none => 0
              dhPublic := match (generalizing := false) dhc with | some (_, pub, _) => pub | none => []
              dhSecret := if (pskMode dhc.isSome true o.modes).1 then dhc.map (·.2.2) else none
              pskSecret := k'.key
              earlyTraffic := et
              selectedPSK := 0
              cert := none
              certScheme := 0
              sessionId := []
              firstHello := none
              retry := none
              clientHello := arrived d w.clientHello } := by
      refine ⟨_, ?_, rfl⟩
      simp only [SStart.next, hread, Res.bind_ok, hcookie, List.length_nil, ne_eq, not_true_eq_false, false_and, if_false, hdh, hchoice,
        Option.map_some, hsuite, orAlert_val, suiteDiffers, Bool.false_eq_true, hretry, SStart.finish, Option.isSome_some, hmode, Bool.not_true,
        Bool.and_false, chooseCert, if_true, hearlyOk, het, hproto, hk'suite, Option.map_none, O.serverName, O.earlyData, Option.getD_some]
      rfl
    obtain ⟨n, hn, rfl⟩ := hnext
    refine ⟨_, hn, ?_⟩
    have hdhu : (pskMode dhc.isSome true o.modes).1 = true → ∃ r, dhc = some r := by
      intro h
      cases dhc with
      | none => simp [pskMode] at h
      | some r => exact ⟨r, rfl⟩
    have hes : w.earlySecret = hkdfExtract E.P p.hash (some (zeros p.hash)) k'.key := by
      rcases hcase with ⟨k1, o', hk1, ho, rfl, _⟩ | ⟨h, _⟩
      · dsimp only at hk1 ho
        rw [S.client, Option.some.injEq] at hk1
        subst hk1
        obtain ⟨p1, _, _, _, _, _, _, _, hp1, _, _, _, _, _, _, _, _, hes, _⟩ := offerPsk_ok ho
        rw [hp, Option.some.injEq] at hp1
        subst hp1
        dsimp only
        rw [hes, S.key]
      · dsimp only at h; rw [S.client] at h; cases h
    exact {
      suiteOffered := by rw [hcfg]; exact hs0
      suiteKnown := by show (suiteParams s0.toNat).isSome; rw [hs0']; exact S.known
      session := by simp
      hellos := hhellos
      dh := by
        intro hu
        obtain ⟨r, rfl⟩ := hdhu hu
        obtain ⟨g, priv, z, h1, h2, h3, h4, h5, h6⟩ := hdhFacts r rfl
        obtain ⟨r1, r2, r3⟩ := r
        dsimp only at hu h1 h2 h3 h5 h6 ⊢
        exact ⟨g, priv, z, h1, h2, h3, h4, h5, by rw [if_pos hu, ← h6]; rfl⟩
      noDh := by intro hu; dsimp only at hu ⊢; rw [hu]; rfl
      psk := by
        intro _
        refine ⟨rfl, fun q hq => ?_⟩
        dsimp only at hq
        rw [hs0', hp, Option.some.injEq] at hq
        subst hq
        exact hes
      clientParams := hparams
      early := rfl
      notRejected := rfl
      earlyPsk := fun _ => rfl
      earlyKeys := by
        intro hu
        dsimp only at hu
        refine ⟨fun k1 hk1 => ?_, fun q hq z hz => ?_⟩
        · rw [hcfg, S.client, Option.some.injEq] at hk1
          rw [← hk1]; exact hs0'.symm
        · dsimp only at hq ⊢
          rw [hs0', hp, Option.some.injEq] at hq
          subst hq
          simp only [serverEarly, hu, if_true, earlyTraffic_eq E.P hP _ (suiteParams_size hp), Res.ok.injEq] at het
          rw [← het, hes, bytes_arrived hy, bytes_congr (hy.trans hz.symm)]
      notAuth := rfl
      proto := hprotoLen
      agreed := by rw [hcfg, ← O.alpn]; exact alpn_agreed hproto
      resumed := by
        intro k1 k1' S1
        rw [hcfg] at S1 ⊢
        have h1 := S1.client
        rw [S.client, Option.some.injEq] at h1
        subst h1
        have h2 : scfg.psks (hexString k.identity) = some k1' := S1.server
        rw [S.server, Option.some.injEq] at h2
        subst h2
        refine ⟨rfl, hs0', fun hr => ?_⟩
        have := alpn_resumed hproto (by rw [S.sort]; exact hr)
        rw [O.alpn] at this
        exact this
      cert := fun h => by cases h
      auth := fun h => by cases h }
  · -- with a certificate
    exact server_cert C.fits C.dh U hw a hread O (first := none) (retry := none) hcookie (hnopk U.noPsk) (fun _ h => by cases h) (fun su _ _ => hretry su) hhellos

end Verif.Machine
