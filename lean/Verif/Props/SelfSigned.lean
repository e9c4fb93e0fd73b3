import Mathlib.Logic.Equiv.List
import Mathlib.Data.Countable.Basic
import Verif.Spec.SelfSigned
import Verif.Spec.Compatible
import Verif.Props.Negotiation

/-
C92: what `MakeNewSelfSignedCert` makes can be used with the scheme and the name it was made for.
-/

namespace Verif.Props

open Verif Verif.Crypto Verif.Negotiation Verif.Machine Verif.Spec

theorem newSigningKey_kind {M : CertMaker} (hM : Makes M) {alg : Nat} (ha : alg ∈ madeFor) :
    ∃ k, M.newSigningKey alg = .ok k ∧ Generated M k ∧
      ((k.kind = .rsa ∧ alg ∈ [0x0401, 0x0501, 0x0601]) ∨ (k.kind = .ecdsa 23 ∧ alg = 0x0403) ∨
        (k.kind = .ecdsa 24 ∧ alg = 0x0503) ∨ (k.kind = .ecdsa 25 ∧ alg = 0x0603)) := by
  obtain ⟨v, hv⟩ := Option.isSome_iff_exists.1 hM.rsa
  obtain ⟨v1, hv1⟩ := Option.isSome_iff_exists.1 (hM.ec 23 (by simp))
  obtain ⟨v2, hv2⟩ := Option.isSome_iff_exists.1 (hM.ec 24 (by simp))
  obtain ⟨v3, hv3⟩ := Option.isSome_iff_exists.1 (hM.ec 25 (by simp))
  simp only [madeFor, List.mem_cons, List.not_mem_nil, or_false] at ha
  rcases ha with rfl | rfl | rfl | rfl | rfl | rfl
  · exact ⟨⟨.rsa, v⟩, by simp [CertMaker.newSigningKey, hv], .inl ⟨rfl, hv⟩, by simp⟩
  · exact ⟨⟨.rsa, v⟩, by simp [CertMaker.newSigningKey, hv], .inl ⟨rfl, hv⟩, by simp⟩
  · exact ⟨⟨.rsa, v⟩, by simp [CertMaker.newSigningKey, hv], .inl ⟨rfl, hv⟩, by simp⟩
  · exact ⟨⟨.ecdsa 23, v1⟩, by simp [CertMaker.newSigningKey, CertMaker.newEc, hv1], .inr ⟨23, rfl, hv1⟩, by simp⟩
  · exact ⟨⟨.ecdsa 24, v2⟩, by simp [CertMaker.newSigningKey, CertMaker.newEc, hv2], .inr ⟨24, rfl, hv2⟩, by simp⟩
  · exact ⟨⟨.ecdsa 25, v3⟩, by simp [CertMaker.newSigningKey, CertMaker.newEc, hv3], .inr ⟨25, rfl, hv3⟩, by simp⟩

/-- For PKCS#1 and ECDSA (not with SHA-1) and every name that is not empty, a key and a certificate are returned: the
certificate is for exactly this name and for the key. The key is an RSA key or one on the curve of the scheme, and can sign
with the scheme. -/
theorem C92_made (M : CertMaker) (hM : Makes M) (name : Bytes) (alg : Nat) (hn : name ≠ []) (ha : alg ∈ madeFor) :
    ∃ k cert, M.makeNewSelfSignedCert name alg = .ok (k, some cert) ∧ cert.dnsNames = [name] ∧ cert.pub = M.pub k ∧
      M.parse cert.raw = some cert ∧ 0 < cert.raw.length ∧ Generated M k ∧
      ((k.kind = .rsa ∧ alg ∈ [0x0401, 0x0501, 0x0601]) ∨ (k.kind = .ecdsa 23 ∧ alg = 0x0403) ∨
        (k.kind = .ecdsa 24 ∧ alg = 0x0503) ∨ (k.kind = .ecdsa 25 ∧ alg = 0x0603)) := by
  obtain ⟨k, h1, h2, h3⟩ := newSigningKey_kind hM ha
  obtain ⟨sn, hs⟩ := Option.isSome_iff_exists.1 hM.serial
  have halg : ∃ a, x509Alg alg = some a ∧ AlgFits a k.kind := by
    rcases h3 with ⟨hk, h⟩ | ⟨hk, rfl⟩ | ⟨hk, rfl⟩ | ⟨hk, rfl⟩
    · simp only [List.mem_cons, List.not_mem_nil, or_false] at h
      rcases h with rfl | rfl | rfl <;> exact ⟨_, rfl, hk⟩
    all_goals exact ⟨_, rfl, _, hk⟩
  obtain ⟨a, ha1, ha2⟩ := halg
  obtain ⟨der, hd1, hd2, hd3⟩ := hM.created ⟨sn, a, name, [name]⟩ k ha2
  refine ⟨k, ⟨der, [name], M.pub k⟩, ?_, rfl, rfl, hd2, hd3, h2, h3⟩
  have hl : ¬ name.length = 0 := fun h => hn (List.length_eq_zero_iff.1 h)
  simp [CertMaker.makeNewSelfSignedCert, h1, Res.bind_ok, CertMaker.newSelfSigned, ha1, hl, hs, hd1, hd2]

/-- Whatever the libraries do, an error is returned for an empty name and for every other scheme than PKCS#1 and ECDSA. -/
theorem C92_refused (M : CertMaker) (name : Bytes) (alg : Nat) (h : name = [] ∨ (alg ∉ madeFor ∧ alg ≠ 0x0201))
    (r : PrivKey × Option X509) : M.makeNewSelfSignedCert name alg ≠ .ok r := by
  intro hr
  simp only [CertMaker.makeNewSelfSignedCert, Res.bind_eq_ok] at hr
  obtain ⟨k, _, c, hc, _⟩ := hr
  unfold CertMaker.newSelfSigned at hc
  rcases h with rfl | ⟨h1, h2⟩
  · split at hc
    · cases hc
    · simp at hc
  · have : x509Alg alg = none := by
      simp only [madeFor, List.mem_cons, List.not_mem_nil, or_false, not_or] at h1
      simp [x509Alg, h1, h2]
    rw [this] at hc
    cases hc

theorem nameOk_of {k : PrivKey} {cert : X509} {name : Bytes} (h : cert.dnsNames = [name]) (hn : name ≠ []) :
    NameOk (some name) ⟨[cert], k⟩ := by
  simp [NameOk, h, hn]

theorem producible_signs {M : CertMaker} {S : Sig} (hS : SignsAndVerifies M S) (hM : Makes M) (P : Prims) {k : PrivKey}
    (hk : Generated M k) {s : Nat} (hp : Producible s k) (input : Bytes) :
    ∃ sig, sign P S s k input = .ok sig ∧ sig.length < 65536 ∧ verify P S s (M.pub k) input sig = true := by
  have hkind := hM.kind k
  have key : ∀ a h, schemeAlg s = a → schemeHash s = h → (h = .sha256 ∨ h = .sha384 ∨ h = .sha512) →
      (k.kind = .rsa ∧ (a = .pkcs1 ∨ a = .pss)) ∨ (∃ c, k.kind = .ecdsa c ∧ a = .ecdsa ∧ schemeCurve s = c) →
      ∃ sig, sign P S s k input = .ok sig ∧ sig.length < 65536 ∧ verify P S s (M.pub k) input sig = true := by
    intro a h ha hh hc hf
    obtain ⟨sig, h1, h2, h3⟩ := hS k hk a h (P.hash h input) hc (by
      rcases hf with h | ⟨c, h4, h5, _⟩
      · exact .inl h
      · exact .inr ⟨c, h4, h5⟩)
    have hne : h ≠ .sha1 := by rintro rfl; simp at hc
    refine ⟨sig, ?_, h2, ?_⟩
    · rcases hf with ⟨hr, hpq⟩ | ⟨c, hr, he, hcv⟩
      · simp [sign, ha, hh, hne, hr, hpq, h1]
      · subst he
        simp [sign, ha, hh, hne, hr, hcv, h1]
    · rcases hf with ⟨hr, hpq⟩ | ⟨c, hr, he, hcv⟩
      · simp [verify, ha, hh, hne, hkind, hr, hpq, h3]
      · subst he
        simp [verify, ha, hh, hne, hkind, hr, hcv, h3]
  rcases hp with ⟨hk, h⟩ | ⟨hk, rfl⟩ | ⟨hk, rfl⟩ | ⟨hk, rfl⟩
  · simp only [List.mem_cons, List.not_mem_nil, or_false] at h
    rcases h with rfl | rfl | rfl | rfl | rfl | rfl <;> exact key _ _ rfl rfl (by decide) (.inl ⟨hk, by decide⟩)
  all_goals exact key _ _ rfl rfl (by decide) (.inr ⟨_, hk, rfl, rfl⟩)

/-- A server with nothing but this certificate, asked for this name by a client with any list of schemes that has the one
the certificate was made for (or, for RSA, one of PKCS#1 or PSS), selects the certificate, signs with one of the client's
schemes, and the signature verifies; so the certificate can be used with these schemes in the sense of C42, where handshakes
are shown to complete. Missing, because it is not so: the client must not offer SHA-1, and must offer no other ECDSA scheme
if the certificate is for ECDSA. -/
theorem C92_usable_partial (E : Env) (M : CertMaker) (hM : Makes M) (hS : SignsAndVerifies M E.S) (hE : E.x509 = M.parse)
    (name : Bytes) (alg : Nat) (hn : name ≠ []) (ha : alg ∈ madeFor) (k : PrivKey) (cert : X509)
    (h : M.makeNewSelfSignedCert name alg = .ok (k, some cert)) (size : cert.raw.length < 16777195)
    (schemes : List UInt16) (sha1 : 0x0201 ∉ schemes)
    (only : alg ∈ ecdsaSchemes → ∀ s ∈ schemes, s.toNat ∈ ecdsaSchemes → s.toNat = alg) :
    Usable E schemes ⟨[cert], k⟩ ∧
    ((∃ s ∈ schemes, s.toNat = alg ∨ (alg ∉ ecdsaSchemes ∧ s.toNat ∈ [0x0401, 0x0501, 0x0601] ++ pssSchemes)) →
      ∃ s ∈ schemes, certificate (some name) (schemes.map (·.toNat)) [⟨[cert], k⟩] = .ok (⟨[cert], k⟩, s.toNat) ∧
        ∀ input, ∃ sig, sign E.P E.S s.toNat k input = .ok sig ∧ verify E.P E.S s.toNat cert.pub input sig = true) := by
  obtain ⟨k', cert', h1, h2, h3, h4, h5, h6, h7⟩ := C92_made M hM name alg hn ha
  rw [h1, Res.ok.injEq, Prod.mk.injEq, Option.some.injEq] at h
  obtain ⟨rfl, rfl⟩ := h
  have hp : ∀ s ∈ schemes, SchemeFits s.toNat k' → Producible s.toNat k' := by
    intro s hs hf
    have hne : s.toNat ≠ 0x0201 := fun e => sha1 (by
      have : s = 0x0201 := UInt16.toNat.inj e
      rw [← this]; exact hs)
    rcases hf with ⟨hk, hm⟩ | ⟨c, hk, hm⟩
    · left
      refine ⟨hk, ?_⟩
      simp only [List.mem_cons, List.not_mem_nil, or_false] at hm ⊢
      rcases hm with h | h
      · exact absurd h hne
      · exact h
    · right
      have hm' : s.toNat ∈ ecdsaSchemes := hm
      rcases h7 with ⟨hr, _⟩ | ⟨hr, e⟩ | ⟨hr, e⟩ | ⟨hr, e⟩
      · rw [hk] at hr; cases hr
      · exact .inl ⟨hr, by rw [only (by rw [e]; decide) s hs hm', e]⟩
      · exact .inr (.inl ⟨hr, by rw [only (by rw [e]; decide) s hs hm', e]⟩)
      · exact .inr (.inr ⟨hr, by rw [only (by rw [e]; decide) s hs hm', e]⟩)
  refine ⟨⟨?_, ?_, cert', [], rfl, ?_⟩, ?_⟩
  · intro x hx
    rw [List.mem_singleton] at hx
    subst hx
    rw [hE]; exact ⟨h4, h5⟩
  · simp; omega
  · intro s hs hv input
    rw [h3]
    exact producible_signs hS hM E.P h6 (hp s hs ((schemeValidForKey_iff _ _).1 hv)) input
  · rintro ⟨s0, hs0, hc⟩
    have hfit : SchemeFits s0.toNat k' := by
      rcases h7 with ⟨hr, e⟩ | ⟨hr, e⟩ | ⟨hr, e⟩ | ⟨hr, e⟩
      · refine .inl ⟨hr, ?_⟩
        rcases hc with hc | ⟨_, hc⟩
        · rw [hc]
          simp only [List.mem_cons, List.not_mem_nil, or_false] at e ⊢
          omega
        · simp only [pssSchemes, List.cons_append, List.nil_append, List.mem_cons, List.not_mem_nil, or_false] at hc ⊢
          omega
      all_goals
        refine .inr ⟨_, hr, ?_⟩
        rcases hc with hc | ⟨hc, _⟩
        · rw [hc, e]; decide
        · exact absurd (by rw [e]; decide) hc
    have hsel := C29_selection_partial (some name) (schemes.map (·.toNat)) [⟨[cert'], k'⟩] (by simp)
    cases hcert : certificate (some name) (schemes.map (·.toNat)) [⟨[cert'], k'⟩] with
    | ok r =>
      obtain ⟨c, s⟩ := r
      rw [hcert] at hsel
      obtain ⟨q1, _, q2⟩ := hsel
      rw [List.mem_singleton] at q1
      subst q1
      obtain ⟨u, hu, rfl⟩ := List.mem_map.1 q2.mem
      refine ⟨u, hu, rfl, fun input => ?_⟩
      obtain ⟨sig, r1, _, r2⟩ := producible_signs hS hM E.P h6 (hp u hu q2.prop) input
      exact ⟨sig, r1, by rw [h3]; exact r2⟩
    | err e =>
      rw [hcert] at hsel
      exact absurd hfit (hsel.2 _ (List.mem_singleton.2 rfl) (nameOk_of h2 hn) _ (List.mem_map_of_mem hs0))
    | panic => rw [hcert] at hsel; exact hsel.elim
    | diverge => rw [hcert] at hsel; exact hsel.elim

/-- No certificate can be made for PSS, although keys are made for it, and it is what clients ask for first by default. -/
theorem C92_pss_fails (M : CertMaker) (hM : Makes M) (alg : Nat) (ha : alg ∈ pssSchemes) :
    (∃ k, M.newSigningKey alg = .ok k ∧ Producible alg k) ∧ ∀ name r, M.makeNewSelfSignedCert name alg ≠ .ok r := by
  obtain ⟨v, hv⟩ := Option.isSome_iff_exists.1 hM.rsa
  simp only [pssSchemes, List.mem_cons, List.not_mem_nil, or_false] at ha
  refine ⟨⟨⟨.rsa, v⟩, ?_, ?_⟩, fun name r => C92_refused M name alg (.inr ⟨?_, ?_⟩) r⟩
  · rcases ha with rfl | rfl | rfl <;> simp [CertMaker.newSigningKey, hv]
  · left; refine ⟨rfl, ?_⟩; rcases ha with rfl | rfl | rfl <;> simp
  · rcases ha with rfl | rfl | rfl <;> decide
  · rcases ha with rfl | rfl | rfl <;> decide

/-- A certificate made for ECDSA on P-384 or P-521 cannot be used with a client that offers the schemes it offers by default:
the scheme of P-256 is selected, with which the key cannot sign. -/
theorem C92_default_fails (M : CertMaker) (hM : Makes M) (name : Bytes) (hn : name ≠ []) (alg : Nat) (ha : alg = 0x0503 ∨ alg = 0x0603) :
    ∃ k cert, M.makeNewSelfSignedCert name alg = .ok (k, some cert) ∧
      alg ∈ [0x0804, 0x0805, 0x0806, 0x0403, 0x0503, 0x0603] ∧
      certificate (some name) [0x0804, 0x0805, 0x0806, 0x0403, 0x0503, 0x0603] [⟨[cert], k⟩] = .ok (⟨[cert], k⟩, 0x0403) ∧
      ∀ P S input, sign P S 0x0403 k input = .err .msg := by
  obtain ⟨k, cert, h1, h2, _, _, _, _, h7⟩ := C92_made M hM name alg hn (by rcases ha with rfl | rfl <;> decide)
  have hk : ∃ c, k.kind = .ecdsa c ∧ c ≠ 23 := by
    rcases h7 with ⟨_, e⟩ | ⟨_, e⟩ | ⟨hr, _⟩ | ⟨hr, _⟩
    · rcases ha with rfl | rfl <;> simp at e
    · rcases ha with rfl | rfl <;> simp at e
    · exact ⟨_, hr, by decide⟩
    · exact ⟨_, hr, by decide⟩
  obtain ⟨c, hk, hc⟩ := hk
  refine ⟨k, cert, h1, by rcases ha with rfl | rfl <;> simp, ?_, ?_⟩
  · have hl : 0 < name.length := List.length_pos_iff.2 hn
    simp [certificate, certsByName, Res.bind_ok, h2, hl, certByScheme, schemeValidForKey, hk, schemeAlg]
  · intro P S input
    simp [sign, schemeHash, schemeAlg, schemeCurve, hk, Ne.symm hc]

end Verif.Props

namespace Verif.Toy

open Verif Verif.Crypto Verif.Negotiation Verif.Spec

instance : Countable UInt8 := Function.Injective.countable (f := UInt8.toNat) fun _ _ h => UInt8.toNat.inj h

instance : Countable PubKey :=
  Function.Injective.countable
    (f := fun k : PubKey => (match k.kind with | .rsa => (0, 0) | .ecdsa c => (1, c) | .other => (2, 0), k.val)) fun a b h => by
      obtain ⟨ka, va⟩ := a
      obtain ⟨kb, vb⟩ := b
      cases ka <;> cases kb <;> simp_all

theorem codes : ∃ f : List Bytes × PubKey → Nat, Function.Injective f := Countable.exists_injective_nat _

/-- Libraries that work: a certificate is a run of as many zeros as the number of its contents. -/
noncomputable def maker : CertMaker where
  rsaKey := some 1
  ecKey c := some (c + 1)
  pub k := ⟨k.kind, k.val⟩
  serial := some 7
  create t p _ := some (1 :: List.replicate (Classical.choose codes (t.dnsNames, p)) 0)
  parse der :=
    haveI : Nonempty (List Bytes × PubKey) := ⟨([], ⟨.rsa, 0⟩)⟩
    let r := Function.invFun (Classical.choose codes) (der.length - 1)
    some ⟨der, r.1, r.2⟩

theorem maker_parse (t : Template) (k : PrivKey) : ∃ der, maker.create t (maker.pub k) k = some der ∧
    maker.parse der = some ⟨der, t.dnsNames, maker.pub k⟩ ∧ 0 < der.length := by
  have : Nonempty (List Bytes × PubKey) := ⟨([], ⟨.rsa, 0⟩)⟩
  refine ⟨_, rfl, ?_, by simp⟩
  have h := Function.leftInverse_invFun (Classical.choose_spec codes) (t.dnsNames, maker.pub k)
  simp only [maker, List.length_cons, List.length_replicate, Nat.add_sub_cancel] at h ⊢
  rw [h]

theorem maker_makes : Makes maker where
  rsa := rfl
  ec _ _ := rfl
  serial := rfl
  kind _ := rfl
  created t k _ := maker_parse t k

end Verif.Toy

namespace Verif.Props

open Verif Verif.Crypto Verif.Negotiation Verif.Machine Verif.Spec

/-- A certificate may be made for SHA-1 with RSA, but nothing can be signed with that scheme. -/
theorem C92_sha1_fails : (∃ (M : CertMaker) (k : PrivKey) (cert : X509), Makes M ∧
      M.makeNewSelfSignedCert [97] 0x0201 = .ok (k, some cert)) ∧
    ∀ P S k input, sign P S 0x0201 k input = .err .msg := by
  constructor
  · obtain ⟨der, h1, h2, _⟩ := Toy.maker_parse ⟨7, .sha1WithRSA, [97], [[97]]⟩ ⟨.rsa, 1⟩
    refine ⟨Toy.maker, ⟨.rsa, 1⟩, ⟨der, [[97]], Toy.maker.pub ⟨.rsa, 1⟩⟩, Toy.maker_makes, ?_⟩
    have e1 : Toy.maker.newSigningKey 0x0201 = .ok ⟨.rsa, 1⟩ := rfl
    have e2 : Toy.maker.serial = some 7 := rfl
    simp only [CertMaker.makeNewSelfSignedCert, e1, Res.bind_ok, CertMaker.newSelfSigned, x509Alg, if_true, e2, h1, h2,
      List.length_cons, List.length_nil, Nat.reduceAdd, one_ne_zero, if_false]
  · intro P S k input
    simp [sign, schemeHash]

/-- The hypotheses hold: these libraries work, their signatures verify, and the schemes are those of a default client
without the other ECDSA schemes. -/
example : Makes Toy.maker ∧ SignsAndVerifies Toy.maker ⟨fun k _ _ d => some (UInt8.ofNat k.val :: d.take 100),
      fun k _ _ d s => s == UInt8.ofNat k.val :: d.take 100⟩ ∧
    (0x0201 : UInt16) ∉ ([0x0804, 0x0805, 0x0806, 0x0503] : List UInt16) ∧
    ∀ s ∈ ([0x0804, 0x0805, 0x0806, 0x0503] : List UInt16), s.toNat ∈ ecdsaSchemes → s.toNat = 0x0503 := by
  refine ⟨Toy.maker_makes, ?_, by decide, by decide⟩
  intro k _ a h d _ _
  exact ⟨_, rfl, by simp; omega, by simp [Toy.maker]⟩

end Verif.Props
