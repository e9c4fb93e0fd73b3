import Verif.Crypto.Lemmas
import Verif.Crypto.Exporter
import Verif.Messages.Bodies

/-
Properties C34 (labels), C35 (exporter), C36 (cookies) and C56 (signature context).
-/

namespace Verif.Crypto

open Verif Verif.Spec

/-! ### C34 -/

theorem hkdfLabel_parts {L L' : Nat} {l l' c c' : Bytes} (hl : l.length < 250) (hl' : l'.length < 250)
    (hL : L < 65536) (hL' : L' < 65536) (h : hkdfLabel L l c = hkdfLabel L' l' c') : L = L' ∧ l = l' ∧ c = c' := by
  have e6 : (ascii "tls13 ").length = 6 := by decide
  simp only [hkdfLabel, List.append_assoc] at h
  obtain ⟨h1, h⟩ := List.append_inj h (by simp [beBytes_length])
  obtain ⟨h2, h⟩ := List.append_inj h (by simp [beBytes_length])
  have hLL : L = L' := by
    have := congrArg beNat h1
    rwa [beNat_beBytes_of_lt (by simpa using hL), beNat_beBytes_of_lt (by simpa using hL')] at this
  have hll : l.length = l'.length := by
    have := congrArg beNat h2
    rw [beNat_beBytes_of_lt (by simp [e6]; omega), beNat_beBytes_of_lt (by simp [e6]; omega)] at this
    simpa [e6] using this
  have h := List.append_cancel_left h
  obtain ⟨h3, h⟩ := List.append_inj h hll
  exact ⟨hLL, h3, (List.append_inj h (by simp [beBytes_length])).2⟩

/-- Different purposes are derived from different inputs: for labels of up to 249 bytes and outputs of less than 2^16
bytes, the info string determines label, context and length. -/
theorem C34_labels_separate_partial (l l' c c' : Bytes) (L L' : Nat) (hl : l.length < 250) (hl' : l'.length < 250)
    (hL : L < 65536) (hL' : L' < 65536) (h : hkdfEncodeLabel l c L = hkdfEncodeLabel l' c' L') :
    l = l' ∧ c = c' ∧ L = L' := by
  rw [hkdfEncodeLabel_eq, hkdfEncodeLabel_eq] at h
  obtain ⟨h1, h2, h3⟩ := hkdfLabel_parts hl hl' hL hL' h
  exact ⟨h2, h3, h1⟩

/-- All the labels of the key schedule are short enough for that, and they are pairwise different. -/
theorem C34_labels_distinct :
    let labels := ["ext binder", "res binder", "c e traffic", "e exp master", "c hs traffic", "s hs traffic", "c ap traffic",
      "s ap traffic", "exp master", "res master", "derived", "finished", "resumption", "key", "iv", "exporter",
      "traffic upd"].map ascii
    (∀ l ∈ labels, l.length < 250) ∧ labels.Nodup := by decide +kernel

/-- What is missing from `C34_labels_separate_partial`, first part: the length field of a label wraps at 256, so that a
part of the context can be taken for a part of a longer label. -/
theorem C34_long_label_fails : ∃ (l l' c c' : Bytes) (L : Nat), l ≠ l' ∧ c ≠ c' ∧
    hkdfEncodeLabel l c L = hkdfEncodeLabel l' c' L :=
  ⟨[], List.replicate 256 0, List.replicate 256 0, [], 32, by decide +kernel, by decide +kernel, by decide +kernel⟩

/-- Second part: the output length wraps at 2^16. -/
theorem C34_long_output_fails : ∃ (l c : Bytes) (L L' : Nat), L ≠ L' ∧ hkdfEncodeLabel l c L = hkdfEncodeLabel l c L' :=
  ⟨[], [], 1, 65537, by decide, by decide +kernel⟩

/-- The output is the one defined by the RFCs, and it has the requested length, whatever that is. -/
theorem C34_output (P : Prims) (hP : P.Sized) (h : HashId) (hs : 0 < h.size) (secret label ctx : Bytes) (L : Nat) :
    ∃ out, hkdfExpandLabel P h secret label ctx L = .ok out ∧ out = expandLabel P h secret label ctx L ∧
      out.length = L :=
  ⟨_, hkdfExpandLabel_eq P hP h hs secret label ctx L, rfl, expand_length P hP h hs _ _ L⟩

/-- With the same info a shorter output is a prefix of a longer one. -/
theorem C34_prefix (P : Prims) (hP : P.Sized) (h : HashId) (hs : 0 < h.size) (prk info : Bytes) (L L' : Nat)
    (hle : L ≤ L') (out out' : Bytes) (ho : hkdfExpand P h prk info L = .ok out)
    (ho' : hkdfExpand P h prk info L' = .ok out') : out <+: out' := by
  rw [hkdfExpand_eq P hP h hs, Res.ok.injEq] at ho ho'
  subst ho ho'
  have e : expand P h prk info L = (expand P h prk info L').take L := by
    show (blocks P h prk info ((L + h.size - 1) / h.size)).take L = ((blocks P h prk info ((L' + h.size - 1) / h.size)).take L').take L
    rw [List.take_take, Nat.min_eq_left hle]
    exact (take_blocks_eq P hP h prk info L _ _ (ceil_mul L h.size hs) (Nat.div_le_div_right (by omega))).symm
  rw [e]
  exact List.take_prefix _ _

/-- Primitives with which the theorems can be tried out: digests and MACs of the right length. -/
def toyPrims : Prims where
  hash h b := (b ++ List.replicate h.size 0).take h.size
  hmac h k b := (b ++ k ++ List.replicate h.size 7).take h.size

theorem toyPrims_sized : toyPrims.Sized :=
  ⟨fun h b => by simp [toyPrims], fun h k b => by simp [toyPrims]; omega⟩

/-- A prefix of a longer output over two blocks. -/
example : hkdfExpand toyPrims .sha256 [1] [2] 3 = .ok [2, 1, 1] ∧
    hkdfExpand toyPrims .sha256 [1] [2] 4 = .ok [2, 1, 1, 7] := by decide +kernel

/-- Traffic keys: the two outputs come from different infos. -/
example : hkdfEncodeLabel labelForKey [] 16 ≠ hkdfEncodeLabel labelForIV [] 12 := by decide

/-! ### C35 -/

theorem ascii_exporter : ascii "exporter" = labelExporter := by decide

/-- What the exporter computes: the RFC's value, except that the context followed by the digest of the empty string
stands where the digest of the context should. In particular it always succeeds on a connection with an exporter
secret, its output has the requested length, and it is a function of hash, secret, label, context and length, so that
both ends obtain the same value once they have the same secret. -/
theorem C35_value_partial (P : Prims) (hP : P.Sized) (h : HashId) (hs : 0 < h.size) (secret label context : Bytes) (L : Nat) :
    ∃ out, computeExporter P true (some secret) h label context L = .ok out ∧ out.length = L ∧
      out = expandLabel P h (derive P h secret label []) (ascii "exporter") (context ++ P.hash h []) L := by
  refine ⟨_, ?_, expand_length P hP h hs _ _ L, rfl⟩
  simp only [computeExporter, Bool.not_true, Bool.false_eq_true, if_false]
  rw [deriveSecret_eq P hP h hs, Res.bind_ok, hkdfExpandLabel_eq P hP h hs, ascii_exporter]
  rfl

/-- Before the handshake is complete, or without an exporter secret, nothing is exported. -/
theorem C35_not_connected (P : Prims) (connected : Bool) (secret : Option Bytes) (h : HashId) (label context : Bytes)
    (L : Nat) (hc : connected = false ∨ secret = none) :
    computeExporter P connected secret h label context L = .err .msg := by
  unfold computeExporter
  rcases hc with rfl | rfl
  · rfl
  · cases connected <;> rfl

/-- Different labels and different contexts, of whatever lengths, are derived through different inputs: the info given
to the first HKDF call determines the label, that given to the second one the context. -/
theorem C35_inputs_separate (P : Prims) (h : HashId) (label label' context context' : Bytes) (L : Nat) :
    (hkdfEncodeLabel label (P.hash h []) h.size = hkdfEncodeLabel label' (P.hash h []) h.size → label = label') ∧
    (hkdfEncodeLabel labelExporter (context ++ P.hash h []) L = hkdfEncodeLabel labelExporter (context' ++ P.hash h []) L →
      context = context') := by
  constructor
  · intro e
    simp only [hkdfEncodeLabel, List.append_assoc] at e
    have e := (List.append_inj e rfl).2
    have e := List.append_cancel_left e
    have hl := congrArg List.length e
    simp only [List.length_append] at hl
    exact (List.append_inj e (by omega)).1
  · intro e
    simp only [hkdfEncodeLabel, List.append_assoc] at e
    have e := (List.append_inj e rfl).2
    have e := List.append_cancel_left e
    have e := List.append_cancel_left e
    have e := (List.append_inj e rfl).2
    exact List.append_cancel_right e

/-- What is missing: the context does not enter through its hash, so the exported value is not the RFC's, and a
peer that follows the RFC exports something else. -/
theorem C35_rfc_fails : ∃ (P : Prims) (secret label context : Bytes) (L : Nat), P.Sized ∧
    computeExporter P true (some secret) .sha256 label context L ≠ .ok (rfcExporter P .sha256 secret label context L) :=
  ⟨toyPrims, [1], [2], [3], 32, toyPrims_sized, by decide +kernel⟩

/-! ### C36 -/

/-- What the default protector needs of its AEAD to work at all: what was sealed can be opened. -/
def CookieAead.Correct (A : CookieAead) : Prop := ∀ k n d, A.dec k n (A.enc k n d) = some d

theorem cookieKey_eq (P : Prims) (hP : P.Sized) (secret nonce : Bytes) :
    ∃ k n, cookieKey P secret nonce = .ok (k, n) ∧ k.length = 32 ∧ n.length = 12 := by
  unfold cookieKey
  rw [hkdfExpand_eq P hP _ (by decide), Res.bind_ok]
  have := expand_length P hP .sha256 (by decide) (hkdfExtract P .sha256 (some nonce) secret) cookieInfo 44
  exact ⟨_, _, rfl, by simp [this], by simp [this]⟩

/-- A token decodes to the data it was made from. -/
theorem C36_roundtrip (P : Prims) (hP : P.Sized) (A : CookieAead) (hA : A.Correct) (secret nonce data : Bytes)
    (hn : nonce.length = 32) :
    ∃ tok, newToken P A secret (some nonce) data = .ok tok ∧ decodeToken P A secret tok = .ok data := by
  obtain ⟨k, n, hk, -, -⟩ := cookieKey_eq P hP secret nonce
  refine ⟨nonce ++ A.enc k n data, by simp [newToken, hk, Res.bind_ok], ?_⟩
  unfold decodeToken
  rw [if_neg (by simp [hn])]
  have e1 : (nonce ++ A.enc k n data).take 32 = nonce := by rw [← hn]; simp
  have e2 : (nonce ++ A.enc k n data).drop 32 = A.enc k n data := by rw [← hn]; simp
  simp only [e1, e2, hk, Res.bind_ok, hA k n data]

/-- Somebody produced a ciphertext that opens under a key derived from the protector's secret, although the protector
never sealed it under that key and nonce: a forgery against the AEAD. `issued` lists the random nonce and the data of
all tokens made. -/
def Forgery (P : Prims) (A : CookieAead) (secret : Bytes) (issued : List (Bytes × Bytes)) : Prop :=
  ∃ nonce k n c d, cookieKey P secret nonce = .ok (k, n) ∧ A.dec k n c = some d ∧
    ¬ ∃ e ∈ issued, cookieKey P secret e.1 = .ok (k, n) ∧ c = A.enc k n e.2 ∧ d = e.2

/-- Two different nonces, one of which was used, lead to the same key and AEAD nonce: a collision of HKDF. -/
def KeyCollision (P : Prims) (secret : Bytes) (issued : List (Bytes × Bytes)) : Prop :=
  ∃ nonce kn, ∃ e ∈ issued, nonce ≠ e.1 ∧ cookieKey P secret nonce = .ok kn ∧ cookieKey P secret e.1 = .ok kn

/-- Whatever byte string is presented as a cookie: if it decodes, it is one of the tokens issued and the result is the
data of that token, unless the AEAD was forged or HKDF collided. -/
theorem C36_authentic (P : Prims) (A : CookieAead) (secret : Bytes) (issued : List (Bytes × Bytes)) (tok data : Bytes)
    (h : decodeToken P A secret tok = .ok data) :
    (∃ e ∈ issued, newToken P A secret (some e.1) e.2 = .ok tok ∧ data = e.2) ∨
      Forgery P A secret issued ∨ KeyCollision P secret issued := by
  unfold decodeToken at h
  split at h
  · cases h
  simp only [Res.bind_eq_ok] at h
  obtain ⟨⟨k, n⟩, hk, h⟩ := h
  dsimp only at h
  split at h
  case h_2 => cases h
  rename_i d hd
  simp only [Res.ok.injEq] at h
  subst h
  by_cases hex : ∃ e ∈ issued, cookieKey P secret e.1 = .ok (k, n) ∧ tok.drop 32 = A.enc k n e.2 ∧ d = e.2
  · obtain ⟨e, he, hke, hc, hde⟩ := hex
    by_cases hne : tok.take 32 = e.1
    · refine .inl ⟨e, he, ?_, hde⟩
      simp only [newToken, hke, Res.bind_ok, Res.ok.injEq]
      rw [← hc, ← hne, List.take_append_drop]
    · exact .inr (.inr ⟨_, _, e, he, hne, hk, hke⟩)
  · exact .inr (.inl ⟨_, k, n, _, d, hk, hd, hex⟩)

/-- No byte string presented as a cookie crashes the protector. -/
theorem C36_safe (P : Prims) (hP : P.Sized) (A : CookieAead) (secret tok : Bytes) : (decodeToken P A secret tok).Safe := by
  unfold decodeToken
  split
  · trivial
  · obtain ⟨k, n, hk, -, -⟩ := cookieKey_eq P hP secret (tok.take 32)
    simp only [hk, Res.bind_ok]
    split <;> trivial

/-- An AEAD that can be tried out: the ciphertext is the plaintext followed by the key. -/
def toyAead : CookieAead where
  enc k n d := d ++ k ++ n
  dec k n c := if c.drop (c.length - (k ++ n).length) = k ++ n then some (c.take (c.length - (k ++ n).length)) else none

theorem toyAead_correct : toyAead.Correct := by
  intro k n d
  simp [toyAead, Nat.add_sub_cancel]

/-- With it a token made is decoded, and with its nonce changed it is refused. -/
example : (match newToken toyPrims toyAead [1] (some (List.replicate 32 9)) [5] with
    | .ok tok => decodeToken toyPrims toyAead [1] tok == .ok [5] && decodeToken toyPrims toyAead [1] (1 :: tok.drop 1) == .err .msg
    | _ => false) = true := by decide +kernel

/-! ### C56 -/

/-- A server signs what the RFC says, and what is signed determines the transcript hash. -/
theorem C56_server_partial (hash hash' : Bytes) :
    Messages.signatureInput hash = signedContent .server hash ∧
    (Messages.signatureInput hash = Messages.signatureInput hash' → hash = hash') := by
  refine ⟨?_, fun h => List.append_cancel_left h⟩
  have : ascii "TLS 1.3, server CertificateVerify" = Messages.certVerifyContext := by decide
  simp only [Messages.signatureInput, signedContent, this]

/-- A CertificateVerify made over one transcript hash verifies over another only if the signature scheme accepts the
signature of one message for a different one or the digests of the two contents collide: for schemes that accept
nothing but signatures of the digest, the transcript hash is the one signed or there is a collision. -/
theorem C56_transcript (P : Prims) (S : Sig) (alg : UInt16) (key : PrivKey) (pub : PubKey) (hash hash' : Bytes)
    (cv : Messages.CertVerify)
    (hS : ∀ d d' a hh s, S.sign key a hh d = some s → S.verify pub a hh d' s = true → d = d')
    (hs : Messages.CertVerify.sign P S alg key hash = .ok cv)
    (hv : Messages.CertVerify.verify P S cv pub hash' = true) :
    hash = hash' ∨ (Messages.signatureInput hash ≠ Messages.signatureInput hash' ∧
      P.hash (schemeHash alg.toNat) (Messages.signatureInput hash) =
        P.hash (schemeHash alg.toNat) (Messages.signatureInput hash')) := by
  simp only [Messages.CertVerify.sign, Res.bind_eq_ok, Res.ok.injEq] at hs
  obtain ⟨s, hs, rfl⟩ := hs
  simp only [Messages.CertVerify.verify] at hv
  have h1 : S.sign key (schemeAlg alg.toNat) (schemeHash alg.toNat)
      (P.hash (schemeHash alg.toNat) (Messages.signatureInput hash)) = some s := by
    unfold sign at hs
    split at hs
    · cases hs
    dsimp only at hs
    split at hs
    · split at hs
      · split at hs
        · rename_i hsig; rw [hsig]; simpa using hs
        · cases hs
      · cases hs
    · split at hs
      · cases hs
      · split at hs
        · cases hs
        · split at hs
          · rename_i hsig; rw [hsig]; simpa using hs
          · cases hs
    · cases hs
  have h2 : S.verify pub (schemeAlg alg.toNat) (schemeHash alg.toNat)
      (P.hash (schemeHash alg.toNat) (Messages.signatureInput hash')) s = true := by
    unfold verify at hv
    split at hv
    · cases hv
    dsimp only at hv
    split at hv
    · split at hv
      · exact hv
      · cases hv
    · split at hv
      · cases hv
      · split at hv
        · cases hv
        · exact hv
    · cases hv
  have := hS _ _ _ _ _ h1 h2
  by_cases he : hash = hash'
  · exact .inl he
  · exact .inr ⟨fun h => he (List.append_cancel_left h), this⟩

/-- A CertificateVerify verifies over the transcript it was made for, under the key that belongs to the signer's. -/
theorem C56_own_signature (P : Prims) (S : Sig) (alg : UInt16) (key : PrivKey) (pub : PubKey) (hash : Bytes)
    (cv : Messages.CertVerify) (hk : pub.kind = key.kind)
    (hS : ∀ d a hh s, S.sign key a hh d = some s → S.verify pub a hh d s = true)
    (hs : Messages.CertVerify.sign P S alg key hash = .ok cv) :
    cv.algorithm = alg ∧ Messages.CertVerify.verify P S cv pub hash = true := by
  simp only [Messages.CertVerify.sign, Res.bind_eq_ok, Res.ok.injEq] at hs
  obtain ⟨s, hs, rfl⟩ := hs
  refine ⟨rfl, ?_⟩
  simp only [Messages.CertVerify.verify]
  unfold sign at hs
  unfold verify
  split at hs
  · cases hs
  rename_i h1
  rw [if_neg h1]
  dsimp only at hs ⊢
  rw [hk]
  split at hs
  · split at hs
    · rename_i h2
      split at hs
      · rename_i hsig
        simp only [Res.ok.injEq] at hs
        subst hs
        rw [if_pos h2]; exact hS _ _ _ _ hsig
      · cases hs
    · cases hs
  · split at hs
    · cases hs
    · rename_i h2
      split at hs
      · cases hs
      · rename_i h3
        split at hs
        · rename_i hsig
          simp only [Res.ok.injEq] at hs
          subst hs
          rw [if_neg h2, if_neg h3]; exact hS _ _ _ _ hsig
        · cases hs
  · cases hs

/-- What is missing: a client signs the content meant for servers, for every transcript, so that its signature is
not the one the RFC asks for and could be presented as a server's. -/
theorem C56_client_fails (hash : Bytes) :
    Messages.signatureInput hash ≠ signedContent .client hash ∧
      Messages.signatureInput hash = signedContent .server hash := by
  refine ⟨?_, (C56_server_partial hash hash).1⟩
  intro h
  simp only [Messages.signatureInput, signedContent, List.append_assoc] at h
  have h := List.append_cancel_left h
  have h := (List.append_inj h (by decide)).1
  revert h
  decide

/-- Signatures that can be tried out: the signature is the digest, followed by the key. -/
def toySig : Sig where
  sign k _ _ d := some (d ++ [UInt8.ofNat k.val])
  verify k _ _ d s := s == d ++ [UInt8.ofNat k.val]

example : (match Messages.CertVerify.sign toyPrims toySig 0x0804 ⟨.rsa, 7⟩ [1, 2] with
    | .ok cv => Messages.CertVerify.verify toyPrims toySig cv ⟨.rsa, 7⟩ [1, 2]
    | _ => false) = true := by decide +kernel

end Verif.Crypto
