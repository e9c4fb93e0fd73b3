import Verif.Spec.Views

/-
What it means that two ends of a handshake agree, and what it takes to make them disagree: a collision of the hash function
or of HMAC on inputs that these two handshakes contain.
-/

namespace Verif.Spec

open Verif Verif.Crypto Verif.Messages Verif.Handshake Verif.Machine

/-- `a` and `b` are a collision of the hash function. -/
def HashCollision (P : Prims) (h : HashId) (a b : Bytes) : Prop := a ≠ b ∧ P.hash h a = P.hash h b

/-- Two pairs of a key and an input are a collision of HMAC. -/
def MacCollision (P : Prims) (h : HashId) (k m k' m' : Bytes) : Prop := (k, m) ≠ (k', m') ∧ P.hmac h k m = P.hmac h k' m'

/-- The only input to HMAC in HKDF-Expand-Label (RFC 8446, 7.1) when as much is wanted as the hash function gives. -/
def labelInput (h : HashId) (label context : Bytes) : Bytes := hkdfLabel h.size label context ++ [1]

/-- What was broken if two Finished messages have the same verify data but not the same meaning. Their base keys come from
the handshake secrets `k` and `k'`, by `label`, and the transcripts `a` and `a'` up to the ServerHello; the messages they
confirm are `b` and `b'`. -/
inductive FinishedBroken (P : Prims) (h : HashId) (label k a b k' a' b' : Bytes) : Prop where
  | transcript : HashCollision P h b b' → FinishedBroken P h label k a b k' a' b'
  | hello : HashCollision P h a a' → FinishedBroken P h label k a b k' a' b'
  | trafficSecret : MacCollision P h k (labelInput h label (P.hash h a)) k' (labelInput h label (P.hash h a')) →
      FinishedBroken P h label k a b k' a' b'
  | finishedKey : MacCollision P h (derive P h k label a) (labelInput h (ascii "finished") [])
      (derive P h k' label a') (labelInput h (ascii "finished") []) → FinishedBroken P h label k a b k' a' b'
  | mac : MacCollision P h (expandLabel P h (derive P h k label a) (ascii "finished") [] h.size) (P.hash h b)
      (expandLabel P h (derive P h k' label a') (ascii "finished") [] h.size) (P.hash h b') →
      FinishedBroken P h label k a b k' a' b'

/-- The two ends of a handshake agree: `F` and `hello` are the server's flight and the last ClientHello as one end has them,
`G` and `hello'` as the other has them. -/
structure Agreed (P : Prims) (d : Bool) (F : Flight) (hello : Msg) (G : Flight) (hello' : Msg) : Prop where
  hash : F.h = G.h
  hellos : F.hellos = G.hellos
  messages : said (hello :: F.sh :: F.ee :: F.auth ++ [F.fin]) = said (hello' :: G.sh :: G.ee :: G.auth ++ [G.fin])
  transcript : F.toFinished d = G.toFinished d
  handshakeSecret : F.handshake P = G.handshake P

/-- The cookies of a server hold hashes: whatever a cookie that the protector accepts says of the hash of the first
ClientHello has the length of the hash function of the suite it names. -/
def SoundCookies (cfg : Config) : Prop :=
  ∀ prot c plain suite hash app, cfg.cookieProtector = some prot → prot.decodeToken c = .ok plain →
    decodeCookie plain = .ok (suite, hash, app) → ∃ p, suiteParams suite.toNat = some p ∧ hash.length = p.hash.size

end Verif.Spec
