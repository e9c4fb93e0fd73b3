import Verif.Spec.Agreement
import Verif.Spec.Compatible

/-
Whose signature a CertificateVerify is: the runs of clients and servers that sign, what a forged signature is, and what it means that
the run that signed is the other end of a handshake.
-/

namespace Verif.Spec

open Verif Verif.Crypto Verif.Messages Verif.Handshake Verif.Machine

/-- A run in which a signature may have been made: of a client that has completed its handshake, or of a server that has sent its
flight. -/
inductive Signer (E : Env) (d : Bool) where
  | client (cfg : Config) (es : List (Event × Coins)) (acts : List Action) (s : Connected) (v : ClientView E d cfg es acts s)
  | server (cfg : Config) (es : List (Event × Coins)) (acts : List Action) (w : ServerFlight E d cfg es acts)

namespace Signer

variable {E : Env} {d : Bool}

/-- The messages it has read and written. -/
def messages : Signer E d → List Msg
  | .client _ es acts _ _ => received es ++ sent acts
  | .server _ es acts _ => received es ++ sent acts

/-- For a server: its cookies hold hashes. -/
def Sound : Signer E d → Prop
  | .client .. => True
  | .server cfg .. => SoundCookies cfg

/-- The bytes `content`, which name the hash of the transcript `t`, were signed in this run with the private key `key`, one of those
configured; the certificates sent with the signature are those configured for the key. -/
def Signs : Signer E d → PrivKey → Bytes → Bytes → Prop
  | .client cfg _ _ _ v, key, t, content => ∃ cert ∈ cfg.certificates, ∃ mcert mcv cm cv, cert.key = key ∧
      v.cauth = [mcert, mcv] ∧ CertificateMsg.unmarshal (fun _ => true) mcert.body = .ok (cm, mcert.body.length) ∧
      cm.list.map (·.1) = cert.chain.map (·.raw) ∧ mcv.msgType = 15 ∧ CertVerify.unmarshal mcv.body = .ok (cv, mcv.body.length) ∧
      t = v.F.toFinished d ++ wire d (v.eoed ++ [mcert]) ∧ content = signedContent .server (E.P.hash v.F.h t) ∧
      sign E.P E.S cv.algorithm.toNat key content = .ok cv.signature
  | .server cfg _ _ w, key, t, content => ∃ cert ∈ cfg.certificates, ∃ req mcert mcv cm cv, cert.key = key ∧
      w.F.auth = req ++ [mcert, mcv] ∧ CertificateMsg.unmarshal (fun _ => true) mcert.body = .ok (cm, mcert.body.length) ∧
      cm.list.map (·.1) = cert.chain.map (·.raw) ∧ mcv.msgType = 15 ∧ CertVerify.unmarshal mcv.body = .ok (cv, mcv.body.length) ∧
      t = w.F.toServerHello d ++ wire d ([w.F.ee] ++ req ++ [mcert]) ∧ content = signedContent .server (E.P.hash w.F.h t) ∧
      sign E.P E.S cv.algorithm.toNat key content = .ok cv.signature

end Signer

/-- The signature of a CertificateVerify is accepted for `content`, but in none of the runs `H` was `content` signed with `key`. -/
def Forged (E : Env) (d : Bool) (H : Signer E d → Prop) (key : PrivKey) (pub : PubKey) (cv : CertVerify) (content : Bytes) : Prop :=
  verify E.P E.S cv.algorithm.toNat pub content cv.signature = true ∧ ∀ r, H r → ∀ t, ¬ r.Signs key t content

/-- In one of the runs `H` a content was signed with `key` for a transcript other than `t` that has the same hash. -/
def SignedOther (E : Env) (d : Bool) (H : Signer E d → Prop) (key : PrivKey) (h : HashId) (t : Bytes) : Prop :=
  ∃ r t', H r ∧ r.Signs key t' (signedContent .server (E.P.hash h t)) ∧ HashCollision E.P h t t'

/-- The server whose run is `w` answered the client whose run is `v`, up to its Certificate; `key` is its private key. -/
structure Answered {E : Env} {d : Bool} {cfg scfg : Config} {es es' : List (Event × Coins)} {acts acts' : List Action} {s : Connected}
    (v : ClientView E d cfg es acts s) (w : ServerFlight E d scfg es' acts') (key : PrivKey) : Prop where
  hash : v.F.h = w.F.h
  messages : ∃ req mcert mcv req' mcert' mcv', v.F.auth = req ++ [mcert, mcv] ∧ w.F.auth = req' ++ [mcert', mcv'] ∧
    said (v.hello :: v.F.sh :: v.F.ee :: req ++ [mcert]) = said (w.hello :: w.F.sh :: w.F.ee :: req' ++ [mcert'])
  hellos : v.F.toServerHello d = w.F.toServerHello d
  suite : s.params.suite = w.sh.suite
  noPsk : w.psk = none
  early : s.params.usingEarlyData = hasExt 42 w.ee
  asked : s.params.usingClientAuth = asksCertificate w.F.auth
  protocol : NamesProtocol w.ee s.params.nextProto
  certificate : ∃ cert ∈ scfg.certificates, cert.key = key ∧ s.peerCerts = cert.chain.map (·.raw)
  /-- where key agreement works, and the client offers one share for each group, the secrets of the handshake are the same -/
  secrets : cfg.groups.Nodup → (∀ g ∈ cfg.groups, DhWorks E.D g) → v.F.handshake E.P = w.F.handshake E.P ∧
    v.F.clientHs E.P d = w.F.clientHs E.P d ∧ v.F.serverHs E.P d = w.F.serverHs E.P d

end Verif.Spec
