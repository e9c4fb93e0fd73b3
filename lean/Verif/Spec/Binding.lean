import Verif.Spec.Agreement

/-
What the secrets of a connection depend on, after RFC 8446, section 7.1, and what it takes to make two of them equal.
-/

namespace Verif.Spec

open Verif Verif.Crypto Verif.Messages Verif.Handshake Verif.Machine

/-- The secrets a connection holds. -/
inductive Held where
  | clientTraffic
  | serverTraffic
  | exporter
  | resumption
  deriving DecidableEq

/-- The label a secret is derived with. -/
def Held.label : Held → Bytes
  | .clientTraffic => ascii "c ap traffic"
  | .serverTraffic => ascii "s ap traffic"
  | .exporter => ascii "exp master"
  | .resumption => ascii "res master"

/-- The secret in a connection. -/
def Held.of (s : Connected) : Held → Bytes
  | .clientTraffic => s.clientAp
  | .serverTraffic => s.serverAp
  | .exporter => s.exporter
  | .resumption => s.resumption

/-- An end that has completed its handshake, and what it knows of it: a client or a server. -/
inductive EndView (E : Env) (d : Bool) (s : Connected) where
  | client (cfg : Config) (es : List (Event × Coins)) (acts : List Action) (v : ClientView E d cfg es acts s)
  | server (cfg : Config) (es : List (Event × Coins)) (acts : List Action) (v : ServerView E d cfg es acts s)

namespace EndView

variable {E : Env} {d : Bool} {s : Connected}

/-- The server's flight, and what the key schedule starts from. -/
def F : EndView E d s → Flight
  | .client _ _ _ v => v.F
  | .server _ _ _ v => v.F

/-- The last ClientHello. -/
def hello : EndView E d s → Msg
  | .client _ _ _ v => v.hello
  | .server _ _ _ v => v.hello

/-- The client's last flight. -/
def last : EndView E d s → List Msg
  | .client _ _ _ v => v.eoed ++ v.cauth ++ [v.cfin]
  | .server _ _ _ v => v.eoed ++ v.cauth ++ [v.cfin]

/-- How often a secret was updated: the KeyUpdate messages of the client and of the server. -/
def updated : EndView E d s → Held → Nat
  | .client _ _ _ v, .clientTraffic => keyUpdates v.postOut
  | .client _ _ _ v, .serverTraffic => keyUpdates v.post
  | .server _ _ _ v, .clientTraffic => keyUpdates v.post
  | .server _ _ _ v, .serverTraffic => keyUpdates v.out
  | _, _ => 0

/-- The messages it has read and written. -/
def messages : EndView E d s → List Msg
  | .client _ es acts _ => received es ++ sent acts
  | .server _ es acts _ => received es ++ sent acts

/-- For a server: its cookies hold hashes. -/
def Sound : EndView E d s → Prop
  | .client .. => True
  | .server cfg _ _ _ => SoundCookies cfg

/-- The messages a secret covers: from the ClientHello to the server's Finished; for resumption, to the client's. -/
def covers (v : EndView E d s) : Held → List Msg
  | .resumption => v.hello :: v.F.sh :: v.F.ee :: v.F.auth ++ [v.F.fin] ++ v.last
  | _ => v.hello :: v.F.sh :: v.F.ee :: v.F.auth ++ [v.F.fin]

/-- The transcript of these. -/
def transcript (v : EndView E d s) : Held → Bytes
  | .resumption => v.F.toFinished d ++ wire d v.last
  | _ => v.F.toFinished d

end EndView

/-- The inputs given to HMAC, as pairs of key and message, to derive from `base` the secret with a label for a transcript, and to
update it `n` times. -/
def macInputs (P : Prims) (h : HashId) (label base transcript : Bytes) (n : Nat) : List (Bytes × Bytes) :=
  (base, labelInput h label (P.hash h transcript)) ::
    (List.range n).map fun i => (updates P h label i (derive P h base label transcript), labelInput h label [])

/-- What was broken if two secrets are the same that should not be: the transcripts are a collision of the hash function, or two
inputs that were given to HMAC to derive them are a collision of that. -/
inductive SecretBroken (P : Prims) (h : HashId) (transcript transcript' : Bytes) (inputs inputs' : List (Bytes × Bytes)) : Prop where
  | transcript : HashCollision P h transcript transcript' → SecretBroken P h transcript transcript' inputs inputs'
  | mac (p q : Bytes × Bytes) : p ∈ inputs → q ∈ inputs' → MacCollision P h p.1 p.2 q.1 q.2 →
      SecretBroken P h transcript transcript' inputs inputs'

/-- The inputs of HMAC for a value exported by a connection: those for the exporter secret, and two more. -/
def exportInputs {E : Env} {d : Bool} {s : Connected} (v : EndView E d s) (label context : Bytes) (L : Nat) : List (Bytes × Bytes) :=
  macInputs E.P v.F.h (ascii "exp master") (v.F.master E.P) (v.F.toFinished d) 0 ++
    [(s.exporter, labelInput v.F.h label (E.P.hash v.F.h [])),
      (derive E.P v.F.h s.exporter label [], hkdfLabel L (ascii "exporter") (context ++ E.P.hash v.F.h []) ++ [1])]

end Verif.Spec
