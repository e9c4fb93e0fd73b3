import Verif.Spec.Link

/-
Which keys protect which handshake message, written from RFC 8446, sections 2, 4.5 and 7.
-/

namespace Verif.Spec

open Verif Verif.Crypto Verif.Messages Verif.Handshake Verif.Machine

/-- The handshake messages sent, each with the keys in use for sending at that time; `none`: in the clear. -/
def sealedWith : Option Keys → List Action → List (Option Keys × Msg)
  | _, [] => []
  | k, .queue m :: as => (k, m) :: sealedWith k as
  | _, .rekeyOut _ k :: as => sealedWith (some k) as
  | _, .resetOut _ :: as => sealedWith none as
  | k, _ :: as => sealedWith k as

/-- The same, each also with the number of messages sent before it since keys were last installed. -/
def numberedWith : Option Keys → Nat → List Action → List (Option Keys × Nat × Msg)
  | _, _, [] => []
  | k, n, .queue m :: as => (k, n, m) :: numberedWith k (n + 1) as
  | _, _, .rekeyOut _ k :: as => numberedWith (some k) 0 as
  | _, _, .resetOut _ :: as => numberedWith none 0 as
  | k, n, _ :: as => numberedWith k n as

/-- The keys in use for sending after some actions. -/
def sendKeys : Option Keys → List Action → Option Keys
  | k, [] => k
  | _, .rekeyOut _ k :: as => sendKeys (some k) as
  | _, .resetOut _ :: as => sendKeys none as
  | k, _ :: as => sendKeys k as

/-- Messages under the same keys. -/
def under (k : Option Keys) (ms : List Msg) : List (Option Keys × Msg) := ms.map fun m => (k, m)

/-- The keys of a traffic secret (RFC 8446, 7.3). -/
def trafficKeysOf (P : Prims) (p : Params) (secret : Bytes) : Keys := trafficKeys P p.hash p.keyLen p.ivLen secret

/-- The keys of early data at a client: from the PSK configured for the server's name and the ClientHello. -/
def clientEarlyKeys (P : Prims) (d : Bool) (cfg : Config) (hello : Msg) : Option Keys :=
  match cfg.psks cfg.serverName with
  | none => none
  | some k => match suiteParams k.suite with
    | none => none
    | some p => some (trafficKeysOf P p (clientEarlyTraffic P p.hash (earlySecret P p.hash (some k.key)) (wire d [hello])))

/-- Key updates: each is sent under the keys it replaces. The label is a parameter; RFC 8446 has "traffic upd", the code the
label of the first secret, and what follows uses the code's. -/
def underUpdates (P : Prims) (p : Params) (label : Bytes) : Bytes → List Msg → List (Option Keys × Msg)
  | _, [] => []
  | s, m :: ms => (some (trafficKeysOf P p s), m) :: underUpdates P p label (expandLabel P p.hash s label [] p.hash.size) ms

section
variable {E : Env} {d : Bool} {cfg : Config} {es : List (Event × Coins)} {acts : List Action} {s : Connected}

/-- How RFC 8446 has a client protect what it sends: hellos in the clear, EndOfEarlyData under the keys of early data, what
comes then up to Finished under the handshake keys of the client, what follows under its application keys. -/
def ClientView.sealedByRfc (V : ClientView E d cfg es acts s) : List (Option Keys × Msg) :=
  under none V.hellos ++ under (clientEarlyKeys E.P d cfg V.hello) V.eoed ++
    under (some (trafficKeysOf E.P V.p (V.F.clientHs E.P d))) (V.cauth ++ [V.cfin]) ++
    underUpdates E.P V.p (ascii "c ap traffic") (V.F.clientAp E.P d) V.postOut

/-- The keys with which a client reads, according to RFC 8446, once it has got the messages `ms`: none until the ServerHello,
the handshake keys of the server from that to its Finished, then its application keys, as updated. -/
def ClientView.readsByRfc (V : ClientView E d cfg es acts s) (ms : List Msg) : Option Keys :=
  if ms.length ≤ V.retries.length then none
  else if ms.length ≤ V.retries.length + 2 + V.F.auth.length then some (trafficKeysOf E.P V.p (V.F.serverHs E.P d))
  else some (trafficKeysOf E.P V.p (updates E.P V.F.h (ascii "s ap traffic")
    (keyUpdates (ms.drop (V.retries.length + 3 + V.F.auth.length))) (V.F.serverAp E.P d)))

/-- How RFC 8446 has a server protect what it sends. -/
def ServerView.sealedByRfc (V : ServerView E d cfg es acts s) : List (Option Keys × Msg) :=
  under none (V.retries ++ [V.F.sh]) ++
    under (some (trafficKeysOf E.P V.p (V.F.serverHs E.P d))) ([V.F.ee] ++ V.F.auth ++ [V.F.fin]) ++
    underUpdates E.P V.p (ascii "s ap traffic") (V.F.serverAp E.P d) V.out

/-- The keys with which a server reads, according to RFC 8446, once it has got the messages `ms`: none until the ClientHello;
then the keys of early data until EndOfEarlyData if it accepts early data; the handshake keys of the client until its
Finished; then its application keys, as updated. -/
def ServerView.readsByRfc (V : ServerView E d cfg es acts s) (ms : List Msg) : Option Keys :=
  if ms.length ≤ V.pre.length then none
  else if hasExt 42 V.ee = true ∧ ms.length ≤ V.pre.length + 1 then
    some (trafficKeysOf E.P V.p (clientEarlyTraffic E.P V.F.h V.F.early (wire d [V.hello])))
  else if ms.length ≤ V.pre.length + 1 + V.eoed.length + V.cauth.length then some (trafficKeysOf E.P V.p (V.F.clientHs E.P d))
  else some (trafficKeysOf E.P V.p (updates E.P V.F.h (ascii "c ap traffic")
    (keyUpdates (ms.drop (V.pre.length + 2 + V.eoed.length + V.cauth.length))) (V.F.clientAp E.P d)))

end

end Verif.Spec
