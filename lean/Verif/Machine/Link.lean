import Verif.Machine.Common
import Verif.Spec.Link

/-
Two connected ends and the records in flight between them: what `Conn` does with the actions of a connected state.
-/

namespace Verif.Machine

open Verif Verif.Crypto Verif.Messages Verif.Handshake Verif.Spec

/-- A connected `Conn`: its state and the keys of its two record layers. -/
structure Endpoint where
  st : Connected
  x : Ctx
  outKeys : Keys
  inKeys : Keys

/-- `Conn.takeAction` (conn.go:575-643). A message is protected with the keys in use when it is queued: over TLS it is
written at once, over DTLS it keeps the cipher (handshake-layer.go:403-411). Errors of the record layer, the PSK cache and
retransmission are not part of this model. -/
def Endpoint.take (e : Endpoint) : Action → Endpoint × List Packet
  | .queue m => (e, [(e.outKeys, .msg m)])
  | .rekeyIn _ k => ({ e with inKeys := k }, [])
  | .rekeyOut _ k => ({ e with outKeys := k }, [])
  | _ => (e, [])

/-- The loop over the actions (conn.go:344-351, 857-863). -/
def Endpoint.takeAll (e : Endpoint) : List Action → Endpoint × List Packet
  | [] => (e, [])
  | a :: as => ((((e.take a).1).takeAll as).1, (e.take a).2 ++ (((e.take a).1).takeAll as).2)

/-- `Conn.SendKeyUpdate` (conn.go:839-866) on a connected end. -/
def Endpoint.update (E : Env) (e : Endpoint) (request : Bool) : Res (Endpoint × List Packet) :=
  (e.st.keyUpdate E e.x (if request then 1 else 0)).bind fun (s, acts, x) => .ok ({ e with st := s, x := x }.takeAll acts)

/-- Sending a session ticket (conn.go:812-827). -/
def Endpoint.ticket (E : Env) (e : Endpoint) (now : Int) (lifetime earlyDataLifetime ageAdd : UInt32) (nonce ticket : Bytes) :
    Res (Endpoint × List Packet) :=
  (e.st.newSessionTicket E e.x now lifetime earlyDataLifetime ageAdd nonce ticket).bind fun (acts, x) =>
    .ok ({ e with x := x }.takeAll acts)

/-- `Conn.Write` (conn.go:471-508) of one fragment. -/
def Endpoint.write (e : Endpoint) (d : Bytes) : List Packet := [(e.outKeys, .data d)]

/-- `Conn.consumeRecord` (conn.go:307-401) for a record with application data or one handshake message. A record is
readable only with the keys it was protected with. -/
def Endpoint.read (E : Env) (e : Endpoint) (now : Int) (p : Packet) : Res (Endpoint × List Packet) :=
  if p.1 ≠ e.inKeys then .err (.alert Alert.badRecordMAC)
  else
    match p.2 with
    | .data _ => .ok (e, [])
    | .msg m => (e.st.process E e.x now m).bind fun (s, acts, x) => .ok ({ e with st := s, x := x }.takeAll acts)

/-- Two ends and the records in flight. -/
structure Link where
  client : Endpoint
  server : Endpoint
  toServer : List Packet
  toClient : List Packet

/-- What may happen: either side updates its keys or writes; the server sends a ticket; either side reads the first record
in flight towards it. -/
inductive LinkStep (E : Env) : Link → Link → Prop where
  | clientUpdate (l : Link) (request : Bool) (e : Endpoint) (ps : List Packet) : l.client.update E request = .ok (e, ps) →
      LinkStep E l { l with client := e, toServer := l.toServer ++ ps }
  | serverUpdate (l : Link) (request : Bool) (e : Endpoint) (ps : List Packet) : l.server.update E request = .ok (e, ps) →
      LinkStep E l { l with server := e, toClient := l.toClient ++ ps }
  | serverTicket (l : Link) (now : Int) (lifetime early ageAdd : UInt32) (nonce ticket : Bytes) (e : Endpoint)
      (ps : List Packet) : l.server.ticket E now lifetime early ageAdd nonce ticket = .ok (e, ps) →
      LinkStep E l { l with server := e, toClient := l.toClient ++ ps }
  | clientWrite (l : Link) (d : Bytes) : LinkStep E l { l with toServer := l.toServer ++ l.client.write d }
  | serverWrite (l : Link) (d : Bytes) : LinkStep E l { l with toClient := l.toClient ++ l.server.write d }
  | clientRead (l : Link) (p : Packet) (rest : List Packet) (now : Int) (e : Endpoint) (ps : List Packet) :
      l.toClient = p :: rest → l.client.read E now p = .ok (e, ps) →
      LinkStep E l { l with client := e, toClient := rest, toServer := l.toServer ++ ps }
  | serverRead (l : Link) (p : Packet) (rest : List Packet) (now : Int) (e : Endpoint) (ps : List Packet) :
      l.toServer = p :: rest → l.server.read E now p = .ok (e, ps) →
      LinkStep E l { l with server := e, toServer := rest, toClient := l.toClient ++ ps }

/-- What may come of a link. -/
inductive LinkRun (E : Env) : Link → Link → Prop where
  | refl (l : Link) : LinkRun E l l
  | step (l l' l'' : Link) : LinkRun E l l' → LinkStep E l' l'' → LinkRun E l l''

end Verif.Machine
