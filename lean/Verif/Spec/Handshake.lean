import Verif.Machine.Server
import Verif.Spec.Schedule

/-
Vocabulary for stating properties of handshakes: which messages went over the wire, what the transcript is, and the
order in which RFC 8446 (section 2, and 4.2.11, 4.4.2, 4.5, 4.6) has messages come. Nothing here mentions the states of
the machines.
-/

namespace Verif.Spec

open Verif Verif.Crypto Verif.Messages Verif.Handshake Verif.Machine

/-! ### Messages on the wire -/

/-- The handshake messages among what was read. -/
def received (es : List (Event × Coins)) : List Msg :=
  es.filterMap fun e => match e.1 with | .msg m => some m | _ => none

/-- The handshake messages written. -/
def sent (acts : List Action) : List Msg := acts.filterMap fun a => match a with | .queue m => some m | _ => none

/-- The bytes of handshake messages, one after the other. -/
def wire (datagram : Bool) (ms : List Msg) : Bytes := (ms.map (Msg.marshal datagram)).flatten

/-- The length field of a message is the length of its body, and fits its three bytes: so it is with every message that the
handshake layer reads. -/
def Framed (m : Msg) : Prop := m.length = m.body.length ∧ m.body.length < 2 ^ 24

/-- What messages say: their types and bodies. -/
def said (ms : List Msg) : List (UInt8 × Bytes) := ms.map fun m => (m.msgType, m.body)

/-- The message that replaces a ClientHello once a HelloRetryRequest was sent, as mint makes it: type 254, three bytes of
length which mint leaves zero (RFC 8446, 4.4.1 has the length of the hash there), and the hash of the ClientHello. -/
def helloHash (hash : Bytes) : Bytes := [254, 0, 0, 0] ++ hash

/-- The part of the transcript before the ServerHello, seen by a client that has sent the hellos and received the
HelloRetryRequests of the two lists: the only hello; or the hash of the hello before the last, the last request and the last
hello. -/
inductive HelloTranscript (P : Prims) (h : HashId) (datagram : Bool) : List Msg → List Msg → Bytes → Prop where
  | plain (ch : Msg) : HelloTranscript P h datagram [ch] [] (wire datagram [ch])
  | retry (chs : List Msg) (rs : List Msg) (ch1 hrr ch2 : Msg) : chs.length = rs.length →
      HelloTranscript P h datagram (chs ++ [ch1, ch2]) (rs ++ [hrr])
        (helloHash (P.hash h (wire datagram [ch1])) ++ wire datagram [hrr, ch2])

/-! ### Order of messages -/

/-- What one may read during a handshake. -/
inductive Letter where
  | clientHello
  | helloRetryRequest
  /-- with the flag: it selects the first PSK identity -/
  | serverHello (psk : Bool)
  | encryptedExtensions
  | certificateRequest
  /-- with the flag: the list of certificates is empty -/
  | certificate (empty : Bool)
  | certificateVerify
  | finished
  | endOfEarlyData
  | newSessionTicket
  | keyUpdate
  | applicationData
  /-- a record that does not decrypt -/
  | garbage
  | unknown
  deriving DecidableEq

/-- Whether the extensions of a ServerHello select the first PSK identity: there is a pre_shared_key extension (41) and
its data is the number 0 in two bytes. -/
def selectsFirstPsk (exts : List Ext) : Bool := exts.any fun e => e.1 == 41 && e.2.1 == [0, 0]

/-- What a handshake message is (RFC 8446, section 4): by its type, and for a ServerHello by its random. -/
def letterOf (m : Msg) : Letter :=
  if m.msgType = 1 then .clientHello
  else if m.msgType = 2 then
    match ServerHello.unmarshal m.body with
    | .ok (sh, _) => if sh.random.1 = hrrRandom then .helloRetryRequest else .serverHello (selectsFirstPsk sh.exts)
    | _ => .unknown
  else if m.msgType = 4 then .newSessionTicket
  else if m.msgType = 5 then .endOfEarlyData
  else if m.msgType = 8 then .encryptedExtensions
  else if m.msgType = 11 then
    .certificate (match CertificateMsg.unmarshal (fun _ => true) m.body with | .ok (c, _) => c.list.isEmpty | _ => false)
  else if m.msgType = 13 then .certificateRequest
  else if m.msgType = 15 then .certificateVerify
  else if m.msgType = 20 then .finished
  else if m.msgType = 24 then .keyUpdate
  else .unknown

/-- What an event is. -/
def Event.letter : Event → Letter
  | .msg m => letterOf m
  | .appData _ => .applicationData
  | .bad => .garbage

/-- The word read. -/
def word (es : List (Event × Coins)) : List Letter := es.map fun e => Event.letter e.1

/-- What a server sends between EncryptedExtensions and Finished: nothing if a PSK was selected; else possibly a
CertificateRequest, and Certificate and CertificateVerify. -/
def ServerAuthWord (psk : Bool) (w : List Letter) : Prop :=
  (psk = true ∧ w = []) ∨
  (psk = false ∧ ∃ e, w = [.certificate e, .certificateVerify] ∨ w = [.certificateRequest, .certificate e, .certificateVerify])

/-- What a client may read after the handshake. -/
def ClientPost (l : Letter) : Prop := l = .newSessionTicket ∨ l = .keyUpdate ∨ l = .applicationData

/-- What a client reads in a complete handshake and after it, with at most `n` HelloRetryRequests. -/
def ClientWord (n : Nat) (w : List Letter) : Prop :=
  ∃ r psk auth post, r ≤ n ∧ ServerAuthWord psk auth ∧ (∀ l ∈ post, ClientPost l) ∧
    w = List.replicate r .helloRetryRequest ++ [.serverHello psk, .encryptedExtensions] ++ auth ++ [.finished] ++ post

/-- The start of a word of a language. -/
def Starts (L : List Letter → Prop) (w : List Letter) : Prop := ∃ v, L (w ++ v)

/-- Whether the server asked for a certificate in what it sent. -/
def asksCertificate (ms : List Msg) : Bool := ms.any fun m => m.msgType == 13

/-- Whether the server accepted early data in what it sent: EncryptedExtensions carries the early_data extension (42). -/
def acceptsEarlyData (ms : List Msg) : Bool :=
  ms.any fun m => m.msgType == 8 &&
    (match unmarshalEE m.body with | .ok (exts, _) => exts.any fun e => e.1 == 42 | _ => false)

/-- Whether a message is a ClientHello that carries the early_data extension. -/
def offersEarlyData (datagram : Bool) (m : Msg) : Bool :=
  m.msgType == 1 &&
    (match ClientHello.unmarshal (if datagram then 0xfefd else 0x0303) m.body with
      | .ok (ch, _) => ch.exts.any fun e => e.1 == 42
      | _ => false)

/-- What a server reads between the last ClientHello and the client's certificate: early data and EndOfEarlyData, if it was
accepted; else nothing but records it cannot decrypt (early data that was refused). -/
def EarlyWord (accepted : Bool) (w : List Letter) : Prop :=
  (accepted = true ∧ ∃ n, w = List.replicate n .applicationData ++ [.endOfEarlyData]) ∨
  (accepted = false ∧ ∃ n, w = List.replicate n .garbage)

/-- The client's certificate: nothing if none was asked for, else an empty list, or a list and CertificateVerify. -/
def ClientAuthWord (asked : Bool) (w : List Letter) : Prop :=
  (asked = false ∧ w = []) ∨
  (asked = true ∧ (w = [.certificate true] ∨ w = [.certificate false, .certificateVerify]))

/-- What a server may read after the handshake. -/
def ServerPost (l : Letter) : Prop := l = .keyUpdate ∨ l = .applicationData

/-- What a server reads in a complete handshake and after it, with at most `n` HelloRetryRequests sent. -/
def ServerWord (n : Nat) (accepted asked : Bool) (w : List Letter) : Prop :=
  ∃ r early auth post, r ≤ n ∧ EarlyWord accepted early ∧ ClientAuthWord asked auth ∧ (∀ l ∈ post, ServerPost l) ∧
    w = List.replicate r .clientHello ++ [.clientHello] ++ early ++ auth ++ [.finished] ++ post

/-- The start of what a server may read, given what it has sent: until it has sent EncryptedExtensions (8) it is open
whether early data is accepted and whether a certificate is asked for. -/
def ServerStarts (ms : List Msg) (w : List Letter) : Prop :=
  ∃ n accepted asked, ((ms.any fun m => m.msgType == 8) = true →
    accepted = acceptsEarlyData ms ∧ asked = asksCertificate ms) ∧ Starts (ServerWord n accepted asked) w

end Verif.Spec
