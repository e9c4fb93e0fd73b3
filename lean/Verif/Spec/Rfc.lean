import Verif.Spec.Views

/-
The transcript and the secrets of a TLS 1.3 connection as functions of the messages exchanged, from RFC 8446, sections 4.4.1,
4.4.4, 7.1 and 7.2. Nothing here is taken from the code.
-/

namespace Verif.Spec

open Verif Verif.Crypto Verif.Messages Verif.Handshake Verif.Machine

/-- RFC 8446, 4.4.1: the messages one after the other; if the second is a HelloRetryRequest the first is replaced by a message of
type message_hash (254) that holds its hash, with the length of that hash in the three bytes of the header. -/
def rfcTranscript (P : Prims) (h : HashId) : List Msg → Bytes
  | ch :: hrr :: ms =>
    if letterOf hrr = .helloRetryRequest then
      [254] ++ beBytes 3 h.size ++ P.hash h (wire false [ch]) ++ wire false (hrr :: ms)
    else wire false (ch :: hrr :: ms)
  | ms => wire false ms

/-- RFC 8446, 7.2: the next application traffic secret. -/
def rfcUpdate (P : Prims) (h : HashId) (secret : Bytes) : Bytes := expandLabel P h secret (ascii "traffic upd") [] h.size

/-- What the two ends compute from the messages, in their order: the hellos up to the ServerHello; the rest of the server's flight
but for Finished; its Finished; the client's flight but for Finished; its Finished. -/
structure RfcConnection (P : Prims) (h : HashId) (psk dh : Option Bytes) (hellos flight : List Msg) (fin : Msg) (last : List Msg)
    (cfin : Msg) (s : Connected) : Prop where
  serverFinished : fin.body =
    finishedMac P h (serverHsTraffic P h (handshakeSecret P h (earlySecret P h psk) dh) (rfcTranscript P h hellos))
      (rfcTranscript P h (hellos ++ flight))
  clientFinished : cfin.body =
    finishedMac P h (clientHsTraffic P h (handshakeSecret P h (earlySecret P h psk) dh) (rfcTranscript P h hellos))
      (rfcTranscript P h (hellos ++ flight ++ [fin] ++ last))
  clientAp : s.clientAp =
    clientApTraffic P h (masterSecret P h (handshakeSecret P h (earlySecret P h psk) dh))
      (rfcTranscript P h (hellos ++ flight ++ [fin]))
  serverAp : s.serverAp =
    serverApTraffic P h (masterSecret P h (handshakeSecret P h (earlySecret P h psk) dh))
      (rfcTranscript P h (hellos ++ flight ++ [fin]))
  exporter : s.exporter =
    exporterMaster P h (masterSecret P h (handshakeSecret P h (earlySecret P h psk) dh))
      (rfcTranscript P h (hellos ++ flight ++ [fin]))
  resumption : s.resumption =
    resumptionMaster P h (masterSecret P h (handshakeSecret P h (earlySecret P h psk) dh))
      (rfcTranscript P h (hellos ++ flight ++ [fin] ++ last ++ [cfin]))

end Verif.Spec
