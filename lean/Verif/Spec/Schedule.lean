import Verif.Spec.KeySchedule

/-
The secrets of TLS 1.3, written from the diagram in RFC 8446, section 7.1.
-/

namespace Verif.Spec

open Verif Verif.Crypto

/-- As many zero bytes as the hash function has. -/
def noInput (h : HashId) : Bytes := List.replicate h.size 0

/-- Early Secret = HKDF-Extract(0, PSK); zeros stand for an absent PSK. -/
def earlySecret (P : Prims) (h : HashId) (psk : Option Bytes) : Bytes := extract P h (noInput h) (psk.getD (noInput h))

/-- Handshake Secret = HKDF-Extract(Derive-Secret(Early Secret, "derived", ""), (EC)DHE); zeros stand for no (EC)DHE. -/
def handshakeSecret (P : Prims) (h : HashId) (early : Bytes) (dh : Option Bytes) : Bytes :=
  extract P h (derive P h early (ascii "derived") []) (dh.getD (noInput h))

/-- Master Secret = HKDF-Extract(Derive-Secret(Handshake Secret, "derived", ""), 0). -/
def masterSecret (P : Prims) (h : HashId) (handshake : Bytes) : Bytes :=
  extract P h (derive P h handshake (ascii "derived") []) (noInput h)

/-- client_handshake_traffic_secret: from the Handshake Secret and ClientHello…ServerHello. -/
def clientHsTraffic (P : Prims) (h : HashId) (handshake messages : Bytes) : Bytes :=
  derive P h handshake (ascii "c hs traffic") messages

/-- server_handshake_traffic_secret. -/
def serverHsTraffic (P : Prims) (h : HashId) (handshake messages : Bytes) : Bytes :=
  derive P h handshake (ascii "s hs traffic") messages

/-- client_application_traffic_secret_0: from the Master Secret and ClientHello…server Finished. -/
def clientApTraffic (P : Prims) (h : HashId) (master messages : Bytes) : Bytes :=
  derive P h master (ascii "c ap traffic") messages

/-- server_application_traffic_secret_0. -/
def serverApTraffic (P : Prims) (h : HashId) (master messages : Bytes) : Bytes :=
  derive P h master (ascii "s ap traffic") messages

/-- exporter_master_secret. -/
def exporterMaster (P : Prims) (h : HashId) (master messages : Bytes) : Bytes :=
  derive P h master (ascii "exp master") messages

/-- resumption_master_secret: from the Master Secret and ClientHello…client Finished. -/
def resumptionMaster (P : Prims) (h : HashId) (master messages : Bytes) : Bytes :=
  derive P h master (ascii "res master") messages

/-- client_early_traffic_secret: from the Early Secret and the ClientHello. -/
def clientEarlyTraffic (P : Prims) (h : HashId) (early hello : Bytes) : Bytes :=
  derive P h early (ascii "c e traffic") hello

/-- RFC 8446, 7.3: the key and IV belonging to a traffic secret. -/
def trafficKeys (P : Prims) (h : HashId) (keyLen ivLen : Nat) (secret : Bytes) : Bytes × Bytes :=
  (expandLabel P h secret (ascii "key") [] keyLen, expandLabel P h secret (ascii "iv") [] ivLen)

/-- RFC 8446, 4.6.1: the PSK belonging to a ticket. -/
def resumptionPsk (P : Prims) (h : HashId) (resumption nonce : Bytes) : Bytes :=
  expandLabel P h resumption (ascii "resumption") nonce h.size

end Verif.Spec
