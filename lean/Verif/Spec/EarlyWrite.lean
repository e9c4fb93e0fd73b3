import Verif.Conn.Handshake

/-
When a client may send early data, after RFC 8446, sections 4.2.10 and 4.1.4.
-/

namespace Verif.Spec

open Verif Verif.Conn

/-- The states of a client in which early data it sends may be accepted: it has offered early data and knows of no answer, or
early data was granted. -/
def earlyOpen : Option HState → Prop
  | some (.client (.waitSH w)) => w.params.clientSendingEarlyData = true
  | some (.client (.waitEE s)) => s.params.clientSendingEarlyData = true
  | some (.client (.waitCertCR s)) => s.params.usingEarlyData = true
  | some (.client (.waitCert s)) => s.params.usingEarlyData = true
  | some (.client (.waitCV s)) => s.params.usingEarlyData = true
  | some (.client (.waitFinished s)) => s.params.usingEarlyData = true
  | _ => False

end Verif.Spec
