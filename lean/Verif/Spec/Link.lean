import Verif.Spec.Views

/-
Two connected ends and the records in flight between them.
-/

namespace Verif.Spec

open Verif Verif.Crypto Verif.Messages Verif.Handshake Verif.Machine

/-- The keys installed last for writing. -/
def lastOut (acts : List Action) : Option Keys :=
  (acts.filterMap fun a => match a with | .rekeyOut _ k => some k | _ => none).getLast?

/-- The keys installed last for reading. -/
def lastIn (acts : List Action) : Option Keys :=
  (acts.filterMap fun a => match a with | .rekeyIn _ k => some k | _ => none).getLast?

/-- What is in a record. -/
inductive Payload where
  | data (d : Bytes)
  | msg (m : Msg)

/-- A record in flight, with the keys it was protected with. -/
abbrev Packet := Keys × Payload

end Verif.Spec
