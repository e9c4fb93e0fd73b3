import Verif.Spec.Stream

/-
Vocabulary for stating where a reader stops.
-/

namespace Verif.Spec

open Verif Verif.Conn Verif.Record

/-- A record at which a reader may stop: an alert; a ticket from a client; or a KeyUpdate that asks for an answer, which
cannot be given by an end that cannot write. -/
def Stops (fromClient : Bool) (ct : UInt8) (f : Bytes) : Prop :=
  ct = 21 ∨ ct = 22 ∧ (fromClient = true ∧ f.head? ≠ some 24 ∨ f = [24, 0, 0, 1, 1])

/-- A reader has stopped at a record of the writer's history, after all application data before that record. -/
def StopsAt (fromClient : Bool) (log : List Item) (got : Bytes) : Prop :=
  ∃ pre ct f post, log = pre ++ .record ct f 0 :: post ∧ Stops fromClient ct f ∧ got = appData pre

end Verif.Spec
