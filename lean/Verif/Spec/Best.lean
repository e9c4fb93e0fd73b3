import Verif.Spec.Choice
import Verif.Spec.Views

/-
What a client and a server have in common at best, from their configurations alone.
-/

namespace Verif.Spec

open Verif Verif.Crypto Verif.Messages Verif.Handshake Verif.Machine

/-- `a` is the best of what two lists have in common: the first of the client's that the server has too. -/
def BestCommon {α : Type} (client server : List α) (a : α) : Prop := IsFirst (· ∈ server) client a

/-- The client was told the group `g`: it read a ServerHello whose key_share extension (51) has a public value in it. -/
def ToldGroup (ms : List Msg) (g : UInt16) : Prop :=
  ∃ m ∈ ms, ∃ sh n pub, m.msgType = 2 ∧ ServerHello.unmarshal m.body = .ok (sh, n) ∧
    dataOf 51 sh.exts = [beBytes 2 g.toNat ++ beBytes 2 pub.length ++ pub]

end Verif.Spec
