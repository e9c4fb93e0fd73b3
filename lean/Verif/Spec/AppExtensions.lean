import Verif.Messages.Extensions

/-
Extensions of the application (C94).
-/

namespace Verif.Spec

open Verif Verif.Messages

/-- The extensions of a list whose types are among the given ones, in order. -/
def only (ts : List UInt16) (el : List Ext) : List Ext := el.filter fun e => ts.contains e.1

/-- The extensions of a list whose types are not among the given ones, in order. -/
def others (ts : List UInt16) (el : List Ext) : List Ext := el.filter fun e => !ts.contains e.1

/-- The types of extension a server looks at in a ClientHello: server_name, supported_groups, signature_algorithms, ALPN,
pre_shared_key, early_data, supported_versions, cookie, psk_key_exchange_modes, key_share. -/
def serverLooksAt : List UInt16 := [0, 10, 13, 16, 41, 42, 43, 44, 45, 51]

end Verif.Spec
