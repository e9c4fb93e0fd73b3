import Verif.Messages.Extensions

/-
`PreSharedKeyExtension.HasIdentity` (extensions.go).
-/

namespace Verif.Messages

open Verif

/-- The loop of `HasIdentity` (extensions.go:443-447) at index `i`. -/
def hasIdentityFrom (binders : List BinderEntry) (id : Bytes) : Nat → List PskIdentity → Res (Option Bytes)
  | _, [] => .ok none
  | i, localId :: ids =>
    if localId.1 = id then
      match binders[i]? with
      | some b => .ok (some b.1)
      | none => .panic
    else hasIdentityFrom binders id (i + 1) ids

/-- `PreSharedKeyExtension.HasIdentity` (extensions.go:442-449): `none` if there is no such identity. -/
def hasIdentity (ids : List PskIdentity) (binders : List BinderEntry) (id : Bytes) : Res (Option Bytes) :=
  hasIdentityFrom binders id 0 ids

end Verif.Messages
