import Verif.Messages.Bodies

/-
Vocabulary for stating properties of handshake messages and extensions. Nothing here mentions marshalling.
-/

namespace Verif.Spec

open Verif Verif.Messages

/-- What an extension body says. Some Go structs have fields that are not part of the message in which they are used
(`SelectedGroup` in a ClientHello or ServerHello key share, `SelectedIdentity` in a ClientHello pre_shared_key); these
are cleared. -/
def contents : ExtBody → ExtBody
  | .keyShare hs group shares => if hs = typeHelloRetryRequest then .keyShare hs group shares else .keyShare hs 0 shares
  | .preSharedKey hs ids binders selected =>
    if hs = typeClientHello then .preSharedKey hs ids binders 0 else .preSharedKey hs ids binders selected
  | b => b

/-- Extension bodies that the wire format can carry: as many binders as identities, and a single version in a
ServerHello or HelloRetryRequest. -/
def expressible : ExtBody → Prop
  | .preSharedKey hs ids binders _ => hs = typeClientHello → ids.length = binders.length
  | .supportedVersions hs versions => hs ≠ typeClientHello → versions.length = 1
  | _ => True

/-- The extension types present in a list. -/
def types (el : List Ext) : List UInt16 := el.map (·.1)

/-- The data of the extensions of a type, in order. -/
def dataOf (ty : UInt16) (el : List Ext) : List Bytes := (el.filter (fun e => e.1 == ty)).map (·.2.1)

/-- Wire format of a list of PSK binders (RFC 8446, section 4.2.11): two bytes of length, then each binder with one byte
of length. -/
def binderList (binders : List Bytes) : Bytes :=
  let body := (binders.map fun b => beBytes 1 b.length ++ b).flatten
  beBytes 2 body.length ++ body

/-- Wire format of a handshake message without the DTLS fields (RFC 8446, section 4): type, three bytes of length,
body. -/
def handshakeMessage (type : UInt8) (body : Bytes) : Bytes := type :: beBytes 3 body.length ++ body

end Verif.Spec
