import Verif.Syntax.Model
import Verif.Crypto.Model

/-
Model of extensions.go. Go's `ExtensionBody` values are `ExtBody`; the empty value a caller passes to Unmarshal, which
fixes the Go type and (where there is one) the HandshakeType field, is an `ExtKind`. Strings are byte strings.
Structs are the nested tuples of `Verif.Syntax`.
-/

namespace Verif.Messages

open Verif Verif.Syntax

/-! ### Handshake and extension types (common.go:31-48, 115-129) -/

def typeClientHello : UInt8 := 1
def typeServerHello : UInt8 := 2
def typeNewSessionTicket : UInt8 := 4
def typeEndOfEarlyData : UInt8 := 5
def typeHelloRetryRequest : UInt8 := 6
def typeEncryptedExtensions : UInt8 := 8
def typeCertificate : UInt8 := 11
def typeCertificateRequest : UInt8 := 13
def typeCertificateVerify : UInt8 := 15
def typeFinished : UInt8 := 20
def typeKeyUpdate : UInt8 := 24
def typeMessageHash : UInt8 := 254

/-! ### Extensions and lists of them -/

/-- `Extension`, extensions.go:19-22: type and data. -/
abbrev Ext := UInt16 × Bytes × Unit

/-- A `[]byte` field with the given tag. -/
def bytesTy : Ty Bytes := .slice (.uint .w1)

def extTy : Ty Ext := .struct (.cons {} (.uint .w2) (.cons { headerSize := 2 } bytesTy .nil))

/-- `extensionListInner`, extensions.go:34-36. -/
def extListTy : Ty (List Ext × Unit) := .struct (.cons { headerSize := 2 } (.slice extTy) .nil)

/-- `ExtensionList.Marshal`, extensions.go:38-40. -/
def marshalExts (el : List Ext) : Res Bytes := marshal extListTy (el, ())

/-- `ExtensionList.Unmarshal`, extensions.go:42-51. -/
def unmarshalExts (bs : Bytes) : Res (List Ext × Nat) :=
  (unmarshal extListTy bs).bind fun (l, n) => .ok (l.1, n)

/-- `safeUnmarshal`, handshake-layer.go:561-570. -/
def safeUnmarshal {α : Type} (u : Bytes → Res (α × Nat)) (data : Bytes) : Res α :=
  (u data).bind fun (v, n) => if data.length ≠ n then .err .msg else .ok v

/-! ### Schemas of the extension bodies -/

/-- `serverNameInner`, extensions.go:139-142, and `serverNameListInner`, 144-146. -/
def serverNameTy : Ty (UInt8 × Bytes × Unit) :=
  .struct (.cons {} (.uint .w1) (.cons { headerSize := 2, minSize := 1 } bytesTy .nil))
def serverNameListTy : Ty (List (UInt8 × Bytes × Unit) × Unit) :=
  .struct (.cons { headerSize := 2, minSize := 1 } (.slice serverNameTy) .nil)

/-- `KeyShareEntry`, extensions.go:197-200. -/
abbrev KeyShareEntry := UInt16 × Bytes × Unit

def keyShareEntryTy : Ty KeyShareEntry :=
  .struct (.cons {} (.uint .w2) (.cons { headerSize := 2, minSize := 1 } bytesTy .nil))

/-- `KeyShareClientHelloInner`, `KeyShareHelloRetryInner`, `KeyShareServerHelloInner`, extensions.go:212-220. -/
def keyShareClientTy : Ty (List KeyShareEntry × Unit) :=
  .struct (.cons { headerSize := 2, minSize := 0 } (.slice keyShareEntryTy) .nil)
def u16Ty : Ty (UInt16 × Unit) := .struct (.cons {} (.uint .w2) .nil)
def keyShareServerTy : Ty (KeyShareEntry × Unit) := .struct (.cons {} keyShareEntryTy .nil)

/-- `KeyShareEntry.SizeValid`, extensions.go:202-204. -/
def sizeValid (e : KeyShareEntry) : Bool := e.2.1.length == Crypto.keyExchangeSize e.1.toNat

/-- `SupportedGroupsExtension`, `SignatureAlgorithmsExtension`, extensions.go:309-311, 328-330. -/
def u16ListTy : Ty (List UInt16 × Unit) :=
  .struct (.cons { headerSize := 2, minSize := 2 } (.slice (.uint .w2)) .nil)

/-- `PSKIdentity`, extensions.go:362-365. -/
abbrev PskIdentity := Bytes × UInt32 × Unit
/-- `PSKBinderEntry`, extensions.go:367-369. -/
abbrev BinderEntry := Bytes × Unit

def pskIdentityTy : Ty PskIdentity :=
  .struct (.cons { headerSize := 2, minSize := 1 } bytesTy (.cons {} (.uint .w4) .nil))
def binderTy : Ty BinderEntry := .struct (.cons { headerSize := 1, minSize := 32 } bytesTy .nil)

/-- `preSharedKeyClientInner`, extensions.go:378-381. -/
def pskClientTy : Ty (List PskIdentity × List BinderEntry × Unit) :=
  .struct (.cons { headerSize := 2, minSize := 7 } (.slice pskIdentityTy)
    (.cons { headerSize := 2, minSize := 33 } (.slice binderTy) .nil))

/-- The anonymous struct of Truncated, handshake-messages.go:158-160. -/
def bindersTy : Ty (List BinderEntry × Unit) :=
  .struct (.cons { headerSize := 2, minSize := 33 } (.slice binderTy) .nil)

/-- `PSKKeyExchangeModesExtension`, extensions.go:456-458. -/
def pskModesTy : Ty (List UInt8 × Unit) := .struct (.cons { headerSize := 1, minSize := 1 } bytesTy .nil)

/-- `TicketEarlyDataInfoExtension`, extensions.go:493-495. -/
def u32Ty : Ty (UInt32 × Unit) := .struct (.cons {} (.uint .w4) .nil)

/-- `protocolNameInner`, `alpnExtensionInner`, extensions.go:518-524. -/
def protocolNameTy : Ty (Bytes × Unit) := .struct (.cons { headerSize := 1, minSize := 1 } bytesTy .nil)
def alpnTy : Ty (List (Bytes × Unit) × Unit) :=
  .struct (.cons { headerSize := 2, minSize := 2 } (.slice protocolNameTy) .nil)

/-- `SupportedVersionsClientHelloInner`, extensions.go:561-563. -/
def versionsTy : Ty (List UInt16 × Unit) :=
  .struct (.cons { headerSize := 1, minSize := 2, maxSize := 254 } (.slice (.uint .w2)) .nil)

/-- `CookieExtension`, extensions.go:612-614. -/
def cookieTy : Ty (Bytes × Unit) := .struct (.cons { headerSize := 2, minSize := 1 } bytesTy .nil)

/-! ### Extension bodies -/

/-- The ExtensionBody implementations of extensions.go. `hs` is the HandshakeType field. -/
inductive ExtBody where
  | serverName (name : Bytes)
  | keyShare (hs : UInt8) (group : UInt16) (shares : List KeyShareEntry)
  | supportedGroups (groups : List UInt16)
  | signatureAlgorithms (algs : List UInt16)
  | preSharedKey (hs : UInt8) (ids : List PskIdentity) (binders : List BinderEntry) (selected : UInt16)
  | pskModes (modes : List UInt8)
  | earlyData
  | ticketEarlyDataInfo (max : UInt32)
  | alpn (protos : List Bytes)
  | supportedVersions (hs : UInt8) (versions : List UInt16)
  | cookie (data : Bytes)
  deriving DecidableEq, Repr

/-- The empty value passed to Unmarshal: Go type and HandshakeType field. -/
inductive ExtKind where
  | serverName
  | keyShare (hs : UInt8)
  | supportedGroups
  | signatureAlgorithms
  | preSharedKey (hs : UInt8)
  | pskModes
  | earlyData
  | ticketEarlyDataInfo
  | alpn
  | supportedVersions (hs : UInt8)
  | cookie
  deriving DecidableEq, Repr

def ExtBody.kind : ExtBody → ExtKind
  | .serverName _ => .serverName
  | .keyShare hs _ _ => .keyShare hs
  | .supportedGroups _ => .supportedGroups
  | .signatureAlgorithms _ => .signatureAlgorithms
  | .preSharedKey hs _ _ _ => .preSharedKey hs
  | .pskModes _ => .pskModes
  | .earlyData => .earlyData
  | .ticketEarlyDataInfo _ => .ticketEarlyDataInfo
  | .alpn _ => .alpn
  | .supportedVersions hs _ => .supportedVersions hs
  | .cookie _ => .cookie

/-- The `Type` methods, with the values of common.go:115-129. -/
def ExtKind.type : ExtKind → UInt16
  | .serverName => 0
  | .keyShare _ => 51
  | .supportedGroups => 10
  | .signatureAlgorithms => 13
  | .preSharedKey _ => 41
  | .pskModes => 45
  | .earlyData => 42
  | .ticketEarlyDataInfo => 46
  | .alpn => 16
  | .supportedVersions _ => 43
  | .cookie => 44

/-- The `Marshal` methods. -/
def ExtBody.marshal : ExtBody → Res Bytes
  -- extensions.go:152-161
  | .serverName name => Syntax.marshal serverNameListTy ([(0, name, ())], ())
  -- extensions.go:226-257
  | .keyShare hs group shares =>
    if hs = typeClientHello then
      if shares.all sizeValid then Syntax.marshal keyShareClientTy (shares, ()) else .err .msg
    else if hs = typeHelloRetryRequest then
      if shares.length > 0 then .err .msg else Syntax.marshal u16Ty (group, ())
    else if hs = typeServerHello then
      match shares with
      | [s] => if sizeValid s then Syntax.marshal keyShareServerTy (s, ()) else .err .msg
      | _ => .err .msg
    else .err .msg
  -- extensions.go:317-319
  | .supportedGroups groups => Syntax.marshal u16ListTy (groups, ())
  -- extensions.go:336-338
  | .signatureAlgorithms algs => Syntax.marshal u16ListTy (algs, ())
  -- extensions.go:391-408
  | .preSharedKey hs ids binders selected =>
    if hs = typeClientHello then Syntax.marshal pskClientTy (ids, binders, ())
    else if hs = typeServerHello then
      if ids.length > 0 ∨ binders.length > 0 then .err .msg else Syntax.marshal u16Ty (selected, ())
    else .err .msg
  -- extensions.go:464-466
  | .pskModes modes => Syntax.marshal pskModesTy (modes, ())
  -- extensions.go:481-483
  | .earlyData => .ok []
  -- extensions.go:501-503
  | .ticketEarlyDataInfo max => Syntax.marshal u32Ty (max, ())
  -- extensions.go:530-536
  | .alpn protos => Syntax.marshal alpnTy (protos.map (fun p => (p, ())), ())
  -- extensions.go:573-582; `sv.Versions[0]` of an empty list is a runtime panic
  | .supportedVersions hs versions =>
    if hs = typeClientHello then Syntax.marshal versionsTy (versions, ())
    else if hs = typeServerHello ∨ hs = typeHelloRetryRequest then
      match versions with
      | [] => .panic
      | v :: _ => Syntax.marshal u16Ty (v, ())
    else .err .msg
  -- extensions.go:620-622
  | .cookie data => Syntax.marshal cookieTy (data, ())

/-- The `Unmarshal` methods on an otherwise empty value: the value and the number of bytes read. -/
def ExtKind.unmarshal : ExtKind → Bytes → Res (ExtBody × Nat)
  -- extensions.go:163-178; `list.ServerNameList[0]` of an empty list would be a runtime panic
  | .serverName, bs =>
    (Syntax.unmarshal serverNameListTy bs).bind fun (v, n) =>
      match v.1 with
      | [] => .panic
      | (ty, name, _) :: _ => if ty ≠ 0 then .err .msg else .ok (.serverName name, n)
  -- extensions.go:259-304
  | .keyShare hs, bs =>
    if hs = typeClientHello then
      (Syntax.unmarshal keyShareClientTy bs).bind fun (v, n) =>
        if v.1.all sizeValid then .ok (.keyShare hs 0 v.1, n) else .err .msg
    else if hs = typeHelloRetryRequest then
      (Syntax.unmarshal u16Ty bs).bind fun (v, n) => .ok (.keyShare hs v.1 [], n)
    else if hs = typeServerHello then
      (Syntax.unmarshal keyShareServerTy bs).bind fun (v, n) =>
        if sizeValid v.1 then .ok (.keyShare hs 0 [v.1], n) else .err .msg
    else .err .msg
  -- extensions.go:321-323
  | .supportedGroups, bs =>
    (Syntax.unmarshal u16ListTy bs).bind fun (v, n) => .ok (.supportedGroups v.1, n)
  -- extensions.go:340-342
  | .signatureAlgorithms, bs =>
    (Syntax.unmarshal u16ListTy bs).bind fun (v, n) => .ok (.signatureAlgorithms v.1, n)
  -- extensions.go:410-440
  | .preSharedKey hs, bs =>
    if hs = typeClientHello then
      (Syntax.unmarshal pskClientTy bs).bind fun (v, n) =>
        if v.1.length ≠ v.2.1.length then .err .msg else .ok (.preSharedKey hs v.1 v.2.1 0, n)
    else if hs = typeServerHello then
      (Syntax.unmarshal u16Ty bs).bind fun (v, n) => .ok (.preSharedKey hs [] [] v.1, n)
    else .err .msg
  -- extensions.go:468-470
  | .pskModes, bs => (Syntax.unmarshal pskModesTy bs).bind fun (v, n) => .ok (.pskModes v.1, n)
  -- extensions.go:485-487
  | .earlyData, _ => .ok (.earlyData, 0)
  -- extensions.go:505-507
  | .ticketEarlyDataInfo, bs =>
    (Syntax.unmarshal u32Ty bs).bind fun (v, n) => .ok (.ticketEarlyDataInfo v.1, n)
  -- extensions.go:538-551
  | .alpn, bs => (Syntax.unmarshal alpnTy bs).bind fun (v, n) => .ok (.alpn (v.1.map Prod.fst), n)
  -- extensions.go:584-607
  | .supportedVersions hs, bs =>
    if hs = typeClientHello then
      (Syntax.unmarshal versionsTy bs).bind fun (v, n) => .ok (.supportedVersions hs v.1, n)
    else if hs = typeServerHello ∨ hs = typeHelloRetryRequest then
      (Syntax.unmarshal u16Ty bs).bind fun (v, n) => .ok (.supportedVersions hs [v.1], n)
    else .err .msg
  -- extensions.go:624-626
  | .cookie, bs => (Syntax.unmarshal cookieTy bs).bind fun (v, n) => .ok (.cookie v.1, n)

/-! ### Operations on lists -/

/-- Replacing the data of the first extension of the type, else appending (extensions.go:63-77). -/
def setExt (ty : UInt16) (data : Bytes) : List Ext → List Ext
  | [] => [(ty, data, ())]
  | e :: el => if e.1 = ty then (e.1, data, ()) :: el else e :: setExt ty data el

/-- `ExtensionList.Add`, extensions.go:53-77. -/
def addExt (el : List Ext) (b : ExtBody) : Res (List Ext) :=
  b.marshal.bind fun data => .ok (setExt b.kind.type data el)

/-- The inner loop of `ExtensionList.Parse`, extensions.go:83-95; `found` are the values filled in so far. -/
def parseExt (k : ExtKind) : List ExtBody → List Ext → Res (List ExtBody)
  | found, [] => .ok found
  | found, e :: el =>
    if e.1 = k.type then
      if found.any (fun b => b.kind.type == k.type) then .err .msg
      else (safeUnmarshal k.unmarshal e.2.1).bind fun b => parseExt k (found ++ [b]) el
    else parseExt k found el

/-- The outer loop of `ExtensionList.Parse`, extensions.go:82-96. -/
def parseExtsFrom (el : List Ext) : List ExtBody → List ExtKind → Res (List ExtBody)
  | found, [] => .ok found
  | found, k :: ks => (parseExt k found el).bind fun f => parseExtsFrom el f ks

/-- `ExtensionList.Parse`, extensions.go:79-100. The map of found types and the filled-in targets are represented by
the list of filled-in targets. -/
def parseExts (el : List Ext) (ks : List ExtKind) : Res (List ExtBody) := parseExtsFrom el [] ks

/-- `ExtensionList.Find`, extensions.go:102-113: `none` if there is no extension of the type. -/
def findExt (k : ExtKind) : List Ext → Res (Option ExtBody)
  | [] => .ok none
  | e :: el => if e.1 = k.type then (safeUnmarshal k.unmarshal e.2.1).bind fun b => .ok (some b) else findExt k el

end Verif.Messages
