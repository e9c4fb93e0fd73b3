import Verif.Record.FrameReader

/-
Model of record-layer.go. The AEAD is a parameter of a cipher state.
-/

namespace Verif.Record

open Verif

/-- `cipher.AEAD` (crypto/cipher), as used at record-layer.go:261 and 280: arguments are nonce,
plaintext or ciphertext, additional data. -/
structure Aead where
  overhead : Nat
  sealing : Bytes → Bytes → Bytes → Bytes
  opening : Bytes → Bytes → Bytes → Option Bytes

/-- What is assumed of a correct AEAD: lengths, and opening what was sealed. -/
structure Aead.Lawful (a : Aead) : Prop where
  seal_length : ∀ n p h, (a.sealing n p h).length = p.length + a.overhead
  open_seal : ∀ n p h, a.opening n (a.sealing n p h) h = some p
  open_length : ∀ n c h p, a.opening n c h = some p → p.length + a.overhead = c.length

/-- `TLSPlaintext`, record-layer.go:38-45. -/
structure Plaintext where
  contentType : UInt8
  epoch : Nat
  seq : Nat
  fragment : Bytes
  deriving DecidableEq

/-- `cipherState`, record-layer.go:59-65. `aead = none` is the null cipher; `ivLength` is `iv.length`
and never read by the code. -/
structure CipherState where
  epoch : Nat
  seq : Nat
  iv : Bytes
  aead : Option Aead

inductive Direction where
  | write | read
  deriving DecidableEq

/-- The part of `DefaultRecordLayer` (record-layer.go:85-100) that concerns keys. Cipher states are Go
pointers, shared between the `cipher` field, the `readCiphers` map and handshake messages; they live in
`heap`, addressed by numbers, `fresh` being the next unused one. `readCiphers` is an association list,
the latest entry first. -/
structure Keys where
  direction : Direction
  version : Nat
  datagram : Bool
  heap : Nat → CipherState
  fresh : Nat
  cur : Nat
  readCiphers : List (Nat × Nat)

/-- `newCipherStateNull`, record-layer.go:125-127. -/
def nullCipher : CipherState := ⟨0, 0, [], none⟩

/-- Heap update. -/
def upd (h : Nat → CipherState) (i : Nat) (c : CipherState) : Nat → CipherState :=
  fun j => if j = i then c else h j

/-- The key part of `NewRecordLayerTLS`/`NewRecordLayerDTLS`, record-layer.go:138-160. The version of a DTLS
layer is the zero value until SetVersion. -/
def Keys.new (dir : Direction) (datagram : Bool) : Keys :=
  { direction := dir
    version := if datagram then 0 else 0x0301
    datagram := datagram
    heap := fun _ => nullCipher
    fresh := 1
    cur := 0
    readCiphers := if datagram then [(0, 0)] else [] }

/-- `SetVersion`, record-layer.go:162-164. -/
def Keys.setVersion (k : Keys) (v : Nat) : Keys := { k with version := v }

/-- `ResetClear`, record-layer.go:166-169. -/
def Keys.resetClear (k : Keys) (seq : Nat) : Keys :=
  { k with heap := upd k.heap k.fresh { nullCipher with seq := seq }, fresh := k.fresh + 1, cur := k.fresh }

/-- `Rekey`, record-layer.go:179-189, when the AEAD factory succeeds (otherwise nothing changes). -/
def Keys.rekey (k : Keys) (epoch : Nat) (a : Aead) (iv : Bytes) : Keys :=
  { k with
    heap := upd k.heap k.fresh ⟨epoch, 0, iv, some a⟩
    fresh := k.fresh + 1
    cur := k.fresh
    readCiphers :=
      if k.datagram = true ∧ k.direction = .read then (epoch, k.fresh) :: k.readCiphers
      else k.readCiphers }

/-- `DiscardReadKey`, record-layer.go:192-200. -/
def Keys.discardReadKey (k : Keys) (epoch : Nat) : Res Keys :=
  if k.datagram = false then .ok k
  else if (k.readCiphers.lookup epoch).isSome then
    .ok { k with readCiphers := k.readCiphers.filter (fun e => e.1 != epoch) }
  else .panic

/-- `combineSeq`, record-layer.go:202-208. -/
def combineSeq (c : CipherState) (datagram : Bool) : Nat :=
  if datagram then c.seq ||| (c.epoch <<< 48) else c.seq

/-- `computeNonce`, record-layer.go:210-224: the last eight bytes of the IV are xored with the sequence
number; an IV shorter than eight bytes makes the index negative. -/
def computeNonce (c : CipherState) (seq : Nat) : Res Bytes :=
  if c.iv.length < 8 then .panic
  else .ok (List.zipWith (· ^^^ ·) c.iv (List.replicate (c.iv.length - 8) 0 ++ beBytes 8 seq))

/-- `incrementSequenceNumber`, record-layer.go:226-235. -/
def bumpSeq (h : Nat → CipherState) (i : Nat) : Res (Nat → CipherState) :=
  if (h i).seq ≥ 2 ^ 48 - 1 then .panic
  else .ok (upd h i { h i with seq := (h i).seq + 1 })

/-- `overhead`, record-layer.go:237-242. -/
def CipherState.overhead (c : CipherState) : Nat :=
  match c.aead with
  | none => 0
  | some a => a.overhead

/-- `dtlsConvertVersion`, dtls.go:39-47. -/
def dtlsConvertVersion (v : Nat) : Res Nat :=
  if v = 0x0303 then .ok 0xfefd else if v = 0x0301 then .ok 0xfeff else .panic

/-- The inner plaintext built by `encrypt`, record-layer.go:248-257. -/
def innerPlaintext (ct : UInt8) (fragment : Bytes) (pad : Nat) : Bytes :=
  fragment ++ ct :: List.replicate pad 0

/-- The header, record-layer.go:471-485. `length` is truncated to 16 bits in both forms. -/
def recordHeader (k : Keys) (outer : UInt8) (seq length : Nat) : Res Bytes :=
  if k.datagram then
    (dtlsConvertVersion k.version).bind fun v =>
    .ok (outer :: beBytes 2 v ++ beBytes 8 seq ++ beBytes 2 length)
  else .ok (outer :: beBytes 2 k.version ++ beBytes 2 length)

/-- `writeRecordWithPadding`, record-layer.go:461-509 (with `encrypt`, 244-263). `i` is the cipher state used:
`k.cur` in WriteRecord and WriteRecordWithPadding (453-459), any stored one from the handshake layer
(handshake-layer.go:480). Result: the bytes given to the transport. The outcome of the transport write is
not modelled here; the sequence number is consumed before it. -/
def writeRecord (k : Keys) (i : Nat) (ct : UInt8) (fragment : Bytes) (pad : Nat) : Res (Bytes × Keys) :=
  let c := k.heap i
  let seq := combineSeq c k.datagram
  match c.aead with
  | some a =>
    (recordHeader k 23 seq (fragment.length + (1 + pad + a.overhead))).bind fun header =>
    if k.direction ≠ .write then .panic
    else
      (computeNonce c seq).bind fun nonce =>
      let ciphertext := a.sealing nonce (innerPlaintext ct fragment pad) header
      if ciphertext.length > 2 ^ 14 then .err .msg
      else (bumpSeq k.heap i).bind fun h => .ok (header ++ ciphertext, { k with heap := h })
  | none =>
    (recordHeader k ct seq fragment.length).bind fun header =>
    if pad > 0 then .err .msg
    else if fragment.length > 2 ^ 14 then .err .msg
    else (bumpSeq k.heap i).bind fun h => .ok (header ++ fragment, { k with heap := h })

/-- Lines 286-296 of record-layer.go: strip zero padding from the right, then the content type. An
all-zero (or empty) plaintext makes the index negative. -/
def stripPadding (p : Bytes) : Res (UInt8 × Bytes) :=
  match p.reverse.dropWhile (· == 0) with
  | [] => .panic
  | ct :: rest => .ok (ct, rest.reverse)

/-- `decrypt`, record-layer.go:265-299. `c` is the layer's *current* cipher, whatever the epoch. -/
def decrypt (dir : Direction) (c : CipherState) (seq : Nat) (header fragment : Bytes) : Res (UInt8 × Bytes) :=
  if dir ≠ .read then .panic
  else if fragment.length < c.overhead then .err .msg
  else
    match c.aead with
    | none => .panic
    | some a =>
      (computeNonce c seq).bind fun nonce =>
      match a.opening nonce fragment header with
      | none => .err .msg
      | some p => stripPadding p

/-- `RecordType` values accepted by the switch at record-layer.go:383-388. -/
def knownType (t : UInt8) : Bool := t = 21 || t = 22 || t = 23 || t = 25

/-- The frame format of records, record-layer.go:106-123. Headers handed to `frameLen` are complete. -/
def recordFraming (datagram : Bool) : Framing where
  headerLen := if datagram then 13 else 5
  frameLen hdr :=
    let n := if datagram then 13 else 5
    .ok ((hdr.getD (n - 2) 0).toNat * 256 + (hdr.getD (n - 1) 0).toNat)

/-- The cipher state selected for a record, record-layer.go:407-429: its address and the sequence number. -/
def selectCipher (k : Keys) (allowOldEpoch : Bool) (header : Bytes) : Res (Nat × Nat) :=
  if k.datagram then
    let seq := beNat ((header.drop 3).take 8)
    let epoch := seq >>> 48
    match k.readCiphers.lookup epoch with
    | none => .err .wouldBlock
    | some i =>
      if epoch ≠ (k.heap k.cur).epoch then
        if allowOldEpoch then .ok (i, seq) else .err .wouldBlock
      else .ok (k.cur, seq)
  else .ok (k.cur, (k.heap k.cur).seq)

/-- The length announced by a record header, record-layer.go:396. -/
def announced (header : Bytes) : Nat :=
  (header.getD (header.length - 2) 0).toNat * 256 + (header.getD (header.length - 1) 0).toNat

/-- The second half of `nextRecord`, record-layer.go:381-450: from a frame to a record. The version field
is not checked (`allowWrongVersionNumber`, common.go:17). On error the keys are unchanged. -/
def openRecord (k : Keys) (allowOldEpoch : Bool) (header body : Bytes) : Res (Plaintext × Keys) :=
  if knownType (header.getD 0 0) = false then .err .msg
  else
    let size := announced header
    if size > 2 ^ 14 + 256 then .err .msg
    else
      let fragment := (body ++ List.replicate size 0).take size
      (selectCipher k allowOldEpoch header).bind fun (i, seq) =>
      (match (k.heap i).aead with
        | some _ =>
          (decrypt k.direction (k.heap k.cur) seq header fragment).bind fun (ct, f) => .ok (ct, seq, f)
        | none => .ok (header.getD 0 0, 0, fragment)).bind fun (ct, s, f) =>
      if f.length > 2 ^ 14 then .err .msg
      else
        (bumpSeq k.heap i).bind fun h => .ok (⟨ct, (k.heap i).epoch, s, f⟩, { k with heap := h })

/-- `DefaultRecordLayer` as a reader: `conn` lists what successive transport reads will return
(bytes, at most header plus 2^14 of them, or an error); once exhausted a read returns nothing.
`cachedError` (record-layer.go:94) is never set. -/
structure Reader where
  keys : Keys
  frame : FrameReader
  conn : List (Except Err Bytes)
  cached : Option Plaintext

/-- Outcome of the frame loop. -/
inductive FrameRes where
  | frame (header body : Bytes)
  | frameErr (e : Err)
  | connErr (e : Err)
  | block
  deriving DecidableEq

/-- The loop of `nextRecord`, record-layer.go:354-379. The loop is expressed as: process; when that would
block, read and add a chunk. This is the Go loop: `process` does nothing when bytes are `needed`, and bytes are
`needed` whenever it would block. -/
def readFrame (d : Framing) :
    List (Except Err Bytes) → FrameReader → FrameRes × FrameReader × List (Except Err Bytes)
  | [], f =>
    match f.process d with
    | (some (.ok (h, b)), f') => (.frame h b, f', [])
    | (some (.error e), f') => (.frameErr e, f', [])
    | (none, f') => (.block, f', [])
  | x :: conn, f =>
    match f.process d with
    | (some (.ok (h, b)), f') => (.frame h b, f', x :: conn)
    | (some (.error e), f') => (.frameErr e, f', x :: conn)
    | (none, f') =>
      match x with
      | .error e => (.connErr e, f', conn)
      | .ok c => if c = [] then (.block, f', conn) else readFrame d conn (f'.addChunk c)

/-- `nextRecord`, record-layer.go:337-451. -/
def nextRecord (r : Reader) (allowOldEpoch : Bool) : Res Plaintext × Reader :=
  match r.cached with
  | some pt => (.ok pt, r)
  | none =>
    match readFrame (recordFraming r.keys.datagram) r.conn r.frame with
    | (.frame h b, f, c) =>
      match openRecord r.keys allowOldEpoch h b with
      | .ok (pt, k) => (.ok pt, { keys := k, frame := f, conn := c, cached := some pt })
      | .err e => (.err e, { r with frame := f, conn := c })
      | .panic => (.panic, { r with frame := f, conn := c })
      | .diverge => (.diverge, { r with frame := f, conn := c })
    | (.frameErr e, f, c) => (.err e, { r with frame := f, conn := c })
    | (.connErr e, f, c) => (.err e, { r with frame := f, conn := c })
    | (.block, f, c) => (.err .wouldBlock, { r with frame := f, conn := c })

/-- `ReadRecord` (`false`) and `ReadRecordAnyEpoch` (`true`), record-layer.go:317-335. -/
def readRecord (r : Reader) (anyEpoch : Bool) : Res Plaintext × Reader :=
  let x := nextRecord r anyEpoch
  (x.1, { x.2 with cached := none })

/-- `PeekRecordType(false)`, record-layer.go:301-315. -/
def peekType (r : Reader) : Res UInt8 × Reader :=
  let x := nextRecord r false
  (x.1.bind fun pt => .ok pt.contentType, x.2)

/-- A new reader, record-layer.go:138-160. -/
def Reader.new (datagram : Bool) (conn : List (Except Err Bytes)) : Reader :=
  { keys := Keys.new .read datagram, frame := FrameReader.new (recordFraming datagram), conn := conn, cached := none }

end Verif.Record
