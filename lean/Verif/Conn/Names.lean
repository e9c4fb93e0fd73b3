import Verif.Basic

/-
The texts of alerts, cipher suites and states (alert.go, common.go). Strings are lists of characters.
-/

namespace Verif.Names

/-- The digit of a number less than 16, as `strconv` writes it. -/
def digit (n : Nat) : Char :=
  match n with
  | 0 => '0' | 1 => '1' | 2 => '2' | 3 => '3' | 4 => '4' | 5 => '5' | 6 => '6' | 7 => '7' | 8 => '8' | 9 => '9'
  | 10 => 'a' | 11 => 'b' | 12 => 'c' | 13 => 'd' | 14 => 'e' | _ => 'f'

/-- `strconv.Itoa` (base 10), `strconv.FormatUint` (base 16) and `%d` on numbers that are not negative; the first argument bounds
the number of digits. -/
def format (base : Nat) : Nat → Nat → List Char
  | 0, n => [digit (n % base)]
  | fuel + 1, n => if n < base then [digit n] else format base fuel (n / base) ++ [digit (n % base)]

/-- A map from numbers to texts, and what is written for a number without one. -/
def text (table : List (Nat × String)) (before : String) (base : Nat) (after : String) (n : Nat) : List Char :=
  match table.lookup n with
  | some s => s.toList
  | none => before.toList ++ format base n n ++ after.toList

/-- `alertText`, alert.go:54-89, with the numbers of 17-51. -/
def alertTexts : List (Nat × String) :=
  [(0, "close notify"), (10, "unexpected message"), (20, "bad record MAC"), (21, "decryption failed"), (22, "record overflow"),
   (30, "decompression failure"), (40, "handshake failure"), (42, "bad certificate"), (43, "unsupported certificate"),
   (44, "revoked certificate"), (45, "expired certificate"), (46, "unknown certificate"), (47, "illegal parameter"),
   (48, "unknown certificate authority"), (49, "access denied"), (50, "error decoding message"), (51, "error decrypting message"),
   (70, "protocol version not supported"), (71, "insufficient security level"), (80, "internal error"),
   (86, "inappropriate fallback"), (90, "user canceled"), (109, "missing extension"), (110, "unsupported extension"),
   (111, "certificate unobtainable"), (112, "unrecognized name"), (113, "bad certificate status response"),
   (114, "bad certificate hash value"), (115, "unknown PSK identity"), (120, "no application protocol"),
   (100, "no renegotiation"), (253, "stateless retry"), (254, "would have blocked"), (255, "no alert")]

/-- `Alert.String` and `Alert.Error`, alert.go:91-101. -/
def alertString (a : UInt8) : List Char := text alertTexts "alert(" 10 ")" a.toNat

def suiteTexts : List (Nat × String) :=
  [(0, "unknown"), (0x1301, "TLS_AES_128_GCM_SHA256"), (0x1302, "TLS_AES_256_GCM_SHA384"), (0x1303, "TLS_CHACHA20_POLY1305_SHA256"),
   (0x1304, "TLS_AES_128_CCM_SHA256"), (0x1305, "TLS_AES_256_CCM_8_SHA256")]

/-- `CipherSuite.String`, common.go:72-89. -/
def suiteString (c : UInt16) : List Char := text suiteTexts "invalid CipherSuite value: 0x" 16 "" c.toNat

/-- The states, common.go:169-192. -/
def stateTexts : List (Nat × String) :=
  [(1, "Client START"), (2, "Client WAIT_SH"), (3, "Client WAIT_EE"), (4, "Client WAIT_CERT"), (5, "Client WAIT_CV"),
   (6, "Client WAIT_FINISHED"), (7, "Client WAIT_CERT_CR"), (8, "Client CONNECTED"), (9, "Server START"), (10, "Server RECVD_CH"),
   (11, "Server NEGOTIATED"), (12, "Server READ_PAST_EARLY_DATA"), (13, "Server WAIT_EOED"), (14, "Server WAIT_FLIGHT2"),
   (15, "Server WAIT_CERT"), (16, "Server WAIT_CV"), (17, "Server WAIT_FINISHED"), (18, "Server CONNECTED")]

/-- `State.String`, common.go:194-236. -/
def stateString (s : UInt8) : List Char := text stateTexts "unknown state: " 10 "" s.toNat

end Verif.Names
