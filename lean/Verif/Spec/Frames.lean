import Verif.Basic

/-
Reference meaning of a framed byte stream, independent of chunking and buffering.
-/

namespace Verif.Record

open Verif

/-- A frame format: a fixed header length and the body length announced by a header
(frame-reader.go:5-9). -/
structure Framing where
  headerLen : Nat
  frameLen : Bytes → Except Err Nat

/-- A frame (header and body), or the error that reading a header gave. -/
abbrev FrameEvent := Except Err (Bytes × Bytes)

/-- The frames in a byte string, from the left, as far as they are complete. A refused header is
skipped. -/
def frameEvents (d : Framing) (s : Bytes) : List FrameEvent :=
  if _h : d.headerLen = 0 ∨ s.length < d.headerLen then []
  else
    match d.frameLen (s.take d.headerLen) with
    | .error e => .error e :: frameEvents d (s.drop d.headerLen)
    | .ok n =>
      if (s.drop d.headerLen).length < n then []
      else .ok (s.take d.headerLen, (s.drop d.headerLen).take n) ::
        frameEvents d ((s.drop d.headerLen).drop n)
termination_by s.length
decreasing_by all_goals (simp only [List.length_drop]; omega)

/-- The bytes a frame occupies. -/
def frameBytes (f : Bytes × Bytes) : Bytes := f.1 ++ f.2

end Verif.Record
