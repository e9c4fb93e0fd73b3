import Verif.Spec.Frames

/-
Model of frame-reader.go.
-/

namespace Verif.Record

open Verif

/-- `frameReader`, frame-reader.go:18-26. The buffers `header`/`body`/`working` are represented by what was
written to them: `filled` is `working[:writeOffset]`, `target` is `len(working)`, `header` is the content of
the header buffer once complete (the rest of a buffer is never read before being written). -/
structure FrameReader where
  inBody : Bool
  header : Bytes
  target : Nat
  filled : Bytes
  remainder : Bytes
  deriving DecidableEq

/-- `newFrameReader`, frame-reader.go:28-39. -/
def FrameReader.new (d : Framing) : FrameReader := ⟨false, [], d.headerLen, [], []⟩

/-- `needed`, frame-reader.go:47-53 (Go `int`, clamped at zero). -/
def FrameReader.needed (f : FrameReader) : Nat :=
  let tmp : Int := ((f.target : Int) - f.filled.length) - f.remainder.length
  if tmp < 0 then 0 else tmp.toNat

/-- `addChunk`, frame-reader.go:55-59. -/
def FrameReader.addChunk (f : FrameReader) (c : Bytes) : FrameReader :=
  { f with remainder := f.remainder ++ c }

/-- Lines 64-67 of frame-reader.go: copy as much as fits into the working block. -/
def FrameReader.fill (f : FrameReader) : FrameReader :=
  let copied := min (f.target - f.filled.length) f.remainder.length
  { f with filled := f.filled ++ f.remainder.take copied, remainder := f.remainder.drop copied }

/-- At most `n` rounds of the loop of `process`, frame-reader.go:61-98. `none` is AlertWouldBlock. -/
def FrameReader.processN (d : Framing) : Nat → FrameReader → Option FrameEvent × FrameReader
  | 0, f => (none, f)
  | n + 1, f =>
    if f.needed = 0 then
      let g := f.fill
      if g.filled.length < g.target then (none, g)
      else if f.inBody = true then
        (some (.ok (g.header, g.filled)),
          { g with inBody := false, target := d.headerLen, filled := [] })
      else
        match d.frameLen g.filled with
        | .error e => (some (.error e), { g with header := g.filled, filled := [] })
        | .ok len =>
          FrameReader.processN d n { g with inBody := true, header := g.filled, target := len, filled := [] }
    else (none, f)

/-- `process`, frame-reader.go:61-98. The Go loop is not bounded, but it goes round again only after completing a
header, and a round that starts in the body state returns: two rounds are all there can be (`process_spec` shows that
the bound is never what stops it: after would-block, bytes are needed). -/
def FrameReader.process (d : Framing) (f : FrameReader) : Option FrameEvent × FrameReader :=
  f.processN d 2

/-- What the reader will deliver when `more` arrives: the frames of its unread bytes. -/
def FrameReader.future (d : Framing) (f : FrameReader) (more : Bytes) : List FrameEvent :=
  let s := f.filled ++ f.remainder ++ more
  if f.inBody then
    if s.length < f.target then []
    else .ok (f.header, s.take f.target) :: frameEvents d (s.drop f.target)
  else frameEvents d s

/-- Invariant of the reader. -/
structure FrameReader.Inv (d : Framing) (f : FrameReader) : Prop where
  bound : f.filled.length ≤ f.target
  hdr : f.inBody = false → f.target = d.headerLen
  body : f.inBody = true → f.header.length = d.headerLen ∧ d.frameLen f.header = .ok f.target

theorem FrameReader.inv_new (d : Framing) : (FrameReader.new d).Inv d :=
  ⟨by simp [FrameReader.new], by simp [FrameReader.new], by simp [FrameReader.new]⟩

theorem FrameReader.inv_addChunk {d : Framing} {f : FrameReader} (h : f.Inv d) (c : Bytes) :
    (f.addChunk c).Inv d := ⟨h.1, h.2, h.3⟩

theorem FrameReader.future_new (d : Framing) (s : Bytes) :
    (FrameReader.new d).future d s = frameEvents d s := by
  simp [FrameReader.new, FrameReader.future]

theorem FrameReader.future_addChunk (d : Framing) (f : FrameReader) (c s : Bytes) :
    (f.addChunk c).future d s = f.future d (c ++ s) := by
  simp [FrameReader.addChunk, FrameReader.future, List.append_assoc]

theorem FrameReader.needed_eq_zero {f : FrameReader} (_hb : f.filled.length ≤ f.target) :
    f.needed = 0 ↔ f.target ≤ f.filled.length + f.remainder.length := by
  unfold FrameReader.needed
  dsimp only
  split <;> omega

/-- Once enough bytes are there, filling completes the block. -/
theorem FrameReader.fill_eq {f : FrameReader} (hb : f.filled.length ≤ f.target)
    (h : f.target ≤ f.filled.length + f.remainder.length) :
    f.fill.filled = (f.filled ++ f.remainder).take f.target ∧
    f.fill.remainder = (f.filled ++ f.remainder).drop f.target ∧
    f.fill.filled.length = f.target ∧ f.fill.target = f.target ∧ f.fill.header = f.header ∧
    f.fill.inBody = f.inBody := by
  have hmin : min (f.target - f.filled.length) f.remainder.length = f.target - f.filled.length := by omega
  refine ⟨?_, ?_, ?_, rfl, rfl, rfl⟩
  · simp only [FrameReader.fill, hmin]
    rw [List.take_append, List.take_of_length_le hb]
  · simp only [FrameReader.fill, hmin]
    rw [List.drop_append, List.drop_eq_nil_of_le hb, List.nil_append]
  · simp only [FrameReader.fill, hmin, List.length_append, List.length_take]
    omega

theorem FrameReader.processN_spec (d : Framing) (hd : d.headerLen ≠ 0) (n : Nat) (f : FrameReader) (hi : f.Inv d)
    (hn : if f.inBody then 1 ≤ n else 2 ≤ n) :
    (f.processN d n).2.Inv d ∧
    match (f.processN d n).1 with
    | none => (f.processN d n).2.needed ≠ 0 ∧ f.future d [] = [] ∧
        ∀ s, (f.processN d n).2.future d s = f.future d s
    | some e => ∀ s, f.future d s = e :: (f.processN d n).2.future d s := by
  induction n generalizing f with
  | zero => split at hn <;> omega
  | succ n ih =>
    rw [FrameReader.processN]
    by_cases hz : f.needed = 0
    · have hle := (needed_eq_zero hi.1).mp hz
      obtain ⟨h1, h2, h3, h4, h5, h6⟩ := fill_eq hi.1 hle
      rw [if_pos hz]
      dsimp only
      rw [if_neg (by omega)]
      have hlen : f.target ≤ (f.filled ++ f.remainder).length := by simp; omega
      cases hb : f.inBody with
      | true =>
        simp only [if_true]
        refine ⟨⟨by simp, by simp, by simp⟩, fun s => ?_⟩
        simp only [FrameReader.future, hb, if_true, Bool.false_eq_true, if_false, List.nil_append]
        rw [if_neg (by simp; omega), h1, h2, h5, List.take_append_of_le_length hlen,
          List.drop_append_of_le_length hlen]
      | false =>
        have ht := hi.2 hb
        simp only [Bool.false_eq_true, if_false]
        cases hf : d.frameLen f.fill.filled with
        | error e =>
          refine ⟨⟨by simp, by simp [h4, ht], by simp [h6, hb]⟩, fun s => ?_⟩
          simp only [FrameReader.future, hb, Bool.false_eq_true, if_false, List.nil_append, h6]
          rw [ht] at hlen
          rw [frameEvents, dif_neg (by simp; omega), List.take_append_of_le_length hlen,
            List.drop_append_of_le_length hlen, ← ht, ← h1, hf, h2]
        | ok len =>
          simp only
          have hinv : FrameReader.Inv d
              { f.fill with inBody := true, header := f.fill.filled, target := len, filled := [] } :=
            ⟨by simp, by simp, fun _ => ⟨by rw [← ht]; exact h3, hf⟩⟩
          have hn' : 2 ≤ n + 1 := by rw [hb] at hn; simpa using hn
          have ih' := ih _ hinv (by simp; omega)
          have hfut : ∀ s, FrameReader.future d
              { f.fill with inBody := true, header := f.fill.filled, target := len, filled := [] } s =
                f.future d s := by
            intro s
            rw [ht] at hlen
            simp only [FrameReader.future, hb, Bool.false_eq_true, if_false, if_true, List.nil_append]
            rw [frameEvents.eq_def d (f.filled ++ f.remainder ++ s), dif_neg (by simp; omega),
              List.take_append_of_le_length hlen, List.drop_append_of_le_length hlen, ← ht, ← h1, hf, h2]
          refine ⟨ih'.1, ?_⟩
          have h7 := ih'.2
          revert h7
          cases (FrameReader.processN d n
            { f.fill with inBody := true, header := f.fill.filled, target := len, filled := [] }).1 with
          | none =>
            simp only
            intro ⟨ha, hb, hc⟩
            exact ⟨ha, by rw [← hfut]; exact hb, fun s => by rw [hc, hfut]⟩
          | some ev =>
            simp only
            intro h s
            rw [← hfut]; exact h s
    · rw [if_neg hz]
      refine ⟨hi, hz, ?_, fun s => rfl⟩
      have hlt : ¬ f.target ≤ f.filled.length + f.remainder.length :=
        fun h => hz ((needed_eq_zero hi.1).mpr h)
      simp only [FrameReader.future]
      cases hb : f.inBody with
      | true => simp only [if_true]; rw [if_pos (by simp; omega)]
      | false =>
        have := hi.2 hb
        simp only [Bool.false_eq_true, if_false]
        rw [frameEvents, dif_pos (Or.inr (by simp; omega))]

/-- One call of `process`: would-block means that nothing complete is there; otherwise the result is
the head of the frames to come. -/
theorem FrameReader.process_spec (d : Framing) (hd : d.headerLen ≠ 0) (f : FrameReader) (hi : f.Inv d) :
    (f.process d).2.Inv d ∧
    match (f.process d).1 with
    | none => (f.process d).2.needed ≠ 0 ∧ f.future d [] = [] ∧
        ∀ s, (f.process d).2.future d s = f.future d s
    | some e => ∀ s, f.future d s = e :: (f.process d).2.future d s :=
  FrameReader.processN_spec d hd 2 f hi (by split <;> omega)

end Verif.Record
