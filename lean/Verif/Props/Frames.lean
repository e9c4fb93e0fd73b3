import Verif.Record.FrameReader

/-
Property C11: frame extraction is independent of chunking.
-/

namespace Verif.Record

open Verif

/-- What the owner of a frame reader may do: hand it a chunk, or ask for the next frame. -/
inductive FrameOp where
  | add (chunk : Bytes)
  | process

/-- Run a sequence of operations; collects the frames (or header errors) returned by `process`. -/
def runFrames (d : Framing) : FrameReader → List FrameOp → List FrameEvent × FrameReader
  | f, [] => ([], f)
  | f, .add c :: ops => runFrames d (f.addChunk c) ops
  | f, .process :: ops =>
    match f.process d with
    | (some e, f') => (e :: (runFrames d f' ops).1, (runFrames d f' ops).2)
    | (none, f') => runFrames d f' ops

/-- The bytes handed over. -/
def opsBytes : List FrameOp → Bytes
  | [] => []
  | .add c :: ops => c ++ opsBytes ops
  | .process :: ops => opsBytes ops

theorem runFrames_future (d : Framing) (hd : d.headerLen ≠ 0) (ops : List FrameOp) (f : FrameReader)
    (hi : f.Inv d) (s : Bytes) :
    (runFrames d f ops).2.Inv d ∧
    f.future d (opsBytes ops ++ s) = (runFrames d f ops).1 ++ (runFrames d f ops).2.future d s := by
  induction ops generalizing f with
  | nil => simp [runFrames, opsBytes, hi]
  | cons op ops ih =>
    cases op with
    | add c =>
      have := ih (f.addChunk c) (FrameReader.inv_addChunk hi c)
      rw [FrameReader.future_addChunk] at this
      simpa [runFrames, opsBytes, List.append_assoc] using this
    | process =>
      have hp := FrameReader.process_spec d hd f hi
      simp only [runFrames, opsBytes]
      rcases hx : f.process d with ⟨e, f'⟩
      rw [hx] at hp
      dsimp only at hp ⊢
      cases e with
      | none =>
        simp only at hp ⊢
        rw [← hp.2.2.2]
        exact ih f' hp.1
      | some e =>
        simp only at hp ⊢
        rw [hp.2]
        have := ih f' hp.1
        exact ⟨this.1, by rw [this.2]; rfl⟩

/-- C11. Whatever the chunks and whenever frames are asked for, the frames delivered are the first frames of
the stream, in order. -/
theorem C11_frames_are_prefix (d : Framing) (hd : d.headerLen ≠ 0) (ops : List FrameOp) :
    (runFrames d (FrameReader.new d) ops).1 <+: frameEvents d (opsBytes ops) := by
  have := (runFrames_future d hd ops _ (FrameReader.inv_new d) []).2
  rw [FrameReader.future_new, List.append_nil] at this
  exact ⟨_, this.symm⟩

/-- C11. Once the reader would block, every complete frame of the stream has been delivered. -/
theorem C11_frames_complete (d : Framing) (hd : d.headerLen ≠ 0) (ops : List FrameOp)
    (hblock : ((runFrames d (FrameReader.new d) ops).2.process d).1 = none) :
    (runFrames d (FrameReader.new d) ops).1 = frameEvents d (opsBytes ops) := by
  have h := runFrames_future d hd ops _ (FrameReader.inv_new d) []
  have hp := FrameReader.process_spec d hd _ h.1
  rw [hblock] at hp
  rw [FrameReader.future_new, List.append_nil, hp.2.2.1, List.append_nil] at h
  exact h.2.symm

/-- C11. Hence two ways of cutting the same stream give the same frames. -/
theorem C11_chunking_independent (d : Framing) (hd : d.headerLen ≠ 0) (ops ops' : List FrameOp)
    (hs : opsBytes ops = opsBytes ops')
    (h : ((runFrames d (FrameReader.new d) ops).2.process d).1 = none)
    (h' : ((runFrames d (FrameReader.new d) ops').2.process d).1 = none) :
    (runFrames d (FrameReader.new d) ops).1 = (runFrames d (FrameReader.new d) ops').1 := by
  rw [C11_frames_complete d hd ops h, C11_frames_complete d hd ops' h', hs]

/-- The bytes of a frame event list whose headers were all accepted. -/
def eventsBytes : List FrameEvent → Bytes
  | [] => []
  | .ok f :: es => frameBytes f ++ eventsBytes es
  | .error _ :: es => eventsBytes es

/-- C11. Nothing is lost, duplicated or reordered: for formats that accept every header (records and handshake
messages do), the frames laid end to end are the stream, up to an incomplete frame at the end. -/
theorem C11_frames_tile_stream (d : Framing) (htotal : ∀ h, ∃ n, d.frameLen h = .ok n) (s : Bytes) :
    ∃ leftover, s = eventsBytes (frameEvents d s) ++ leftover ∧ frameEvents d leftover = [] ∧
      ∀ f, .ok f ∈ frameEvents d s → f.1.length = d.headerLen ∧ d.frameLen f.1 = .ok f.2.length := by
  fun_induction frameEvents d s with
  | case1 s h => exact ⟨s, by simp [eventsBytes], by rw [frameEvents, dif_pos h], by simp⟩
  | case2 s h e he ih => obtain ⟨n, hn⟩ := htotal (s.take d.headerLen); rw [hn] at he; simp at he
  | case3 s h n hn hlt =>
    refine ⟨s, by simp [eventsBytes], ?_, by simp⟩
    rw [frameEvents, dif_neg h, hn]; simp only; rw [if_pos hlt]
  | case4 s h n hn hlt ih =>
    obtain ⟨l, h1, h2, h3⟩ := ih
    refine ⟨l, ?_, h2, ?_⟩
    · simp only [eventsBytes, frameBytes]
      rw [List.append_assoc, ← h1, List.append_assoc, List.take_append_drop, List.take_append_drop]
    · intro f hf
      rcases List.mem_cons.mp hf with hf | hf
      · simp only [Except.ok.injEq] at hf
        subst hf
        simp only [List.length_drop] at hlt
        refine ⟨by simp; omega, ?_⟩
        simp only [hn, Except.ok.injEq, List.length_take, List.length_drop]; omega
      · exact h3 f hf

/-- Two frames (bodies of two and zero bytes), header byte = length, cut in the middle of everything. -/
example :
    let d : Framing := ⟨1, fun h => .ok (h.getD 0 0).toNat⟩
    (runFrames d (FrameReader.new d) [.add [], .process, .add [2, 7], .process, .add [8, 0, 1], .process, .process, .process]).1
      = [.ok ([2], [7, 8]), .ok ([0], [])] := rfl

end Verif.Record
