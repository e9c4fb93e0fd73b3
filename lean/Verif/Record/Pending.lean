import Verif.Record.RoundTrip

/-
What a reader holds, byte by byte.
-/

namespace Verif.Record

open Verif

/-- The bytes a frame reader has been given that are not part of a frame it has returned. -/
def FrameReader.pending (f : FrameReader) : Bytes := (if f.inBody then f.header else []) ++ f.filled ++ f.remainder

theorem FrameReader.pending_addChunk (f : FrameReader) (c : Bytes) : (f.addChunk c).pending = f.pending ++ c := by
  simp only [FrameReader.pending, FrameReader.addChunk, List.append_assoc]
  rfl

theorem FrameReader.fill_append (f : FrameReader) : f.fill.filled ++ f.fill.remainder = f.filled ++ f.remainder := by
  simp [FrameReader.fill]

/-- What is to come is made of the bytes held. -/
theorem FrameReader.future_pending {d : Framing} (hd : d.headerLen ≠ 0) {f : FrameReader} (hi : f.Inv d) (s : Bytes) :
    f.future d s = frameEvents d (f.pending ++ s) := by
  simp only [FrameReader.future, FrameReader.pending]
  cases hb : f.inBody with
  | false => simp
  | true =>
    obtain ⟨h1, h2⟩ := hi.body hb
    simp only [if_true]
    by_cases hl : (f.filled ++ f.remainder ++ s).length < f.target
    · rw [if_pos hl, frameEvents]
      split
      · rfl
      · have e1 : (f.header ++ f.filled ++ f.remainder ++ s).take d.headerLen = f.header := by
          rw [List.append_assoc, List.append_assoc, ← h1]; simp
        have e2 : (f.header ++ f.filled ++ f.remainder ++ s).drop d.headerLen = f.filled ++ f.remainder ++ s := by
          rw [List.append_assoc, List.append_assoc, ← h1]; simp
        rw [e1, e2, h2]
        simp only
        rw [if_pos hl]
    · rw [if_neg hl]
      have e3 : f.header ++ f.filled ++ f.remainder ++ s = f.header ++ (f.filled ++ f.remainder ++ s).take f.target ++
          (f.filled ++ f.remainder ++ s).drop f.target := by
        rw [List.append_assoc f.header (List.take _ _), List.take_append_drop]
        simp
      rw [e3, frameEvents_cons hd h1 (by rw [h2]; simp at hl ⊢; omega)]

/-- One call of `process`. -/
def ProcessBytes (d : Framing) (f : FrameReader) (r : Option FrameEvent × FrameReader) : Prop :=
  match r.1 with
  | none => r.2.pending = f.pending
  | some (.ok (h, b)) => f.pending = h ++ b ++ r.2.pending ∧ h.length = d.headerLen ∧ d.frameLen h = .ok b.length
  | some (.error _) => False

theorem FrameReader.processN_bytes (d : Framing) (hok : ∀ h, ∃ n, d.frameLen h = .ok n) (n : Nat) (f : FrameReader) (hi : f.Inv d) :
    ProcessBytes d f (f.processN d n) := by
  induction n generalizing f with
  | zero => exact rfl
  | succ n ih =>
    rw [FrameReader.processN]
    by_cases hz : f.needed = 0
    · have hle := (needed_eq_zero hi.1).mp hz
      obtain ⟨h1, h2, h3, h4, h5, h6⟩ := fill_eq hi.1 hle
      rw [if_pos hz]
      dsimp only
      rw [if_neg (by omega)]
      cases hb : f.inBody with
      | true =>
        obtain ⟨g1, g2⟩ := hi.body hb
        simp only [if_true, ProcessBytes, FrameReader.pending, hb]
        refine ⟨?_, by rw [h5]; exact g1, by rw [h5, g2, h3]⟩
        rw [h5, List.append_assoc, List.append_assoc, ← f.fill_append]
        simp
      | false =>
        have ht := hi.2 hb
        simp only [Bool.false_eq_true, if_false]
        obtain ⟨len, hlen⟩ := hok f.fill.filled
        rw [hlen]
        simp only
        have hinv : FrameReader.Inv d
            { f.fill with inBody := true, header := f.fill.filled, target := len, filled := [] } :=
          ⟨by simp, by simp, fun _ => ⟨by rw [← ht]; exact h3, hlen⟩⟩
        have := ih _ hinv
        have hp : FrameReader.pending { f.fill with inBody := true, header := f.fill.filled, target := len, filled := [] } =
            f.pending := by
          simp only [FrameReader.pending, if_true, hb, Bool.false_eq_true, if_false, List.append_nil, List.nil_append]
          exact f.fill_append
        unfold ProcessBytes at this ⊢
        rw [hp] at this
        exact this
    · rw [if_neg hz]
      exact rfl

/-- The loop of nextRecord. -/
def FrameBytes (d : Framing) (f : FrameReader) (conn : List (Except Err Bytes))
    (r : FrameRes × FrameReader × List (Except Err Bytes)) : Prop :=
  match r.1 with
  | .frame h b => f.pending ++ connData conn = h ++ b ++ (r.2.1.pending ++ connData r.2.2) ∧ h.length = d.headerLen ∧
      d.frameLen h = .ok b.length
  | .block => r.2.1.pending = f.pending ++ connData conn ∧ r.2.2 = []
  | _ => False

/-- A transport that returns bytes, or nothing yet. -/
def NoErrors (conn : List (Except Err Bytes)) : Prop := ∀ c ∈ conn, ∃ b, c = .ok b ∧ b ≠ []

theorem readFrame_bytes (d : Framing) (hd : d.headerLen ≠ 0) (hok : ∀ h, ∃ n, d.frameLen h = .ok n) (conn : List (Except Err Bytes))
    (f : FrameReader) (hi : f.Inv d) (hw : NoErrors conn) : FrameBytes d f conn (readFrame d conn f) := by
  induction conn generalizing f with
  | nil =>
    have hp := FrameReader.processN_bytes d hok 2 f hi
    change ProcessBytes d f (f.process d) at hp
    rw [readFrame]
    rcases hx : f.process d with ⟨e, f'⟩
    rw [hx] at hp
    rcases e with _ | e | ⟨h, b⟩
    · exact ⟨by simpa [connData, ProcessBytes] using hp, rfl⟩
    · exact hp.elim
    · simpa [FrameBytes, connData, ProcessBytes] using hp
  | cons x conn ih =>
    have hp := FrameReader.processN_bytes d hok 2 f hi
    have hs := FrameReader.process_spec d hd f hi
    change ProcessBytes d f (f.process d) at hp
    rw [readFrame]
    rcases hx : f.process d with ⟨e, f'⟩
    rw [hx] at hp hs
    rcases e with _ | e | ⟨h, b⟩
    · obtain ⟨c, rfl, hne⟩ := hw x (by simp)
      simp only
      rw [if_neg hne]
      have := ih (f'.addChunk c) (FrameReader.inv_addChunk hs.1 c) (fun a ha => hw a (by simp [ha]))
      have hp' : f'.pending = f.pending := hp
      unfold FrameBytes at this ⊢
      rw [FrameReader.pending_addChunk, hp', List.append_assoc] at this
      simp only [connData]
      exact this
    · exact hp.elim
    · simp only [FrameBytes]
      obtain ⟨h1, h2, h3⟩ : f.pending = h ++ b ++ f'.pending ∧ h.length = d.headerLen ∧ d.frameLen h = .ok b.length := hp
      exact ⟨by rw [h1]; simp, h2, h3⟩

/-- The bytes a reader has been given, or that have arrived, and that it has not used. -/
def Reader.held (r : Reader) : Bytes := r.frame.pending ++ connData r.conn

/-- A reader between records. -/
structure Reader.Ready (r : Reader) : Prop where
  inv : r.Inv
  cached : r.cached = none
  tls : r.keys.datagram = false
  whole : NoErrors r.conn

theorem recordFraming_ok (d : Bool) (h : Bytes) : ∃ n, (recordFraming d).frameLen h = .ok n := ⟨_, rfl⟩

theorem Reader.Ready.frames {r : Reader} (h : r.Ready) : r.frames = frameEvents (recordFraming false) r.held := by
  have := FrameReader.future_pending (recordFraming_pos false) (f := r.frame) (by rw [← h.tls]; exact h.inv) (connData r.conn)
  rw [Reader.frames, h.tls]
  exact this

/-- The next record is read if it has arrived, and what follows is kept. -/
theorem nextRecord_bytes {r : Reader} (hr : r.Ready) {hd b more : Bytes} (hl : hd.length = (recordFraming false).headerLen)
    (hf : (recordFraming false).frameLen hd = .ok b.length) {pt : Plaintext} {k : Keys} (ho : openRecord r.keys false hd b = .ok (pt, k))
    {u : Bytes} (hb : r.held ++ u = hd ++ b ++ more) :
    ∃ r' : Reader, r'.Ready ∧
      ((nextRecord r false = (.ok pt, { r' with cached := some pt }) ∧ r'.keys = k ∧ r'.held ++ u = more) ∨
       (nextRecord r false = (.err .wouldBlock, r') ∧ r'.keys = r.keys ∧ r'.held = r.held ∧ r.frames = [])) := by
  have h1 := readFrame_bytes (recordFraming false) (recordFraming_pos _) (recordFraming_ok _) r.conn r.frame
    (by rw [← hr.tls]; exact hr.inv) hr.whole
  have h2 := readFrame_spec (recordFraming false) (recordFraming_pos _) r.conn r.frame (by rw [← hr.tls]; exact hr.inv)
  unfold nextRecord
  rw [hr.cached, hr.tls]
  simp only
  rcases hx : readFrame (recordFraming false) r.conn r.frame with ⟨res, f', c'⟩
  rw [hx] at h1 h2
  have hwc : NoErrors c' := fun a ha => hr.whole a (h2.2.1.subset ha)
  cases res with
  | frame h' b' =>
    obtain ⟨g1, g2, g3⟩ : r.frame.pending ++ connData r.conn = h' ++ b' ++ (f'.pending ++ connData c') ∧
      h'.length = (recordFraming false).headerLen ∧ (recordFraming false).frameLen h' = .ok b'.length := h1
    rw [Reader.held, g1] at hb
    simp only [List.append_assoc] at hb
    obtain ⟨rfl, hb1⟩ := List.append_inj hb (by rw [g2, hl])
    rw [g3, Except.ok.injEq] at hf
    obtain ⟨rfl, hb2⟩ := List.append_inj hb1 hf
    have hk : k.datagram = false := by
      obtain ⟨i, seq, -, -, -, -, hk, -⟩ := openRecord_ok ho
      rw [hk]; exact hr.tls
    refine ⟨⟨k, f', c', none⟩, ⟨by unfold Reader.Inv; simp only [hk]; exact h2.1, rfl, hk, hwc⟩, .inl ⟨?_, rfl, ?_⟩⟩
    · simp only [ho]
    · simp only [Reader.held, List.append_assoc]; exact hb2
  | block =>
    obtain ⟨g1, g2⟩ : f'.pending = r.frame.pending ++ connData r.conn ∧ c' = [] := h1
    refine ⟨⟨r.keys, f', c', none⟩, ⟨by unfold Reader.Inv; rw [hr.tls]; exact h2.1, rfl, hr.tls, hwc⟩, .inr ⟨?_, rfl, ?_, ?_⟩⟩
    · simp only
    · simp only [Reader.held, g1, g2, connData, List.append_nil]
    · rw [Reader.frames, hr.tls]
      rcases h2.2.2.2 with ⟨_, h4⟩ | h4
      · obtain ⟨b', h5, h6⟩ := hr.whole _ h4
        cases h5; exact absurd rfl h6
      · exact h4
  | frameErr e => exact h1.elim
  | connErr e => exact h1.elim

/-- Nothing has arrived. -/
theorem nextRecord_nothing {r : Reader} (hr : r.Ready) (hb : r.held = []) :
    ∃ r' : Reader, r'.Ready ∧ nextRecord r false = (.err .wouldBlock, r') ∧ r'.keys = r.keys ∧ r'.held = [] := by
  have h1 := readFrame_bytes (recordFraming false) (recordFraming_pos _) (recordFraming_ok _) r.conn r.frame
    (by rw [← hr.tls]; exact hr.inv) hr.whole
  have h2 := readFrame_spec (recordFraming false) (recordFraming_pos _) r.conn r.frame (by rw [← hr.tls]; exact hr.inv)
  unfold nextRecord
  rw [hr.cached, hr.tls]
  simp only
  rcases hx : readFrame (recordFraming false) r.conn r.frame with ⟨res, f', c'⟩
  rw [hx] at h1 h2
  have hwc : NoErrors c' := fun a ha => hr.whole a (h2.2.1.subset ha)
  cases res with
  | frame h' b' =>
    obtain ⟨g1, g2, _⟩ : r.frame.pending ++ connData r.conn = h' ++ b' ++ (f'.pending ++ connData c') ∧
      h'.length = (recordFraming false).headerLen ∧ (recordFraming false).frameLen h' = .ok b'.length := h1
    rw [Reader.held, g1] at hb
    have := congrArg List.length hb
    simp [g2, recordFraming] at this
  | block =>
    obtain ⟨g1, g2⟩ : f'.pending = r.frame.pending ++ connData r.conn ∧ c' = [] := h1
    refine ⟨⟨r.keys, f', c', none⟩, ⟨by unfold Reader.Inv; rw [hr.tls]; exact h2.1, rfl, hr.tls, hwc⟩, ?_, rfl, ?_⟩
    · simp only
    · simp only [Reader.held, g1, g2, connData, List.append_nil]; exact hb
  | frameErr e => exact h1.elim
  | connErr e => exact h1.elim

end Verif.Record
