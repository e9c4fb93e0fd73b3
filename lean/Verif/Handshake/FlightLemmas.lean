import Verif.Handshake.Flight
import Verif.Record.Lemmas

/- What one pass over the queue does. -/

namespace Verif.Handshake

open Verif Verif.Record

theorem fragmentAcked_append_unacked (sent new : List Sent) (h : ∀ f ∈ new, f.acked = false) (seq off len : Nat) :
    fragmentAcked (sent ++ new) seq off len = fragmentAcked sent seq off len := by
  simp only [fragmentAcked, List.any_append]
  have : new.any (fun f => f.acked && f.seq == seq && decide (f.offset ≤ off) && decide (f.offset + f.len ≥ off + len)) = false := by
    rw [List.any_eq_false]
    intro f hf
    simp [h f hf]
  rw [this, Bool.or_false]

theorem emit_ok {o o' : Out} {key : Nat} {ct : UInt8} {f : Bytes} {c : Option (Nat × Nat × Bytes)}
    (h : o.emit key ct f c = .ok o') :
    ∃ rec, o' = { o with
      keys := { o.keys with heap := upd o.keys.heap key { o.keys.heap key with seq := (o.keys.heap key).seq + 1 } }
      wire := o.wire ++ [⟨key, combineSeq (o.keys.heap key) true, c, rec⟩] } ∧ (o.keys.heap key).seq < 2 ^ 48 - 1 := by
  unfold Out.emit at h
  rw [Res.bind_eq_ok] at h
  obtain ⟨⟨rec, k⟩, hw, h⟩ := h
  cases h
  obtain ⟨_, _, -, -, hs, rfl, -⟩ := writeRecord_ok hw
  exact ⟨rec, rfl, hs⟩

/-- The part of a message sent in the fragment that starts at `s`. -/
def piece (room : Nat) (m : OutMsg) (s : Nat) : Bytes := (m.body.drop s).take (room - 12)

theorem piece_eq (room : Nat) (m : OutMsg) (s : Nat) :
    (m.body.drop s).take (min (m.body.length - s) (room - 12)) = piece room m s := by
  unfold piece
  rw [show m.body.length - s = (m.body.drop s).length by simp, Nat.min_comm, ← List.take_take, List.take_length]

theorem piece_length (room : Nat) (m : OutMsg) (s : Nat) :
    (piece room m s).length = min (m.body.length - s) (room - 12) := by
  simp [piece, Nat.min_comm]

/-- What is left of the state unchanged when writing, and what is added to the records. -/
structure Wrote (o o' : Out) (new : List Sent) (recs : List WireRec) : Prop where
  room : o'.room = o.room
  queued : o'.queued = o.queued
  acks : o'.acks = o.acks
  sent : o'.sent = o.sent ++ new
  wire : o'.wire = o.wire ++ recs
  cur : o'.keys.cur = o.keys.cur
  unacked : ∀ f ∈ new, f.acked = false

theorem Wrote.refl (o : Out) : Wrote o o [] [] := ⟨rfl, rfl, rfl, by simp, by simp, rfl, by simp⟩

theorem Wrote.trans {a b c : Out} {n1 n2 : List Sent} {r1 r2 : List WireRec} (h1 : Wrote a b n1 r1) (h2 : Wrote b c n2 r2) :
    Wrote a c (n1 ++ n2) (r1 ++ r2) :=
  ⟨h2.room.trans h1.room, h2.queued.trans h1.queued, h2.acks.trans h1.acks, by rw [h2.sent, h1.sent, List.append_assoc],
   by rw [h2.wire, h1.wire, List.append_assoc], h2.cur.trans h1.cur, fun f hf => by
    rcases List.mem_append.mp hf with h | h
    · exact h1.unacked f h
    · exact h2.unacked f h⟩

/-- The note taken of a fragment, for a message written with the current cipher. -/
def Noted (f : Sent) (w : WireRec) : Prop :=
  f.record = w.number ∧ ∃ b, w.content = some (f.seq, f.offset, b) ∧ f.len = b.length

/-- The fragment of `m` that starts at `s` was skipped because of an acknowledgement, or is among the records. -/
def FragDone (o : Out) (m : OutMsg) (new : List Sent) (recs : List WireRec) (s : Nat) : Prop :=
  fragmentAcked o.sent m.seq s (piece o.room m s).length = true ∨
    (∃ w ∈ recs, w.key = m.cipher ∧ w.content = some (m.seq, s, piece o.room m s)) ∧
    (∃ f ∈ new, f.seq = m.seq ∧ f.offset = s ∧ f.len = (piece o.room m s).length)

theorem FragDone.mono {o : Out} {m : OutMsg} {new new' : List Sent} {recs recs' : List WireRec} {s : Nat}
    (h : FragDone o m new recs s) (h1 : ∀ f ∈ new, f ∈ new') (h2 : ∀ w ∈ recs, w ∈ recs') : FragDone o m new' recs' s := by
  rcases h with h | ⟨⟨w, hw, h⟩, f, hf, h'⟩
  · exact .inl h
  · exact .inr ⟨⟨w, h2 w hw, h⟩, f, h1 f hf, h'⟩

theorem FragDone.of_later {a b : Out} {m : OutMsg} {new0 new : List Sent} {r0 recs : List WireRec} {s : Nat}
    (hw : Wrote a b new0 r0) (h : FragDone b m new recs s) : FragDone a m new recs s := by
  unfold FragDone at *
  rw [hw.room, hw.sent, fragmentAcked_append_unacked _ _ hw.unacked] at h
  exact h

theorem writeFragment_ok {o o' : Out} {m : OutMsg} {s s' : Nat} {wrote : Bool}
    (h : o.writeFragment m s = .ok (wrote, s', o')) :
    12 < o.room ∧ s' = s + (piece o.room m s).length ∧
    ∃ new recs, Wrote o o' new recs ∧ FragDone o m new recs s ∧ recs.length = (if wrote then 1 else 0) ∧
      (∀ w ∈ recs, w.content = some (m.seq, s, piece o.room m s)) ∧
      (m.cipher = o.keys.cur → ∀ f ∈ new, ∃ w ∈ recs, Noted f w) := by
  unfold Out.writeFragment at h
  split at h
  · exact absurd h (by simp)
  · rename_i hroom
    refine ⟨by omega, ?_⟩
    dsimp only at h
    rw [piece_eq, ← piece_length] at h
    split at h
    · rename_i hack
      simp only [Res.ok.injEq, Prod.mk.injEq] at h
      obtain ⟨rfl, rfl, rfl⟩ := h
      refine ⟨rfl, [], [], Wrote.refl o, .inl hack, rfl, by simp, by simp⟩
    · rw [Res.bind_eq_ok] at h
      obtain ⟨o1, h1, h⟩ := h
      simp only [Res.ok.injEq, Prod.mk.injEq] at h
      obtain ⟨rfl, rfl, rfl⟩ := h
      obtain ⟨rec, rfl, -⟩ := emit_ok h1
      refine ⟨rfl, _, _, ⟨rfl, rfl, rfl, rfl, rfl, rfl, by simp⟩, ?_, rfl, by simp, ?_⟩
      · exact .inr ⟨⟨_, List.mem_singleton.mpr rfl, rfl, rfl⟩, _, List.mem_singleton.mpr rfl, rfl, rfl, rfl⟩
      · intro hc f hf
        rw [List.mem_singleton] at hf
        subst hf
        exact ⟨_, List.mem_singleton.mpr rfl, by simp [hc], _, rfl, rfl⟩

/-- The starts of the fragments of a message. -/
def IsStart (room : Nat) (m : OutMsg) (s : Nat) : Prop := s = 0 ∨ (s < m.body.length ∧ s % (room - 12) = 0)

theorem writeLoop_ok (m : OutMsg) : ∀ (fuel : Nat) (o : Out) (s written n : Nat) (o' : Out), s % (o.room - 12) = 0 →
    o.writeLoop m fuel s written = .ok (n, o') →
    12 < o.room ∧ ∃ new recs, Wrote o o' new recs ∧ n = written + recs.length ∧
      (∀ s', s ≤ s' → IsStart o.room m s' → (s' = s ∨ s' < m.body.length) → FragDone o m new recs s') ∧
      (∀ w ∈ recs, ∃ s', w.content = some (m.seq, s', piece o.room m s')) ∧
      (m.cipher = o.keys.cur → ∀ f ∈ new, ∃ w ∈ recs, Noted f w) := by
  intro fuel
  induction fuel with
  | zero => intro o s written n o' _ h; exact absurd h (by simp [Out.writeLoop])
  | succ fuel ih =>
    intro o s written n o' hs h
    simp only [Out.writeLoop] at h
    rw [Res.bind_eq_ok] at h
    obtain ⟨⟨wrote, s1, o1⟩, h1, h⟩ := h
    obtain ⟨hroom, hs1, new, recs, hw, hd, hlen, hcont, hnoted⟩ := writeFragment_ok h1
    refine ⟨hroom, ?_⟩
    have hpl := piece_length o.room m s
    dsimp only at h
    have hcount : ∀ w : Nat, (if wrote = true then w + 1 else w) = w + recs.length := by
      intro w; rw [hlen]; split <;> rfl
    rw [hcount] at h
    split at h
    · rename_i hend
      simp only [Res.ok.injEq, Prod.mk.injEq] at h
      obtain ⟨rfl, rfl⟩ := h
      refine ⟨new, recs, hw, rfl, ?_, fun w hw => ⟨s, hcont w hw⟩, hnoted⟩
      intro s' hle hst hor
      rcases hor with rfl | hlt
      · exact hd
      · -- the next multiple is beyond the end
        by_cases he : s' = s
        · rw [he]; exact hd
        · exfalso
          rcases hst with rfl | ⟨-, hmod⟩
          · omega
          · have h1 : s + (o.room - 12) ≤ s' := by
              have hc : 0 < o.room - 12 := by omega
              have a1 := Nat.div_add_mod s (o.room - 12)
              have a2 := Nat.div_add_mod s' (o.room - 12)
              have : s / (o.room - 12) < s' / (o.room - 12) := by
                apply Classical.byContradiction
                intro hn
                have := Nat.mul_le_mul_left (o.room - 12) (Nat.le_of_not_lt hn)
                omega
              have := Nat.mul_le_mul_left (o.room - 12) this
              rw [Nat.succ_eq_add_one, Nat.mul_add] at this
              omega
            omega
    · rename_i hend
      have hpiece : (piece o.room m s).length = o.room - 12 := by omega
      have hmod1 : s1 % (o1.room - 12) = 0 := by
        rw [hw.room, hs1, hpiece, Nat.add_mod, hs]; simp
      obtain ⟨-, new2, recs2, hw2, hn2, hd2, hc2, hnt2⟩ := ih o1 s1 (written + recs.length) n o' hmod1 h
      refine ⟨new ++ new2, recs ++ recs2, hw.trans hw2, by rw [List.length_append]; omega, ?_, ?_, ?_⟩
      · intro s' hle hst hor
        by_cases he : s' = s
        · rw [he]; exact hd.mono (fun f hf => List.mem_append_left _ hf) (fun w hw => List.mem_append_left _ hw)
        · have hlt : s' < m.body.length := by
            rcases hor with h | h
            · exact absurd h he
            · exact h
          have h1 : s1 ≤ s' := by
            rcases hst with rfl | ⟨-, hmod⟩
            · omega
            · have hc : 0 < o.room - 12 := by omega
              have a1 := Nat.div_add_mod s (o.room - 12)
              have a2 := Nat.div_add_mod s' (o.room - 12)
              have : s / (o.room - 12) < s' / (o.room - 12) := by
                apply Classical.byContradiction
                intro hn
                have := Nat.mul_le_mul_left (o.room - 12) (Nat.le_of_not_lt hn)
                omega
              have := Nat.mul_le_mul_left (o.room - 12) this
              rw [Nat.succ_eq_add_one, Nat.mul_add] at this
              omega
          exact ((hd2 s' h1 (by rw [hw.room]; exact hst) (.inr hlt)).of_later hw).mono
            (fun f hf => List.mem_append_right _ hf) (fun w hw => List.mem_append_right _ hw)
      · intro w hwm
        rcases List.mem_append.mp hwm with hwm | hwm
        · exact ⟨s, hcont w hwm⟩
        · obtain ⟨s', hs'⟩ := hc2 w hwm
          exact ⟨s', by rw [hs', hw.room]⟩
      · intro hc f hf
        rcases List.mem_append.mp hf with hf | hf
        · obtain ⟨w, hwm, hn⟩ := hnoted hc f hf
          exact ⟨w, List.mem_append_left _ hwm, hn⟩
        · obtain ⟨w, hwm, hn⟩ := hnt2 (by rw [hw.cur]; exact hc) f hf
          exact ⟨w, List.mem_append_right _ hwm, hn⟩

theorem writeMessages_ok : ∀ (ms : List OutMsg) (o : Out) (written n : Nat) (o' : Out),
    Out.writeMessages ms written o = .ok (n, o') →
    ∃ new recs, Wrote o o' new recs ∧ n = written + recs.length ∧
      (∀ m ∈ ms, 12 < o.room ∧ ∀ s, IsStart o.room m s → FragDone o m new recs s) ∧
      (∀ w ∈ recs, ∃ m ∈ ms, ∃ s, w.content = some (m.seq, s, piece o.room m s)) ∧
      ((∀ m ∈ ms, m.cipher = o.keys.cur) → ∀ f ∈ new, ∃ w ∈ recs, Noted f w) := by
  intro ms
  induction ms with
  | nil =>
    intro o written n o' h
    simp only [Out.writeMessages, Res.ok.injEq, Prod.mk.injEq] at h
    obtain ⟨rfl, rfl⟩ := h
    exact ⟨[], [], Wrote.refl o, rfl, by simp, by simp, by simp⟩
  | cons m ms ih =>
    intro o written n o' h
    simp only [Out.writeMessages] at h
    rw [Res.bind_eq_ok] at h
    obtain ⟨⟨n1, o1⟩, h1, h⟩ := h
    unfold Out.writeMessage at h1
    split at h1
    · exact absurd h1 (by simp)
    · obtain ⟨hroom, new, recs, hw, hn, hd, hc, hnt⟩ := writeLoop_ok m _ o 0 0 n1 o1 (by simp) h1
      obtain ⟨new2, recs2, hw2, hn2, hd2, hc2, hnt2⟩ := ih _ _ _ _ h
      refine ⟨new ++ new2, recs ++ recs2, hw.trans hw2, by rw [List.length_append]; omega, ?_, ?_, ?_⟩
      · intro x hx
        refine ⟨hroom, fun s hs => ?_⟩
        rcases List.mem_cons.mp hx with rfl | hx
        · refine (hd s (Nat.zero_le _) hs ?_).mono (fun f hf => List.mem_append_left _ hf) (fun w hw => List.mem_append_left _ hw)
          rcases hs with h | ⟨h, -⟩
          · exact .inl h
          · exact .inr h
        · have := (hd2 x hx).2 s (by rw [hw.room]; exact hs)
          exact (this.of_later hw).mono (fun f hf => List.mem_append_right _ hf) (fun w hw => List.mem_append_right _ hw)
      · intro w hwm
        rcases List.mem_append.mp hwm with hwm | hwm
        · obtain ⟨s, hs⟩ := hc w hwm
          exact ⟨m, by simp, s, hs⟩
        · obtain ⟨x, hx, s, hs⟩ := hc2 w hwm
          exact ⟨x, by simp [hx], s, by rw [hs, hw.room]⟩
      · intro hcip f hf
        rcases List.mem_append.mp hf with hf | hf
        · obtain ⟨w, hwm, hn⟩ := hnt (hcip m (by simp)) f hf
          exact ⟨w, List.mem_append_left _ hwm, hn⟩
        · obtain ⟨w, hwm, hn⟩ := hnt2 (fun x hx => by rw [hw.cur]; exact hcip x (by simp [hx])) f hf
          exact ⟨w, List.mem_append_right _ hwm, hn⟩

theorem bind_ne_diverge' {α β : Type} {x : Res α} {f : α → Res β} (hx : x ≠ .diverge) (hf : ∀ a, f a ≠ .diverge) :
    x.bind f ≠ .diverge := by
  cases x with
  | ok a => exact hf a
  | err e => simp [Res.bind]
  | panic => simp [Res.bind]
  | diverge => exact absurd rfl hx

theorem writeRecord_ne_diverge (k : Keys) (i : Nat) (ct : UInt8) (f : Bytes) (pad : Nat) :
    writeRecord k i ct f pad ≠ .diverge := by
  have h1 : ∀ a b c, recordHeader k a b c ≠ .diverge := by
    intro a b c
    unfold recordHeader dtlsConvertVersion
    split
    · refine bind_ne_diverge' ?_ (fun _ => by simp)
      repeat' split
      all_goals simp
    · simp
  have h2 : bumpSeq k.heap i ≠ .diverge := by unfold bumpSeq; split <;> simp
  have h3 : ∀ c s, computeNonce c s ≠ .diverge := by intro c s; unfold computeNonce; split <;> simp
  unfold writeRecord
  dsimp only
  split
  · refine bind_ne_diverge' (h1 _ _ _) (fun _ => ?_)
    split
    · simp
    · refine bind_ne_diverge' (h3 _ _) (fun _ => ?_)
      split
      · simp
      · exact bind_ne_diverge' h2 (fun _ => by simp)
  · refine bind_ne_diverge' (h1 _ _ _) (fun _ => ?_)
    split
    · simp
    · split
      · simp
      · exact bind_ne_diverge' h2 (fun _ => by simp)

theorem writeFragment_ne_diverge (o : Out) (m : OutMsg) (s : Nat) : o.writeFragment m s ≠ .diverge := by
  unfold Out.writeFragment
  split
  · simp
  · dsimp only
    split
    · simp
    · exact bind_ne_diverge' (bind_ne_diverge' (writeRecord_ne_diverge _ _ _ _ _) (fun _ => by simp)) (fun _ => by simp)

/-- The loop of WriteMessage ends. -/
theorem writeLoop_ne_diverge (m : OutMsg) : ∀ (fuel : Nat) (o : Out) (s written : Nat), m.body.length ≤ fuel + s →
    o.writeLoop m (fuel + 1) s written ≠ .diverge := by
  intro fuel
  induction fuel with
  | zero =>
    intro o s written hf h
    simp only [Out.writeLoop] at h
    cases h1 : o.writeFragment m s with
    | ok x =>
      obtain ⟨w, s1, o1⟩ := x
      obtain ⟨-, hs1, -⟩ := writeFragment_ok h1
      simp only [h1, Res.bind, if_pos (show s1 ≥ m.body.length by omega)] at h
      exact absurd h (by simp)
    | err e => simp [h1, Res.bind] at h
    | panic => simp [h1, Res.bind] at h
    | diverge => exact writeFragment_ne_diverge o m s h1
  | succ fuel ih =>
    intro o s written hf h
    rw [Out.writeLoop] at h
    cases h1 : o.writeFragment m s with
    | ok x =>
      obtain ⟨w, s1, o1⟩ := x
      obtain ⟨hroom, hs1, -⟩ := writeFragment_ok h1
      have hpl := piece_length o.room m s
      simp only [h1, Res.bind] at h
      split at h
      · exact absurd h (by simp)
      · exact ih o1 s1 _ (by omega) h
    | err e => simp [h1, Res.bind] at h
    | panic => simp [h1, Res.bind] at h
    | diverge => exact writeFragment_ne_diverge o m s h1

end Verif.Handshake
