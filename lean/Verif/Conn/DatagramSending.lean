import Verif.Conn.DatagramReading
import Verif.Props.AckRecords

/-
What an established DTLS connection writes, whatever happens: lemmas for C81.
-/

namespace Verif.Props

open Verif Verif.Crypto Verif.Messages Verif.Negotiation Verif.Handshake Verif.Machine Verif.Spec Verif.Conn Verif.Record

/-- Every record on the wire was sealed with the keys its history names; application data satisfies `P`. Keys 0 and 1 are those of the
clear and of the handshake. -/
def OnWire (W : World) (cp : Params) (b : Bool) (s : Bytes) (P : Bytes → Prop) (wire : List WireRec) : Prop :=
  ∀ w ∈ wire, ∃ g ct f, w.key = g + 2 ∧ Sealed (guardOf W cp b s g) ct f w.bytes ∧ ct ≠ 0 ∧ (ct = 23 → P f)

/-- The sending side after `g` key updates. -/
structure Keyed (W : World) (cp : Params) (b : Bool) (s : Bytes) (g : Nat) (o : Out) : Prop where
  datagram : o.keys.datagram = true
  direction : o.keys.direction = .write
  cur : o.keys.cur = g + 2
  fresh : o.keys.fresh = g + 3
  keys : ∀ j ≤ g, (o.keys.heap (j + 2)).epoch = (guardOf W cp b s j).epoch ∧
    (o.keys.heap (j + 2)).aead = some (guardOf W cp b s j).aead ∧ (o.keys.heap (j + 2)).iv = (guardOf W cp b s j).iv
  queued : ∀ m ∈ o.queued, ∃ j ≤ g, m.cipher = j + 2

section
variable {W : World} {cp : Params} {b : Bool} {s : Bytes} {P : Bytes → Prop}

theorem emit_keyed {g j : Nat} {o o' : Out} (hk : Keyed W cp b s g o) (hw : OnWire W cp b s P o.wire) (hj : j ≤ g) {ct : UInt8} {f : Bytes}
    {c : Option (Nat × Nat × Bytes)} (hct : ct ≠ 0 ∧ (ct = 23 → P f)) (h : o.emit (j + 2) ct f c = .ok o') :
    Keyed W cp b s g o' ∧ OnWire W cp b s P o'.wire ∧ o'.queued = o.queued := by
  unfold Out.emit at h
  rw [Res.bind_eq_ok] at h
  obtain ⟨⟨rec, k⟩, hwr, h⟩ := h
  cases h
  obtain ⟨-, -, -, -, -, he, -⟩ := writeRecord_ok hwr
  obtain ⟨k1, k2, k3⟩ := hk.keys j hj
  refine ⟨⟨?_, ?_, ?_, ?_, ?_, hk.queued⟩, ?_, rfl⟩
  · show k.datagram = true; rw [he]; exact hk.datagram
  · show k.direction = .write; rw [he]; exact hk.direction
  · show k.cur = _; rw [he]; exact hk.cur
  · show k.fresh = _; rw [he]; exact hk.fresh
  · intro i hi
    show (k.heap (i + 2)).epoch = _ ∧ (k.heap (i + 2)).aead = _ ∧ (k.heap (i + 2)).iv = _
    rw [he]
    simp only [upd]
    split
    · rename_i e
      have : i = j := by omega
      subst this
      exact ⟨k1, k2, k3⟩
    · exact hk.keys i hi
  · intro w hm
    rcases List.mem_append.mp hm with hm | hm
    · exact hw w hm
    · rw [List.mem_singleton] at hm
      subst hm
      exact ⟨j, ct, f, rfl, ⟨_, _, _, hk.datagram, hk.direction, k1, k2, k3, hwr⟩, hct⟩

theorem loop_keyed {g j : Nat} (m : OutMsg) (hj : j ≤ g) (hm : m.cipher = j + 2) :
    ∀ (fuel : Nat) (o : Out) (st written n : Nat) (o' : Out), Keyed W cp b s g o → OnWire W cp b s P o.wire →
      o.writeLoop m fuel st written = .ok (n, o') → Keyed W cp b s g o' ∧ OnWire W cp b s P o'.wire ∧ o'.queued = o.queued := by
  intro fuel
  induction fuel with
  | zero => intro o st written n o' _ _ h; exact absurd h (by simp [Out.writeLoop])
  | succ fuel ih =>
    intro o st written n o' hk hw h
    simp only [Out.writeLoop] at h
    rw [Res.bind_eq_ok] at h
    obtain ⟨⟨wrote, s1, o1⟩, h1, h⟩ := h
    have h1' : Keyed W cp b s g o1 ∧ OnWire W cp b s P o1.wire ∧ o1.queued = o.queued := by
      unfold Out.writeFragment at h1
      split at h1
      · exact absurd h1 (by simp)
      · dsimp only at h1
        split at h1
        · cases h1; exact ⟨hk, hw, rfl⟩
        · rw [Res.bind_eq_ok] at h1
          obtain ⟨o1, h2, h1⟩ := h1
          cases h1
          rw [hm] at h2
          have hk' : ∀ sent ct f c, ({ o with sent := sent } : Out).emit (j + 2) ct f c = .ok o1 → ct = 22 →
              Keyed W cp b s g o1 ∧ OnWire W cp b s P o1.wire ∧ o1.queued = o.queued := by
            intro sent ct f c he hc
            subst hc
            exact emit_keyed (P := P) (o := { o with sent := sent })
              ⟨hk.datagram, hk.direction, hk.cur, hk.fresh, hk.keys, hk.queued⟩ hw hj ⟨by decide, fun e => absurd e (by decide)⟩ he
          exact hk' _ _ _ _ h2 rfl
    dsimp only at h
    split at h
    · cases h; exact h1'
    · obtain ⟨a1, a2, a3⟩ := ih _ _ _ _ _ h1'.1 h1'.2.1 h
      exact ⟨a1, a2, a3.trans h1'.2.2⟩

theorem messages_keyed {g : Nat} : ∀ (ms : List OutMsg) (o : Out) (written n : Nat) (o' : Out), (∀ m ∈ ms, ∃ j ≤ g, m.cipher = j + 2) →
    Keyed W cp b s g o → OnWire W cp b s P o.wire → Out.writeMessages ms written o = .ok (n, o') →
      Keyed W cp b s g o' ∧ OnWire W cp b s P o'.wire ∧ o'.queued = o.queued := by
  intro ms
  induction ms with
  | nil => intro o w n o' _ hk hw h; cases h; exact ⟨hk, hw, rfl⟩
  | cons m ms ih =>
    intro o w n o' hms hk hw h
    simp only [Out.writeMessages] at h
    rw [Res.bind_eq_ok] at h
    obtain ⟨⟨n1, o1⟩, h1, h⟩ := h
    unfold Out.writeMessage at h1
    split at h1
    · exact absurd h1 (by simp)
    · obtain ⟨j, hj, hc⟩ := hms m (by simp)
      obtain ⟨a1, a2, a3⟩ := loop_keyed m hj hc _ _ _ _ _ _ hk hw h1
      obtain ⟨b1, b2, b3⟩ := ih _ _ _ _ (fun m hm => hms m (by simp [hm])) a1 a2 h
      exact ⟨b1, b2, b3.trans a3⟩

/-- Operations that do not change keys; application data satisfies `P`. -/
def plainOp (P : Bytes → Prop) : OutOp → Prop
  | .queue _ _ _ => True
  | .send => True
  | .ack _ => True
  | .other ct f => ct ≠ 0 ∧ (ct = 23 → P f)
  | _ => False

theorem op_keyed {g : Nat} {o o' : Out} {op : OutOp} (hk : Keyed W cp b s g o) (hw : OnWire W cp b s P o.wire) (hop : plainOp P op)
    (h : o.op op = .ok o') : Keyed W cp b s g o' ∧ OnWire W cp b s P o'.wire := by
  cases op with
  | queue t q d =>
    cases h
    refine ⟨⟨hk.datagram, hk.direction, hk.cur, hk.fresh, hk.keys, ?_⟩, hw⟩
    intro m hm
    rcases List.mem_append.mp hm with hm | hm
    · exact hk.queued m hm
    · rw [List.mem_singleton] at hm
      subst hm
      exact ⟨g, Nat.le_refl _, hk.cur⟩
  | send =>
    simp only [Out.op, Out.sendQueued] at h
    rw [Res.bind_eq_ok] at h
    obtain ⟨⟨n, o2⟩, h2, h⟩ := h
    cases h
    obtain ⟨a1, a2, -⟩ := messages_keyed (P := P) _ _ _ _ _ hk.queued hk hw h2
    exact ⟨⟨a1.datagram, a1.direction, a1.cur, a1.fresh, a1.keys, a1.queued⟩, a2⟩
  | ack d =>
    obtain ⟨nums, n, o2, -, h2, rfl⟩ := processAck_ok h
    have hk' : Keyed W cp b s g (o.marked nums) := ⟨hk.datagram, hk.direction, hk.cur, hk.fresh, hk.keys, hk.queued⟩
    obtain ⟨a1, a2, -⟩ := messages_keyed (P := P) (o := o.marked nums) _ _ _ _ hk.queued hk' hw h2
    split
    · exact ⟨⟨a1.datagram, a1.direction, a1.cur, a1.fresh, a1.keys, by simp⟩, a2⟩
    · exact ⟨⟨a1.datagram, a1.direction, a1.cur, a1.fresh, a1.keys, a1.queued⟩, a2⟩
  | nextFlight => exact absurd hop id
  | rekey e a iv => exact absurd hop id
  | resetClear v => exact absurd hop id
  | version v => exact absurd hop id
  | other ct f =>
    simp only [Out.op, hk.cur] at h
    obtain ⟨a1, a2, -⟩ := emit_keyed (P := P) hk hw (Nat.le_refl g) hop h
    exact ⟨a1, a2⟩

/-- The wire only grows. -/
theorem op_wire {o o' : Out} {op : OutOp} (h : o.op op = .ok o') : o.wire <+: o'.wire := by
  have hk : Kept (fun _ w => o.wire <+: w) [op] := by
    refine ⟨?_, fun _ _ _ _ _ h _ => h, fun _ _ _ h => h, fun _ _ _ h => h⟩
    intro o1 key ct f c o2 hp he
    obtain ⟨rec, rfl, -⟩ := emit_ok he
    exact hp.trans (List.prefix_append _ _)
  exact Kept.run [op] o o' hk (List.prefix_refl _) (by simp [Out.run, h])

/-! ### The connection -/

/-- The sending side of a connection after `g` key updates, if the transport is open. -/
def Tk (W : World) (cp : Params) (b : Bool) (s : Bytes) (P : Bytes → Prop) (g : Nat) (c : DLive) : Prop :=
  OnWire W cp b s P c.out.wire ∧ (c.closed = false → Keyed W cp b s g c.out)

theorem sends_tk {g : Nat} {c : DLive} (h : Tk W cp b s P g c) {op : OutOp} (hop : plainOp P op) :
    Tk W cp b s P g (c.sends (c.out.op op)).2 ∧ (c.sends (c.out.op op)).2.closed = c.closed := by
  cases ho : c.out.op op with
  | ok o =>
    simp only [DLive.sends]
    split
    · exact ⟨h, rfl⟩
    · rename_i hc
      refine ⟨?_, rfl⟩
      by_cases hcl : c.closed = true
      · have hle : ¬ o.wire.length > c.out.wire.length := fun hh => hc ⟨hcl, hh⟩
        have he : c.out.wire = o.wire := (op_wire ho).eq_of_length_le (by omega)
        refine ⟨?_, fun hf => ?_⟩
        · show OnWire W cp b s P o.wire
          rw [← he]; exact h.1
        · have hf' : c.closed = false := hf
          rw [hcl] at hf'; cases hf'
      · have hf : c.closed = false := by simpa using hcl
        obtain ⟨a1, a2⟩ := op_keyed (h.2 hf) h.1 hop ho
        exact ⟨a2, fun _ => a1⟩
  | err e => exact ⟨h, rfl⟩
  | panic => exact ⟨h, rfl⟩
  | diverge => exact ⟨h, rfl⟩

theorem Tk.shut {g g' : Nat} {c : DLive} (h : Tk W cp b s P g c) (hc : c.closed = true) : Tk W cp b s P g' c :=
  ⟨h.1, fun hf => by rw [hc] at hf; cases hf⟩

theorem sendAlert_tk {g : Nat} {c : DLive} (h : Tk W cp b s P g c) (a : Nat) :
    Tk W cp b s P g (c.sendAlert a).2 ∧ ((c.sendAlert a).1.Safe → a ≠ 0 → a ≠ 100 → (c.sendAlert a).2.closed = true) := by
  obtain ⟨h1, h2⟩ := sends_tk h (op := .other 21 [UInt8.ofNat a, if a = 100 ∨ a = Alert.closeNotify then 1 else 2]) ⟨by decide, fun e => absurd e (by decide)⟩
  unfold DLive.sendAlert
  dsimp only
  change Tk W cp b s P g (c.writeRecord 21 _).2 at h1
  split <;> rename_i he <;> rw [he] at h1
  · exact ⟨h1, by simp⟩
  · exact ⟨h1, by simp⟩
  · dsimp only at h1 ⊢
    by_cases hl : (if a = 100 ∨ a = Alert.closeNotify then (1 : UInt8) else 2) = 1
    · rw [if_pos hl]
      refine ⟨h1, fun _ h0 h100 => ?_⟩
      rw [if_neg (by simp [Alert.closeNotify, h0, h100])] at hl
      simp at hl
    · rw [if_neg hl]
      exact ⟨⟨h1.1, fun hf => by cases hf⟩, fun _ _ _ => rfl⟩

theorem abort_tk {g : Nat} {c : DLive} (h : Tk W cp b s P g c) (a : Nat) (e : Err) :
    Tk W cp b s P g (c.abort a e).2 ∧ ((c.abort a e).1.Safe → a ≠ 0 → a ≠ 100 → (c.abort a e).2.closed = true) := by
  obtain ⟨h1, h2⟩ := sendAlert_tk h a
  unfold DLive.abort
  split
  · rename_i he; rw [he] at h1 h2; exact ⟨h1, fun _ => h2 trivial⟩
  · exact ⟨h1, h2⟩

theorem orAbort_tk {g : Nat} {r : Res Unit × DLive} (h : Tk W cp b s P g r.2) (e : Err) : Tk W cp b s P g (DLive.orAbort e r).2 := by
  unfold DLive.orAbort
  split
  · exact (abort_tk h _ _).1
  · exact h

/-- Actions that change no keys. -/
def plainAction : Action → Bool
  | .queue _ => true
  | .sendQueued => true
  | .rekeyIn _ _ => true
  | .storePsk _ => true
  | _ => false

theorem action_tk {g : Nat} {c : DLive} (h : Tk W cp b s P g c) (a : Action) (ha : plainAction a = true) :
    Tk W cp b s P g (c.takeAction W a).2 := by
  cases a with
  | queue m => rw [DLive.takeAction, dInternal_snd]; exact (sends_tk h (by trivial)).1
  | sendQueued => rw [DLive.takeAction, dInternal_snd]; exact (sends_tk h (by trivial)).1
  | rekeyIn e k =>
    rw [DLive.takeAction]
    split
    · exact h
    · exact h
  | rekeyOut e k => cases ha
  | resetOut v => cases ha
  | storePsk p => exact h

theorem actions_tk {g : Nat} (as : List Action) {c : DLive} (h : Tk W cp b s P g c) (ha : ∀ a ∈ as, plainAction a = true) :
    Tk W cp b s P g (c.takeAll W as).2 := by
  induction as generalizing c with
  | nil => exact h
  | cons a as ih =>
    rw [DLive.takeAll]
    have hr := action_tk (W := W) h a (ha a (by simp))
    split
    · rename_i he; rw [he] at hr; exact ih hr (fun a h => ha a (by simp [h]))
    · exact hr

theorem dInternal_err {r : Res Unit × DLive} {e : Err} (h : (dInternal r).1 = .err e) : e = .alert Alert.internalError := by
  unfold dInternal at h
  split at h
  · cases h; rfl
  · rename_i hno
    rcases r with ⟨r, c⟩
    dsimp only at h
    subst h
    exact absurd rfl (hno e c)

theorem sends_rekey (c : DLive) (e : Nat) (a : Aead) (iv : Bytes) :
    c.sends (c.out.op (.rekey e a iv)) = (.ok (), { c with out := { c.out with keys := c.out.keys.rekey e a iv } }) := by
  simp [DLive.sends, Out.op]

theorem rekeyed_tk {g : Nat} {c : DLive} (h : Tk W cp b s P g c) {K : Machine.Keys} (hK : c.closed = false → K = generation W cp b s (g + 1)) :
    Tk W cp b s P (g + 1) { c with out := { c.out with keys := c.out.keys.rekey epochUpdate (W.A cp K.1) K.2 } } := by
  refine ⟨h.1, fun hf => ?_⟩
  have hk := h.2 hf
  have hK' := hK hf
  subst hK'
  refine ⟨hk.datagram, hk.direction, hk.fresh, by show c.out.keys.fresh + 1 = _; rw [hk.fresh], ?_, ?_⟩
  · intro j hj
    simp only [Record.Keys.rekey, upd, hk.fresh]
    by_cases he : j = g + 1
    · subst he
      rw [if_pos rfl]
      simp [guardOf, epochUpdate]
    · rw [if_neg (by omega)]
      exact hk.keys j (by omega)
  · intro m hm
    obtain ⟨j, hj, e⟩ := hk.queued m hm
    exact ⟨j, by omega, e⟩

/-- A KeyUpdate is sent and the keys are changed. -/
theorem update_tk {g : Nat} {c : DLive} (h : Tk W cp b s P g c) (hcp : c.st.cp = cp) {K : Machine.Keys}
    (hK : c.closed = false → K = generation W cp b s (g + 1)) (m : Msg) :
    let r := c.takeAll W [.queue m, .sendQueued, .rekeyOut epochUpdate K]
    (r.1 = .ok () ∧ Tk W cp b s P (g + 1) r.2) ∨ (r.1 = .err (.alert Alert.internalError) ∧ Tk W cp b s P g r.2) ∨
    (¬ r.1.Safe ∧ Tk W cp b s P g r.2) := by
  obtain ⟨a1, a2⟩ := sends_tk h (op := .queue m.msgType m.seq m.body) trivial
  have e1 : c.takeAction W (.queue m) = dInternal (c.sends (c.out.op (.queue m.msgType m.seq m.body))) := rfl
  have s1 := (sends_same c (c.out.op (.queue m.msgType m.seq m.body))).2
  rcases hd : dInternal (c.sends (c.out.op (.queue m.msgType m.seq m.body))) with ⟨r1, c1⟩
  have hc1 : c1 = (c.sends (c.out.op (.queue m.msgType m.seq m.body))).2 := by rw [← dInternal_snd, hd]
  rw [← hc1] at a1 a2 s1
  rw [hd] at e1
  have done : ∀ {r : Res Unit} {c' : DLive} {q : Res Unit × DLive}, dInternal q = (r, c') → r ≠ .ok () → Tk W cp b s P g c' →
      (r = .ok () ∧ Tk W cp b s P (g + 1) c') ∨ (r = .err (.alert Alert.internalError) ∧ Tk W cp b s P g c') ∨
      (¬ r.Safe ∧ Tk W cp b s P g c') := by
    intro r c' q hq hr ht
    cases r with
    | ok u => exact absurd rfl hr
    | err e => exact Or.inr (Or.inl ⟨by rw [dInternal_err (r := q) (e := e) (by rw [hq])], ht⟩)
    | panic => exact Or.inr (Or.inr ⟨by simp, ht⟩)
    | diverge => exact Or.inr (Or.inr ⟨by simp, ht⟩)
  dsimp only
  rw [DLive.takeAll, e1]
  cases r1 with
  | ok u =>
    dsimp only
    obtain ⟨b1, b2⟩ := sends_tk a1 (op := .send) trivial
    have s2 := (sends_same c1 (c1.out.op .send)).2
    have e2 : c1.takeAction W .sendQueued = dInternal (c1.sends (c1.out.op .send)) := rfl
    rcases hd2 : dInternal (c1.sends (c1.out.op .send)) with ⟨r2, c2⟩
    have hc2 : c2 = (c1.sends (c1.out.op .send)).2 := by rw [← dInternal_snd, hd2]
    rw [← hc2] at b1 b2 s2
    rw [hd2] at e2
    rw [DLive.takeAll, e2]
    cases r2 with
    | ok u =>
      have hst : c2.st.cp = cp := by rw [s2, s1, hcp]
      have e3 : c2.takeAction W (.rekeyOut epochUpdate K) = c2.sends (c2.out.op (.rekey epochUpdate (W.A c2.st.cp K.1) K.2)) := rfl
      rw [sends_rekey, hst] at e3
      dsimp only
      rw [DLive.takeAll, e3]
      dsimp only
      rw [DLive.takeAll]
      exact Or.inl ⟨rfl, rekeyed_tk b1 (fun hf => hK (by rw [← a2, ← b2]; exact hf))⟩
    | err e => exact done hd2 (by simp) b1
    | panic => exact done hd2 (by simp) b1
    | diverge => exact done hd2 (by simp) b1
  | err e => exact done hd (by simp) a1
  | panic => exact done hd (by simp) a1
  | diverge => exact done hd (by simp) a1

/-- The sending side of a connection. -/
structure Talks (W : World) (cp : Params) (b : Bool) (s : Bytes) (P : Bytes → Prop) (c : DLive) : Prop where
  params : c.st.cp = cp
  role : c.st.isClient = b
  wire : OnWire W cp b s P c.out.wire
  keyed : c.closed = false → ∃ g, dirSecret b c.st = updates W.E.P cp.hash (trafficLabel b) g s ∧ Keyed W cp b s g c.out

/-- After something that may have panicked. -/
def Said {α : Type} (W : World) (cp : Params) (b : Bool) (s : Bytes) (P : Bytes → Prop) (r : Res α × DLive) : Prop :=
  OnWire W cp b s P r.2.out.wire ∧ (r.1.Safe → Talks W cp b s P r.2)

theorem Talks.said {α : Type} {c : DLive} (h : Talks W cp b s P c) (r : Res α) : Said W cp b s P (r, c) := ⟨h.wire, fun _ => h⟩

theorem Talks.tk {c : DLive} (h : Talks W cp b s P c) :
    ∃ g, Tk W cp b s P g c ∧ (c.closed = false → dirSecret b c.st = updates W.E.P cp.hash (trafficLabel b) g s) := by
  by_cases hc : c.closed = false
  · obtain ⟨g, h1, h2⟩ := h.keyed hc
    exact ⟨g, ⟨h.wire, fun _ => h2⟩, fun _ => h1⟩
  · exact ⟨0, ⟨h.wire, fun hf => absurd hf hc⟩, fun hf => absurd hf hc⟩

theorem Tk.talks {g : Nat} {c : DLive} (h : Tk W cp b s P g c) (hp : c.st.cp = cp) (hr : c.st.isClient = b)
    (hs : c.closed = false → dirSecret b c.st = updates W.E.P cp.hash (trafficLabel b) g s) : Talks W cp b s P c :=
  ⟨hp, hr, h.1, fun hf => ⟨g, hs hf, h.2 hf⟩⟩

/-- Whether the transport is closed is the same or it is closed now. -/
theorem abort_st (c : DLive) (a : Nat) (e : Err) : (c.abort a e).2.st = c.st ∧ ((c.abort a e).2.closed = false → c.closed = false) := by
  have hs := (sends_same c (c.out.op (.other 21 [UInt8.ofNat a, if a = 100 ∨ a = Alert.closeNotify then 1 else 2]))).2
  have hc : (c.sends (c.out.op (.other 21 [UInt8.ofNat a, if a = 100 ∨ a = Alert.closeNotify then 1 else 2]))).2.closed = c.closed := by
    unfold DLive.sends; split
    · split <;> rfl
    all_goals rfl
  unfold DLive.abort DLive.sendAlert
  dsimp only
  change (c.writeRecord 21 _).2.st = c.st at hs
  change (c.writeRecord 21 _).2.closed = c.closed at hc
  rcases hw : c.writeRecord 21 [UInt8.ofNat a, if a = 100 ∨ a = Alert.closeNotify then 1 else 2] with ⟨r, c'⟩
  rw [hw] at hs hc
  dsimp only at hs hc
  cases r with
  | panic => exact ⟨hs, fun h => by rw [← hc]; exact h⟩
  | diverge => exact ⟨hs, fun h => by rw [← hc]; exact h⟩
  | ok u =>
    dsimp only
    by_cases hl : (if a = 100 ∨ a = Alert.closeNotify then (1 : UInt8) else 2) = 1
    · rw [if_pos hl]; exact ⟨hs, fun h => by rw [← hc]; exact h⟩
    · rw [if_neg hl]; exact ⟨hs, fun h => by cases h⟩
  | err u =>
    dsimp only
    by_cases hl : (if a = 100 ∨ a = Alert.closeNotify then (1 : UInt8) else 2) = 1
    · rw [if_pos hl]; exact ⟨hs, fun h => by rw [← hc]; exact h⟩
    · rw [if_neg hl]; exact ⟨hs, fun h => by cases h⟩

theorem Talks.abort {c : DLive} (h : Talks W cp b s P c) (a : Nat) (e : Err) : Talks W cp b s P (c.abort a e).2 := by
  obtain ⟨g, h1, h2⟩ := h.tk
  obtain ⟨s1, s2⟩ := abort_st c a e
  exact (abort_tk h1 a e).1.talks (by rw [s1]; exact h.params) (by rw [s1]; exact h.role) (fun hf => by rw [s1]; exact h2 (s2 hf))

theorem Talks.sends {c : DLive} (h : Talks W cp b s P c) {op : OutOp} (hop : plainOp P op) : Talks W cp b s P (c.sends (c.out.op op)).2 := by
  obtain ⟨g, h1, h2⟩ := h.tk
  obtain ⟨t1, t2⟩ := sends_tk h1 hop
  have hs := (sends_same c (c.out.op op)).2
  exact t1.talks (by rw [hs]; exact h.params) (by rw [hs]; exact h.role) (fun hf => by rw [hs]; exact h2 (by rw [← t2]; exact hf))

theorem Talks.congr {c c' : DLive} (h : Talks W cp b s P c) (h1 : c'.st = c.st) (h2 : c'.out = c.out) (h3 : c'.closed = false → c.closed = false) :
    Talks W cp b s P c' :=
  ⟨by rw [h1]; exact h.params, by rw [h1]; exact h.role, by rw [h2]; exact h.wire, fun hf => by rw [h1, h2]; exact h.keyed (h3 hf)⟩

theorem action_st (c : DLive) (a : Action) : (c.takeAction W a).2.st = c.st ∧ (c.takeAction W a).2.closed = c.closed := by
  have hs : ∀ r, (c.sends r).2.st = c.st ∧ (c.sends r).2.closed = c.closed := by
    intro r
    unfold DLive.sends; split
    · split <;> exact ⟨rfl, rfl⟩
    all_goals exact ⟨rfl, rfl⟩
  cases a with
  | queue m => rw [DLive.takeAction, dInternal_snd]; exact hs _
  | sendQueued => rw [DLive.takeAction, dInternal_snd]; exact hs _
  | rekeyIn e k => rw [DLive.takeAction]; split <;> exact ⟨rfl, rfl⟩
  | rekeyOut e k => exact hs _
  | resetOut v => exact hs _
  | storePsk p => exact ⟨rfl, rfl⟩

theorem actions_st (as : List Action) (c : DLive) : (c.takeAll W as).2.st = c.st ∧ (c.takeAll W as).2.closed = c.closed := by
  induction as generalizing c with
  | nil => exact ⟨rfl, rfl⟩
  | cons a as ih =>
    rw [DLive.takeAll]
    obtain ⟨h1, h2⟩ := action_st (W := W) c a
    split
    · rename_i c' he
      rw [he] at h1 h2
      obtain ⟨i1, i2⟩ := ih c'
      exact ⟨i1.trans h1, i2.trans h2⟩
    · exact ⟨h1, h2⟩

theorem Talks.actions {c : DLive} (h : Talks W cp b s P c) (as : List Action) (ha : ∀ a ∈ as, plainAction a = true) :
    Talks W cp b s P (c.takeAll W as).2 := by
  obtain ⟨g, h1, h2⟩ := h.tk
  obtain ⟨s1, s2⟩ := actions_st (W := W) as c
  exact (actions_tk as h1 ha).talks (by rw [s1]; exact h.params) (by rw [s1]; exact h.role)
    (fun hf => by rw [s1]; exact h2 (by rw [← s2]; exact hf))

theorem Talks.orAbort {r : Res Unit × DLive} (h : Talks W cp b s P r.2) (e : Err) : Talks W cp b s P (DLive.orAbort e r).2 := by
  unfold DLive.orAbort
  split
  · exact Talks.abort h _ _
  · exact h

variable (hP : W.E.P.Sized) (hz : 0 < cp.hash.size)
include hP hz

theorem process_said {c : DLive} (h : Talks W cp b s P c) (now : Int) (m : Msg) : Said W cp b s P (c.process W now m) := by
  have hs : 0 < c.st.cp.hash.size := by rw [h.params]; exact hz
  unfold DLive.process
  rcases process_cases hP c.x c.st hs now m with ⟨a, he, -, -⟩ | hun | ⟨psk, he, -⟩ | ⟨r, hr⟩
  · rw [he]; exact ⟨(h.abort _ _).wire, fun _ => h.abort _ _⟩
  · cases hp : c.st.process W.E c.x now m with
    | ok z => rw [hp] at hun; simp at hun
    | err e => rw [hp] at hun; simp at hun
    | panic => exact h.said _
    | diverge => exact h.said _
  · rw [he]
    exact ⟨h.wire, fun _ => h.congr rfl rfl id⟩
  · obtain ⟨s', rest, x', he, hcp, hic, hrd, hrest⟩ := process_update hP c.x c.st hs now hr
    rw [he]
    dsimp only
    obtain ⟨g, hg, hg2⟩ := h.tk
    rcases hrest with ⟨-, rfl, hsec⟩ | ⟨-, hsec, m2, -, rfl⟩
    · have ht := Talks.actions (W := W) (c := { c with x := x' }) (h.congr rfl rfl id) [.rekeyIn epochUpdate
          (keysOf W.E.P c.st.cp (dirNext W.E.P c.st.cp (!c.st.isClient) (dirSecret (!c.st.isClient) c.st)))] (by simp [plainAction])
      obtain ⟨s1, s2⟩ := actions_st (W := W) [.rekeyIn epochUpdate
          (keysOf W.E.P c.st.cp (dirNext W.E.P c.st.cp (!c.st.isClient) (dirSecret (!c.st.isClient) c.st)))] { c with x := x' }
      split
      · rename_i c' heq
        rw [heq] at ht s1 s2
        refine ⟨ht.wire, fun _ => ⟨hcp.trans h.params, hic.trans h.role, ht.wire, fun hf => ?_⟩⟩
        obtain ⟨g', e1, e2⟩ := ht.keyed hf
        refine ⟨g', ?_, e2⟩
        show dirSecret b s' = _
        rw [h.role] at hsec
        have e1' : dirSecret b c'.st = _ := e1
        rw [hsec, ← e1', s1]
      · exact ⟨(Talks.orAbort ht _).wire, fun _ => Talks.orAbort ht _⟩
    · rw [DLive.takeAll]
      rcases ha : ({ c with x := x' } : DLive).takeAction W (.rekeyIn epochUpdate
          (keysOf W.E.P c.st.cp (dirNext W.E.P c.st.cp (!c.st.isClient) (dirSecret (!c.st.isClient) c.st)))) with ⟨r1, c1⟩
      have t1 := action_tk (W := W) (c := { c with x := x' }) (g := g) hg (.rekeyIn epochUpdate
          (keysOf W.E.P c.st.cp (dirNext W.E.P c.st.cp (!c.st.isClient) (dirSecret (!c.st.isClient) c.st)))) rfl
      obtain ⟨s1, s2⟩ := action_st (W := W) { c with x := x' } (.rekeyIn epochUpdate
          (keysOf W.E.P c.st.cp (dirNext W.E.P c.st.cp (!c.st.isClient) (dirSecret (!c.st.isClient) c.st))))
      rw [ha] at t1 s1 s2
      have old : ∀ {d : DLive}, Tk W cp b s P g d → d.st = c.st → d.closed = c.closed → Talks W cp b s P d := by
        intro d hd e1 e2
        exact hd.talks (by rw [e1]; exact h.params) (by rw [e1]; exact h.role) (fun hf => by rw [e1]; exact hg2 (by rw [← e2]; exact hf))
      cases r1 with
      | ok u =>
        dsimp only
        have key := update_tk (W := W) (c := c1) t1 (by rw [s1]; exact h.params)
          (K := keysOf W.E.P c.st.cp (dirNext W.E.P c.st.cp c.st.isClient (dirSecret c.st.isClient c.st))) (by
            intro hf
            rw [h.params, h.role, hg2 (by rw [← show c1.closed = c.closed from s2]; exact hf), (generation_keys W cp b s g).1]) m2
        obtain ⟨a1, a2⟩ := actions_st (W := W) [.queue m2, .sendQueued, .rekeyOut epochUpdate
          (keysOf W.E.P c.st.cp (dirNext W.E.P c.st.cp c.st.isClient (dirSecret c.st.isClient c.st)))] c1
        dsimp only at key
        rcases hq : c1.takeAll W [.queue m2, .sendQueued, .rekeyOut epochUpdate
          (keysOf W.E.P c.st.cp (dirNext W.E.P c.st.cp c.st.isClient (dirSecret c.st.isClient c.st)))] with ⟨r2, c2⟩
        rw [hq] at key a1 a2
        dsimp only at key a1 a2
        rcases key with ⟨rfl, hk⟩ | ⟨rfl, hk⟩ | ⟨hns, hk⟩
        · refine ⟨hk.1, fun _ => Tk.talks (g := g + 1) hk (hcp.trans h.params) (hic.trans h.role) (fun hf => ?_)⟩
          have hf' : c.closed = false := by rw [← show c1.closed = c.closed from s2, ← a2]; exact hf
          show dirSecret b s' = _
          rw [h.role, h.params, hg2 hf', (generation_keys W cp b s g).2] at hsec
          exact hsec
        · dsimp only
          have ht := old hk (a1.trans s1) (a2.trans s2)
          exact ⟨(ht.orAbort (r := (_, _)) _).wire, fun _ => ht.orAbort (r := (_, _)) _⟩
        · have ht := old hk (a1.trans s1) (a2.trans s2)
          cases r2 with
          | ok u => exact absurd trivial hns
          | err e => exact absurd trivial hns
          | panic => exact ht.said _
          | diverge => exact ht.said _
      | err e =>
        have ht := old t1 s1 s2
        exact ⟨(ht.orAbort (r := (_, _)) _).wire, fun _ => ht.orAbort (r := (_, _)) _⟩
      | panic => exact (old t1 s1 s2).said _
      | diverge => exact (old t1 s1 s2).said _

theorem postHandshake_said (now : Int) (n : Nat) {c : DLive} (h : Talks W cp b s P c) (d : Bytes) :
    Said W cp b s P (DLive.postHandshake W now n c d) := by
  induction n generalizing c d with
  | zero => exact h.said _
  | succ n ih =>
    unfold DLive.postHandshake
    split
    · exact h.said _
    · split
      · exact h.said _
      · dsimp only
        split
        · exact h.said _
        · have hr := process_said hP hz h now ⟨d.getD 0 0, 0, (d.drop 12).take (beNat ((d.drop 1).take 3)), 0, 0⟩
          split
          · rename_i heq; rw [heq] at hr; exact ih (hr.2 trivial) _
          · exact hr

theorem handle_said (now : Int) {c : DLive} (h : Talks W cp b s P c) (ct : UInt8) (f : Bytes) : Said W cp b s P (c.handle W now ct f) := by
  have ha : ∀ a e, Said W cp b s P (c.abort a e) := fun a e => ⟨(h.abort a e).wire, fun _ => h.abort a e⟩
  unfold DLive.handle
  split
  · exact postHandshake_said hP hz now _ h _
  · split
    · split
      · split
        · exact h.said _
        · split
          · exact h.said _
          · split
            · exact h.said _
            · exact ha _ _
      · exact ha _ _
    · split
      · have hr := h.sends (op := .ack f) trivial
        exact ⟨hr.wire, fun _ => hr⟩
      · split
        · exact (h.congr (c' := { c with readBuffer := c.readBuffer ++ f }) rfl rfl id).said _
        · exact h.said _

theorem consume_said (now : Int) {c : DLive} (h : Talks W cp b s P c) : Said W cp b s P (c.consume W now) := by
  unfold DLive.consume
  split
  · rename_i pt r _
    exact handle_said hP hz now (h.congr (c' := { c with reader := r }) rfl rfl id) _ _
  all_goals
    rename_i r _
    exact (h.congr (c' := { c with reader := r }) rfl rfl id).said _

theorem readLoop_said (now : Int) (fuel : Nat) {c : DLive} (h : Talks W cp b s P c) : Said W cp b s P (DLive.readLoop W now fuel c) := by
  induction fuel generalizing c with
  | zero => unfold DLive.readLoop; split <;> exact h.said _
  | succ fuel ih =>
    unfold DLive.readLoop
    split
    · have hr := consume_said hP hz now h
      split
      · rename_i heq; rw [heq] at hr; exact ih (hr.2 trivial)
      · rename_i heq
        rw [heq] at hr
        split
        · exact (hr.2 trivial).said _
        · exact ih (hr.2 trivial)
      · exact hr
    · exact h.said _

omit hP hz in
theorem writeAll_said (fs : List Bytes) (sent : Nat) {c : DLive} (h : Talks W cp b s P c) (hf : ∀ f ∈ fs, P f) :
    Said W cp b s P (c.writeAll fs sent) := by
  induction fs generalizing c sent with
  | nil => exact h.said _
  | cons f fs ih =>
    unfold DLive.writeAll
    have hr : Talks W cp b s P (c.writeRecord 23 f).2 := h.sends (op := .other 23 f) ⟨by decide, fun _ => hf f (by simp)⟩
    split <;> rename_i heq <;> rw [heq] at hr
    · exact ih _ hr (fun f h => hf f (by simp [h]))
    all_goals exact hr.said _

omit hP hz in
theorem fragments_infix (n : Nat) (d f : Bytes) (h : f ∈ fragments n d) : f <:+: d := by
  have := fragments_flatten n d
  rw [← this]
  exact List.infix_of_mem_flatten h

theorem call_said {c : DLive} (h : Talks W cp b s P c) (k : DCall) (hk : ∀ d f, k = .write d → f <:+: d → P f) :
    Said W cp b s P (c.call W k) := by
  have hs : 0 < c.st.cp.hash.size := by rw [h.params]; exact hz
  have rep : ∀ r : Res Unit × DLive, Said W cp b s P r → Said W cp b s P (dReply r) := by
    intro r hr
    unfold dReply
    split
    · exact ⟨hr.1, fun _ => hr.2 trivial⟩
    · exact ⟨hr.1, fun _ => hr.2 trivial⟩
    · exact ⟨hr.1, fun hh => absurd hh (by simp)⟩
    · exact ⟨hr.1, fun hh => absurd hh (by simp)⟩
  cases k with
  | read now expired fuel n =>
    simp only [DLive.call, DLive.read]
    by_cases hn : n = 0
    · rw [if_pos hn]; exact h.said _
    · rw [if_neg hn]
      have ht : Talks W cp b s P (c.checkTimers expired).2 := by
        unfold DLive.checkTimers
        split
        · rw [dInternal_snd]; exact h.sends (op := .send) trivial
        · exact h
      rcases he : c.checkTimers expired with ⟨r0, c0⟩
      rw [he] at ht
      cases r0 with
      | ok u =>
        dsimp only
        have hl := readLoop_said hP hz now fuel ht
        rcases hr : DLive.readLoop W now fuel c0 with ⟨r1, c1⟩
        rw [hr] at hl
        cases r1 with
        | ok u => exact ⟨hl.1, fun _ => (hl.2 trivial).congr rfl rfl id⟩
        | err e => exact ⟨hl.1, fun _ => hl.2 trivial⟩
        | panic => exact ⟨hl.1, fun hh => absurd hh (by simp)⟩
        | diverge => exact ⟨hl.1, fun hh => absurd hh (by simp)⟩
      | err e => exact ht.said _
      | panic => exact ht.said _
      | diverge => exact ht.said _
  | write d =>
    simp only [DLive.call, DLive.write]
    have hr := writeAll_said (Conn.fragments d.length d) 0 h (fun f hf => hk d f rfl (fragments_infix _ _ _ hf))
    split <;> rename_i heq <;> rw [heq] at hr
    · exact ⟨hr.1, fun _ => hr.2 trivial⟩
    · exact ⟨hr.1, fun _ => hr.2 trivial⟩
    · exact ⟨hr.1, fun hh => absurd hh (by simp)⟩
    · exact ⟨hr.1, fun hh => absurd hh (by simp)⟩
  | update request =>
    refine rep _ ?_
    obtain ⟨s', m, x', hkk, _, hcp, hic, hsec, -⟩ := keyUpdate_spec hP c.x c.st hs (if request then 1 else 0)
    obtain ⟨g, hg, hg2⟩ := h.tk
    unfold DLive.update
    rw [hkk]
    dsimp only
    have hd : Tk W cp b s P g { c with st := s', x := x' } := hg
    have key := update_tk (W := W) hd (hcp.trans h.params)
      (K := keysOf W.E.P c.st.cp (dirNext W.E.P c.st.cp c.st.isClient (dirSecret c.st.isClient c.st))) (by
        intro hf
        rw [h.params, h.role, hg2 hf, (generation_keys W cp b s g).1]) m
    obtain ⟨a1, a2⟩ := actions_st (W := W) [.queue m, .sendQueued, .rekeyOut epochUpdate
      (keysOf W.E.P c.st.cp (dirNext W.E.P c.st.cp c.st.isClient (dirSecret c.st.isClient c.st)))] { c with st := s', x := x' }
    dsimp only at key
    rcases hq : ({ c with st := s', x := x' } : DLive).takeAll W [.queue m, .sendQueued, .rekeyOut epochUpdate
      (keysOf W.E.P c.st.cp (dirNext W.E.P c.st.cp c.st.isClient (dirSecret c.st.isClient c.st)))] with ⟨r2, c2⟩
    rw [hq] at key a1 a2
    dsimp only at key a1 a2
    have p1 : c2.st.cp = cp := by rw [a1]; exact hcp.trans h.params
    have p2 : c2.st.isClient = b := by rw [a1]; exact hic.trans h.role
    rcases key with ⟨rfl, hk1⟩ | ⟨rfl, hk1⟩ | ⟨hns, hk1⟩
    · refine ⟨hk1.1, fun _ => Tk.talks hk1 p1 p2 (fun hf => ?_)⟩
      have hf' : c.closed = false := by rw [← a2]; exact hf
      show dirSecret b c2.st = _
      rw [h.role, h.params, hg2 hf', (generation_keys W cp b s g).2] at hsec
      rw [a1]; exact hsec
    · unfold DLive.orAbort
      dsimp only
      obtain ⟨t1, t2⟩ := abort_tk hk1 Alert.internalError .msg
      obtain ⟨s1, -⟩ := abort_st c2 Alert.internalError .msg
      refine ⟨t1.1, fun hsafe => ?_⟩
      have hcl := t2 hsafe (by decide) (by decide)
      exact ⟨by rw [s1]; exact p1, by rw [s1]; exact p2, t1.1, fun hf => by rw [hcl] at hf; cases hf⟩
    · cases r2 with
      | ok u => exact absurd trivial hns
      | err e => exact absurd trivial hns
      | panic => exact ⟨hk1.1, fun hh => absurd hh (by simp [DLive.orAbort])⟩
      | diverge => exact ⟨hk1.1, fun hh => absurd hh (by simp [DLive.orAbort])⟩
  | ticket now l e a nonce tkt =>
    refine rep _ ?_
    unfold DLive.ticket
    split
    · rename_i acts x hn
      have hall : ∀ a ∈ acts, plainAction a = true := by
        simp only [Connected.newSessionTicket, Res.bind_eq_ok, orAlert_ok, Res.ok.injEq, Prod.mk.injEq] at hn
        obtain ⟨exts, -, psk, -, ⟨m, x2⟩, -, rfl, -⟩ := hn
        intro a ha
        simp only [List.mem_cons, List.not_mem_nil, or_false] at ha
        rcases ha with rfl | rfl | rfl <;> rfl
      have ht := Talks.actions (W := W) (c := { c with x := x }) (h.congr rfl rfl id) acts hall
      split
      · rename_i he
        rw [he] at ht
        exact ⟨(ht.abort _ _).wire, fun _ => ht.abort _ _⟩
      · exact ⟨ht.wire, fun _ => ht⟩
    all_goals exact h.said _
  | close => exact (h.congr (c' := { c with closed := true }) rfl rfl (fun hf => by cases hf)).said _

theorem calls_said (ks : List DCall) {c : DLive} (h : Talks W cp b s P c) (hk : ∀ d f, .write d ∈ ks → f <:+: d → P f) :
    OnWire W cp b s P (DLive.calls W c ks).2.out.wire := by
  induction ks generalizing c with
  | nil => exact h.wire
  | cons k ks ih =>
    have hr := call_said hP hz h k (fun d f e hf => hk d f (by simp [e]) hf)
    unfold DLive.calls
    split
    · rename_i heq
      rw [heq] at hr
      exact ih (hr.2 trivial) (fun d f hm => hk d f (by simp [hm]))
    · rename_i heq
      rw [heq] at hr
      exact hr.1

end

theorem start_talks {W : World} {st : Connected} {x : Ctx} {nb : Bool} {sn : Bytes} {ho hi o i : Machine.Keys} {b : Bool}
    {conn : List (Except Err Bytes)} {P : Bytes → Prop} (hr : st.isClient = b) (h : o = keysOf W.E.P st.cp (dirSecret b st)) :
    Talks W st.cp b (dirSecret b st) P (DLive.start W st x nb sn ho hi o i conn) := by
  refine ⟨rfl, hr, by simp [DLive.start, Out.new, OnWire], fun _ => ⟨0, rfl, rfl, rfl, rfl, rfl, ?_, by simp [DLive.start, Out.new]⟩⟩
  intro j hj
  have : j = 0 := by omega
  subst this
  simp [DLive.start, Out.new, Record.Keys.setVersion, Record.Keys.rekey, Record.Keys.new, guardOf, epochApplication, h]
  exact ⟨rfl, rfl⟩

end Verif.Props
