import Verif.Spec.RecordWire
import Verif.Conn.StackRun
import Verif.Record.Lemmas

/-
What an end of a handshake gives to its transport is made of records.
-/

namespace Verif.Conn

open Verif Verif.Crypto Verif.Messages Verif.Negotiation Verif.Handshake Verif.Machine Verif.Spec Verif.Record

/-- A writing record layer over TLS, with correct AEADs. -/
structure Layer (k : Record.Keys) : Prop where
  tls : k.datagram = false
  lawful : ∀ i a, (k.heap i).aead = some a → a.Lawful

theorem layer_new (d : Direction) : Layer (Record.Keys.new d false) := ⟨rfl, fun i a h => by simp [Record.Keys.new, nullCipher] at h⟩

theorem Layer.version {k : Record.Keys} (h : Layer k) (v : Nat) : Layer (k.setVersion v) := ⟨h.tls, h.lawful⟩

theorem Layer.rekey {k : Record.Keys} (h : Layer k) (n : Nat) {a : Aead} (ha : a.Lawful) (iv : Bytes) : Layer (k.rekey n a iv) := by
  refine ⟨h.tls, fun i b hb => ?_⟩
  simp only [Record.Keys.rekey, upd] at hb
  split at hb
  · simp only [Option.some.injEq] at hb
    exact hb ▸ ha
  · exact h.lawful i b hb

theorem Layer.reset {k : Record.Keys} (h : Layer k) (n : Nat) : Layer (k.resetClear n) := by
  refine ⟨h.tls, fun i b hb => ?_⟩
  simp only [Record.Keys.resetClear, upd] at hb
  split at hb
  · simp [nullCipher] at hb
  · exact h.lawful i b hb

/-- One record. -/
theorem Layer.write {k k' : Record.Keys} (h : Layer k) {i pad : Nat} {ct : UInt8} {f b : Bytes}
    (hw : writeRecord k i ct f pad = .ok (b, k')) : Layer k' ∧ k'.version = k.version ∧
    ∃ t frag, b = tlsRecord t k.version frag ∧ frag.length ≤ 2 ^ 14 ∧ (t = ct ∨ t = 23) := by
  obtain ⟨header, body, rfl, hl, hs, rfl, h1⟩ := writeRecord_ok hw
  refine ⟨⟨h.tls, fun j a ha => ?_⟩, rfl, ?_⟩
  · simp only [upd] at ha
    split at ha
    · exact h.lawful i a ha
    · exact h.lawful j a ha
  · rcases h1 with ⟨a, nonce, ha, _, hh, _, rfl⟩ | ⟨_, _, rfl, hh⟩
    · refine ⟨23, _, ?_, hl, .inr rfl⟩
      simp only [recordHeader, h.tls, Bool.false_eq_true, if_false, Res.ok.injEq] at hh
      simp only [tlsRecord, (h.lawful i a ha).seal_length, innerPlaintext, List.length_append, List.length_cons, List.length_replicate]
      rw [← hh]
      simp [Nat.add_comm, Nat.add_left_comm]
    · refine ⟨ct, _, ?_, hl, .inl rfl⟩
      simp only [recordHeader, h.tls, Bool.false_eq_true, if_false, Res.ok.injEq] at hh
      rw [← hh]
      simp [tlsRecord]

theorem tlsRecords_nil (v : Nat) : TlsRecords v [] := ⟨[], rfl, fun _ h => by cases h⟩

theorem _root_.Verif.Spec.TlsRecords.append {v : Nat} {b b' : Bytes} (h : TlsRecords v b) (h' : TlsRecords v b') : TlsRecords v (b ++ b') := by
  obtain ⟨l, rfl, hl⟩ := h
  obtain ⟨l', rfl, hl'⟩ := h'
  exact ⟨l ++ l', by simp, fun r hr => (List.mem_append.1 hr).elim (hl r) (hl' r)⟩

theorem tlsRecords_one {v : Nat} {t : UInt8} {f : Bytes} (ht : t = 21 ∨ t = 22 ∨ t = 23) (hf : f.length ≤ 2 ^ 14) : TlsRecords v (tlsRecord t v f) :=
  ⟨[(t, f)], by simp, fun r hr => by obtain rfl := List.mem_singleton.1 hr; exact ⟨ht, hf⟩⟩

theorem Layer.write_records {k k' : Record.Keys} (h : Layer k) {i pad : Nat} {ct : UInt8} {f b : Bytes} (ht : ct = 21 ∨ ct = 22 ∨ ct = 23)
    (hw : writeRecord k i ct f pad = .ok (b, k')) : Layer k' ∧ k'.version = k.version ∧ TlsRecords k.version b := by
  obtain ⟨h1, h2, t, frag, rfl, h4, h5⟩ := h.write hw
  refine ⟨h1, h2, tlsRecords_one ?_ h4⟩
  rcases h5 with rfl | rfl
  · exact ht
  · exact .inr (.inr rfl)

/-- Going from one end to another, records of a version are written, and nothing else. -/
def Emits (v : Nat) (e e' : End) : Prop := Layer e'.out ∧ e'.out.version = v ∧ ∃ b, e'.wire = e.wire ++ b ∧ TlsRecords v b

theorem Emits.none {v : Nat} {e e' : End} (h : Layer e.out) (hv : e.out.version = v) (ho : e'.out = e.out) (hw : e'.wire = e.wire) :
    Emits v e e' := ⟨ho ▸ h, ho ▸ hv, [], by rw [hw, List.append_nil], tlsRecords_nil v⟩

theorem Emits.trans {v : Nat} {e e' e'' : End} (h : Emits v e e') (h' : Emits v e' e'') : Emits v e e'' := by
  obtain ⟨_, _, b, h1, h2⟩ := h
  obtain ⟨g, g', b', g1, g2⟩ := h'
  exact ⟨g, g', b ++ b', by rw [g1, h1, List.append_assoc], h2.append g2⟩

variable {A : Bytes → Aead} {E : Env}

theorem writeAll_emits (fs : List Bytes) {e : End} (h : Layer e.out) : Emits e.out.version e (e.writeAll fs) := by
  induction fs generalizing e with
  | nil => exact .none h rfl rfl rfl
  | cons f fs ih =>
    rw [End.writeAll]
    split
    · rename_i rec k hw
      obtain ⟨h1, h2, h3⟩ := h.write_records (.inr (.inl rfl)) hw
      have := ih (e := { e with out := k, wire := e.wire ++ rec }) h1
      rw [show ({ e with out := k, wire := e.wire ++ rec } : End).out.version = e.out.version from h2] at this
      exact Emits.trans (e' := { e with out := k, wire := e.wire ++ rec }) ⟨h1, h2, rec, rfl, h3⟩ this
    all_goals exact .none h rfl rfl rfl

theorem act_emits (hA : ∀ key, (A key).Lawful) {e : End} (h : Layer e.out) (a : Action) : Emits e.out.version e (e.act A a) := by
  cases a with
  | queue m =>
    simp only [End.act]
    split
    · exact writeAll_emits _ h
    all_goals exact .none h rfl rfl rfl
  | rekeyIn n k =>
    simp only [End.act]
    split <;> exact .none h rfl rfl rfl
  | sendQueued => exact .none h rfl rfl rfl
  | storePsk _ => exact .none h rfl rfl rfl
  | rekeyOut n k => exact ⟨h.rekey n (hA _) _, rfl, [], (List.append_nil _).symm, tlsRecords_nil _⟩
  | resetOut n => exact ⟨h.reset n, rfl, [], (List.append_nil _).symm, tlsRecords_nil _⟩

theorem perform_emits (hA : ∀ key, (A key).Lawful) (acts : List Action) {e : End} (h : Layer e.out) :
    Emits e.out.version e (e.perform A acts) := by
  induction acts generalizing e with
  | nil => exact .none h rfl rfl rfl
  | cons a acts ih =>
    rw [End.perform]
    have h1 := act_emits hA h a
    split
    · have h2 := ih (e := e.act A a) h1.1
      rw [h1.2.1] at h2
      exact h1.trans h2
    · exact h1

theorem advance_emits (hA : ∀ key, (A key).Lawful) {e : End} (h : Layer e.out) (p : HState) (acts : List Action) (x : Ctx) :
    Emits (e.setVersion p).out.version e (e.advance A (.ok (p, acts, x))) := by
  have hl : Layer (e.setVersion p).out := by
    unfold End.setVersion
    split
    · exact h.version _
    · exact h
  have := perform_emits hA acts (e := { e.setVersion p with x := x, asked := e.asked ++ sent acts }) hl
  obtain ⟨h1, h2, b, h3, h4⟩ := this
  replace h3 := h3.trans (congrArg (· ++ b) (setVersion_keeps e p).2.2.2.1)
  dsimp only at h3
  simp only [End.advance]
  split <;> exact ⟨h1, h2, b, h3, h4⟩

theorem advance_err {e : End} {r : Res (HState × List Action × Ctx)} (hr : ∀ x, r ≠ .ok x) :
    (e.advance A r).out = e.out ∧ (e.advance A r).wire = e.wire ∧ (e.advance A r).party = e.party := by
  cases r with
  | ok x => exact absurd rfl (hr x)
  | _ => exact ⟨rfl, rfl, rfl⟩

/-! ### Reading leaves the writing side alone -/

theorem parse_out (e : End) (feed : Feed) : (e.parse feed).2.out = e.out ∧ (e.parse feed).2.wire = e.wire ∧ (e.parse feed).2.party = e.party := by
  unfold End.parse
  split <;> exact ⟨rfl, rfl, rfl⟩

theorem readMessage_out (e : End) : e.readMessage.2.out = e.out ∧ e.readMessage.2.wire = e.wire ∧ e.readMessage.2.party = e.party := by
  unfold End.readMessage
  split
  · split <;> first | exact parse_out _ _ | exact ⟨rfl, rfl, rfl⟩
  · exact parse_out _ _

theorem receive_out (e : End) : e.receive.2.out = e.out ∧ e.receive.2.wire = e.wire ∧ e.receive.2.party = e.party := by
  unfold End.receive
  split
  · split
    · split
      · split <;> exact ⟨rfl, rfl, rfl⟩
      · rename_i t r _ _
        have := readMessage_out { e with reader := r }
        split
        · rename_i h
          rw [h] at this
          exact this
        · exact this
    all_goals exact ⟨rfl, rfl, rfl⟩
  · exact readMessage_out e

/-! ### Clients and servers -/

/-- The version an end writes: 0x0301 until a hello has been sent or accepted. -/
def HState.fresh : HState → Bool
  | .client (.start _) => true
  | .server (.start _) => true
  | _ => false

/-- What is known of the layer of an end. A failed end may have set the version without reaching the next state. -/
structure Written (e : End) : Prop where
  layer : Layer e.out
  version : e.party.fresh = false → e.out.version = 0x0303
  begun : e.outcome = .ok () → e.party.fresh = true → e.out.version = 0x0301

theorem written_new (p : HState) (h : p.fresh = true) : Written (End.new p) :=
  ⟨layer_new _, fun h' => absurd (h.symm.trans h') (by decide), fun _ _ => rfl⟩

/-- A server that has read a hello asks for another, or goes on. -/
theorem _root_.Verif.Machine.SStep.fromStart {y0 y1 : Ctx} {k : Coins} {s : SStart} {s2 : SState} {e : Event} {a : List Action}
    (h : SStep E y0 k (.start s) e s2 a y1) :
    (∃ hrr, s2 = .start s ∧ a = [.queue hrr, .sendQueued] ∧ letterOf hrr = .helloRetryRequest) ∨ ∀ s0, s2 ≠ .start s0 := by
  cases h with
  | retry _ m hrr _ h =>
    refine .inl ⟨hrr, rfl, rfl, ?_⟩
    obtain ⟨f, _, ⟨hs, r, hr, h1⟩ | ⟨_, n, h1, _⟩⟩ := SStart.next_ok h
    · cases h1
      rcases chooseRetry_ok f.retryOk with ⟨h2, _⟩ | ⟨_, _, _, hrr', h2, h3⟩ | ⟨_, _, _, _, _, _, _, _, hrr', h2, _, _, _, _, _, h3⟩
      · rw [hr] at h2; cases h2
      · rw [hr] at h2; cases h2; exact retry_made h3
      · rw [hr] at h2; cases h2; exact retry_made h3
    · cases h1
  | hello _ _ _ _ s' _ _ _ h =>
    refine .inr fun s0 h0 => ?_
    obtain ⟨f, _, ⟨_, _, _, h1, _⟩ | ⟨_, _, h1, _⟩ | ⟨_, _, h1, _⟩⟩ := SNegotiated.next_ok h
    · rw [h1] at h0; cases h0
    · rw [h1] at h0; cases h0
    · rw [h1] at h0
      simp only [SState.settle, SWait.nextFlight2] at h0
      split at h0 <;> cases h0

/-- What performing leaves. -/
theorem perform_party (acts : List Action) (e : End) : (e.perform A acts).party = e.party := by
  have hw : ∀ (fs : List Bytes) (e : End), (e.writeAll fs).party = e.party := by
    intro fs
    induction fs with
    | nil => intro e; rfl
    | cons f fs ih =>
      intro e
      rw [End.writeAll]
      split
      · rw [ih]
      all_goals rfl
  have ha : ∀ (e : End) (a : Action), (e.act A a).party = e.party := by
    intro e a
    cases a with
    | queue m =>
      simp only [End.act]
      split
      · exact hw _ _
      all_goals rfl
    | rekeyIn n k => simp only [End.act]; split <;> rfl
    | _ => rfl
  induction acts generalizing e with
  | nil => rfl
  | cons a acts ih =>
    rw [End.perform]
    split
    · rw [ih, ha]
    · exact ha e a

theorem advance_party (e : End) (p : HState) (acts : List Action) (x : Ctx) :
    ((e.advance A (.ok (p, acts, x))).outcome = .ok () ∧ (e.advance A (.ok (p, acts, x))).party = p) ∨
    ((e.advance A (.ok (p, acts, x))).outcome ≠ .ok () ∧ (e.advance A (.ok (p, acts, x))).party = e.party) := by
  simp only [End.advance]
  split
  · rename_i h
    exact .inl ⟨h, rfl⟩
  · rename_i h
    exact .inr ⟨fun h' => h () h', (perform_party acts _).trans (setVersion_keeps e p).2.2.2.2⟩

/-- Advancing keeps what is known of a layer, if the version is set as it should be. -/
theorem Written.advance {e : End} (h : Written e) (hA : ∀ key, (A key).Lawful) {p : HState} (acts : List Action) (x : Ctx)
    (h1 : p.fresh = false → (e.setVersion p).out.version = 0x0303) (h2 : p.fresh = true → (e.setVersion p).out.version = 0x0301)
    (h3 : e.party.fresh = false → p.fresh = false) :
    Written (e.advance A (.ok (p, acts, x))) ∧ Emits (e.setVersion p).out.version e (e.advance A (.ok (p, acts, x))) := by
  have hw := advance_emits hA h.layer p acts x
  refine ⟨⟨hw.1, ?_, ?_⟩, hw⟩
  · rw [hw.2.1]
    rcases advance_party (A := A) e p acts x with ⟨_, hp⟩ | ⟨_, hp⟩
    · rw [hp]; exact h1
    · rw [hp]; exact fun hf => h1 (h3 hf)
  · rw [hw.2.1]
    rcases advance_party (A := A) e p acts x with ⟨_, hp⟩ | ⟨ho, hp⟩
    · rw [hp]; exact fun _ => h2
    · exact fun ho' => absurd ho' ho

/-- Nothing is written. -/
theorem Written.idle {e e' : End} (h : Written e) (h1 : e'.out = e.out) (h2 : e'.party = e.party) (h3 : e'.outcome = .ok () → e.outcome = .ok ()) :
    Written e' := ⟨h1 ▸ h.layer, by rw [h1, h2]; exact h.version, by rw [h1, h2]; exact fun ho => h.begun (h3 ho)⟩

theorem client_notStart {x x' : Ctx} {k : Coins} {c c' : CState} {ev : Event} {a : List Action} (h : c.step E x k ev = .ok (c', a, x')) :
    ∀ s, c' ≠ .start s := by
  intro s hs
  subst hs
  cases CState.step_ok h with
  | ee _ _ _ _ _ h => have := CWaitEE.next_ok h; simp at this
  | certCR _ _ _ _ _ h => have := CWaitEE.nextCertCR_ok h; simp at this
  | cert _ _ _ _ _ h => have := CWaitCert.next_ok h; simp at this
  | cv _ _ _ _ _ h => have := CWaitCV.next_ok h; simp at this
  | finished _ _ _ _ _ h => have := CWaitFinished.next_ok h; simp at this

theorem fresh_client {c : CState} (h : ∀ s, c ≠ .start s) : (HState.client c).fresh = false := by
  cases c with
  | start s => exact absurd rfl (h s)
  | _ => rfl

theorem fresh_server {c : SState} (h : ∀ s, c ≠ .start s) : (HState.server c).fresh = false := by
  cases c with
  | start s => exact absurd rfl (h s)
  | _ => rfl

/-- An end that is past the hello. -/
theorem setVersion_late {e : End} (h : Written e) (hf : e.party.fresh = false) (p : HState) : (e.setVersion p).out.version = 0x0303 := by
  unfold End.setVersion
  split
  · rfl
  · exact h.version hf

/-- A turn that reads: nothing is written, or the end advances. -/
theorem readTurn_cases (k : Coins) (e : End) :
    (∃ (e1 : End) (ev : Event) (p : HState) (acts : List Action) (x : Ctx), e1.out = e.out ∧ e1.wire = e.wire ∧ e1.party = e.party ∧ e1.asked = e.asked ∧ e1.outcome = e.outcome ∧
      e.party.step E e.x k ev = .ok (p, acts, x) ∧ e.readTurn E A k = e1.advance A (.ok (p, acts, x))) ∨
    ((e.readTurn E A k).out = e.out ∧ (e.readTurn E A k).wire = e.wire ∧ (e.readTurn E A k).party = e.party ∧
      (e.readTurn E A k).asked = e.asked ∧ ((e.readTurn E A k).outcome = .ok () → e.outcome = .ok ())) := by
  have ho : e.receive.2.outcome = e.outcome := by
    have hp : ∀ (e : End) (feed : Feed), (e.parse feed).2.outcome = e.outcome := by
      intro e feed
      unfold End.parse
      split <;> rfl
    have hm : ∀ e : End, e.readMessage.2.outcome = e.outcome := by
      intro e
      unfold End.readMessage
      split
      · split <;> first | exact hp _ _ | rfl
      · exact hp _ _
    unfold End.receive
    split
    · split
      · split
        · split <;> rfl
        · rename_i t r _ _
          have := hm { e with reader := r }
          split
          · rename_i h
            rw [h] at this
            exact this
          · exact this
      all_goals rfl
    · exact hm e
  have hout := receive_out e
  have hask := receive_asked e
  unfold End.readTurn
  split <;> rename_i h <;> rw [h] at ho hout hask <;> obtain ⟨h1, h2, h3⟩ := hout <;> dsimp only at h1 h2 h3 ho hask
  · exact .inr ⟨h1, h2, h3, hask, fun h => ho ▸ h⟩
  · rename_i ev e'
    cases hs : e.party.step E e.x k ev with
    | ok r => exact .inl ⟨e', ev, r.1, r.2.1, r.2.2, h1, h2, h3, hask, ho, hs, rfl⟩
    | err er => exact .inr ⟨h1, h2, h3, hask, fun h => by cases h⟩
    | panic => exact .inr ⟨h1, h2, h3, hask, fun h => by cases h⟩
    | diverge => exact .inr ⟨h1, h2, h3, hask, fun h => by cases h⟩
  all_goals exact .inr ⟨h1, h2, h3, hask, fun h => by cases h⟩

theorem turn_idle {e : End} (h : Written e) : Written e ∧ e.party.fresh = e.party.fresh ∧ ∃ b, e.wire = e.wire ++ b ∧ TlsRecords 0x0303 b :=
  ⟨h, rfl, [], (List.append_nil _).symm, tlsRecords_nil _⟩

/-- A turn of a client. -/
theorem Written.clientTurn (hA : ∀ key, (A key).Lawful) {e : End} (h : Written e) {c : CState} (hc : e.party = .client c) (k : Coins) :
    Written (e.turn E A k) ∧ (∃ c', (e.turn E A k).party = .client c') ∧
      ∃ b, (e.turn E A k).wire = e.wire ++ b ∧ TlsRecords 0x0303 b := by
  have nothing : ∃ b, e.wire = e.wire ++ b ∧ TlsRecords 0x0303 b := ⟨[], (List.append_nil _).symm, tlsRecords_nil _⟩
  have party : ∀ (e1 : End) (c2 : CState) (acts : List Action) (x : Ctx), e1.party = e.party →
      ∃ c', (e1.advance A (.ok (.client c2, acts, x))).party = .client c' := by
    intro e1 c2 acts x h1
    rcases advance_party (A := A) e1 (.client c2) acts x with ⟨_, hp⟩ | ⟨_, hp⟩
    · exact ⟨c2, hp⟩
    · exact ⟨c, by rw [hp, h1, hc]⟩
  unfold End.turn
  split
  · rename_i ho
    split
    · rename_i s hs
      cases hn : s.next E e.x k with
      | ok r =>
        obtain ⟨w, acts, x'⟩ := r
        have hv : (e.setVersion (.client (.waitSH w))).out.version = 0x0303 := by
          simp only [End.setVersion, hs]
          rfl
        simp only [Res.bind_ok]
        obtain ⟨h1, _, _, h2⟩ := h.advance hA (p := .client (.waitSH w)) acts x' (fun _ => hv) (fun h => by cases h) (fun _ => rfl)
        rw [hv] at h2
        exact ⟨h1, party e _ _ _ rfl, h2⟩
      | err er => exact ⟨h.idle rfl rfl (fun h => by cases h), ⟨c, hc⟩, nothing⟩
      | panic => exact ⟨h.idle rfl rfl (fun h => by cases h), ⟨c, hc⟩, nothing⟩
      | diverge => exact ⟨h.idle rfl rfl (fun h => by cases h), ⟨c, hc⟩, nothing⟩
    · exact ⟨h, ⟨c, hc⟩, nothing⟩
    · exact ⟨h, ⟨c, hc⟩, nothing⟩
    · rename_i hns _ _
      have hf : e.party.fresh = false := by rw [hc]; exact fresh_client fun s hs => hns s (by rw [hc, hs])
      rcases readTurn_cases (E := E) (A := A) k e with ⟨e1, ev, p, acts, x, g1, g2, g3, g4, g5, g6, g7⟩ | ⟨g1, g2, g3, g4, g5⟩
      · rw [g7]
        have hw1 : Written e1 := h.idle g1 g3 (fun h => g5 ▸ h)
        have hv := setVersion_late hw1 (by rw [g3]; exact hf) p
        rw [hc] at g6
        simp only [HState.step, Res.bind_eq_ok, Res.ok.injEq, Prod.mk.injEq] at g6
        obtain ⟨⟨c2, a2, x2⟩, g6, rfl, rfl, rfl⟩ := g6
        have hp := fresh_client (client_notStart g6)
        obtain ⟨h1, _, _, h2⟩ := hw1.advance hA (p := .client c2) a2 x2 (fun _ => hv) (fun h => by rw [hp] at h; cases h) (fun _ => hp)
        rw [hv, g2] at h2
        exact ⟨h1, party e1 _ _ _ g3, h2⟩
      · rw [g2]
        exact ⟨h.idle g1 g3 g5, ⟨c, by rw [g3, hc]⟩, nothing⟩
  · exact ⟨h, ⟨c, hc⟩, nothing⟩

/-- A turn of a server. -/
theorem Written.serverTurn (hA : ∀ key, (A key).Lawful) {e : End} (h : Written e) {c : SState} (hc : e.party = .server c) (k : Coins) :
    Written (e.turn E A k) ∧ (∃ c', (e.turn E A k).party = .server c') ∧
      ∃ b, (e.turn E A k).wire = e.wire ++ b ∧ (TlsRecords 0x0303 b ∨
        (TlsRecords 0x0301 b ∧ e.party.fresh = true ∧ ∃ hrr, letterOf hrr = .helloRetryRequest ∧ (e.turn E A k).asked = e.asked ++ [hrr])) := by
  have nothing : ∃ b, e.wire = e.wire ++ b ∧ (TlsRecords 0x0303 b ∨ (TlsRecords 0x0301 b ∧ e.party.fresh = true ∧
      ∃ hrr, letterOf hrr = .helloRetryRequest ∧ (e.turn E A k).asked = e.asked ++ [hrr])) :=
    ⟨[], (List.append_nil _).symm, .inl (tlsRecords_nil _)⟩
  have party : ∀ (e1 : End) (c2 : SState) (acts : List Action) (x : Ctx), e1.party = e.party →
      ∃ c', (e1.advance A (.ok (.server c2, acts, x))).party = .server c' := by
    intro e1 c2 acts x h1
    rcases advance_party (A := A) e1 (.server c2) acts x with ⟨_, hp⟩ | ⟨_, hp⟩
    · exact ⟨c2, hp⟩
    · exact ⟨c, by rw [hp, h1, hc]⟩
  by_cases ho : e.outcome = .ok ()
  · by_cases hcon : ∃ s, c = .connected s
    · obtain ⟨s, rfl⟩ := hcon
      rw [turn_connected (E := E) (A := A) (.inr ⟨s, hc⟩) k] at nothing ⊢
      exact ⟨h, ⟨_, hc⟩, nothing⟩
    · have hturn := turn_server (E := E) (A := A) ho hc (fun s hs => hcon ⟨s, hs⟩) k
      rw [hturn] at nothing ⊢
      rcases readTurn_cases (E := E) (A := A) k e with ⟨e1, ev, p, acts, x, g1, g2, g3, g4, g5, g6, g7⟩ | ⟨g1, g2, g3, g4, g5⟩
      · rw [g7]
        have hw1 : Written e1 := h.idle g1 g3 (fun h => g5 ▸ h)
        rw [hc] at g6
        simp only [HState.step, Res.bind_eq_ok, Res.ok.injEq, Prod.mk.injEq] at g6
        obtain ⟨⟨c2, a2, x2⟩, g6, rfl, rfl, rfl⟩ := g6
        have hst := SState.step_ok g6
        by_cases hf : ∃ s, c = .start s
        · obtain ⟨s, rfl⟩ := hf
          rcases hst.fromStart with ⟨hrr, rfl, rfl, hl⟩ | hne
          · have hv : (e1.setVersion (.server (.start s))).out.version = 0x0301 := by
              simp only [End.setVersion, g3, hc]
              exact hw1.begun (g5.trans ho) (by rw [g3, hc]; rfl)
            obtain ⟨h1, _, _, b, h2, h3⟩ := hw1.advance hA (p := .server (.start s)) [.queue hrr, .sendQueued] x2 (fun h => by cases h) (fun _ => hv)
              (fun h => by rw [g3, hc] at h; cases h)
            rw [hv] at h3
            rw [g2] at h2
            refine ⟨h1, party e1 _ _ _ g3, b, h2, .inr ⟨h3, by rw [hc]; rfl, hrr, hl, ?_⟩⟩
            rw [advance_asked, g4]
            rfl
          · have hp := fresh_server hne
            have hv : (e1.setVersion (.server c2)).out.version = 0x0303 := by
              simp only [End.setVersion, g3, hc]
              cases c2 with
              | start s0 => exact absurd rfl (hne s0)
              | _ => rfl
            obtain ⟨h1, _, _, b, h2, h3⟩ := hw1.advance hA (p := .server c2) a2 x2 (fun _ => hv) (fun h => by rw [hp] at h; cases h) (fun _ => hp)
            rw [hv] at h3
            rw [g2] at h2
            exact ⟨h1, party e1 _ _ _ g3, b, h2, .inl h3⟩
        · have hf' : e.party.fresh = false := by rw [hc]; exact fresh_server fun s hs => hf ⟨s, hs⟩
          have hp : (HState.server c2).fresh = false := fresh_server fun s hs => hf ⟨s, hst.toStart hs⟩
          have hv := setVersion_late hw1 (by rw [g3]; exact hf') (.server c2)
          obtain ⟨h1, _, _, b, h2, h3⟩ := hw1.advance hA (p := .server c2) a2 x2 (fun _ => hv) (fun h => by rw [hp] at h; cases h) (fun _ => hp)
          rw [hv] at h3
          rw [g2] at h2
          exact ⟨h1, party e1 _ _ _ g3, b, h2, .inl h3⟩
      · rw [g2]
        exact ⟨h.idle g1 g3 g5, ⟨c, by rw [g3, hc]⟩, nothing⟩
  · have hturn : e.turn E A k = e := by
      unfold End.turn
      split
      · rename_i h
        exact absurd h ho
      · rfl
    rw [hturn] at nothing ⊢
    exact ⟨h, ⟨c, hc⟩, nothing⟩

/-- Both ends, after any moves. -/
theorem written_run (hA : ∀ key, (A key).Lawful) (ms : List Move) {N : Net} (h : Written N.client) (h' : Written N.server)
    (hc : ∃ c, N.client.party = .client c) (hs : ∃ s, N.server.party = .server s) :
    Written (N.run E A ms).client ∧ Written (N.run E A ms).server ∧ (∃ c, (N.run E A ms).client.party = .client c) ∧
      ∃ s, (N.run E A ms).server.party = .server s := by
  induction ms generalizing N with
  | nil => exact ⟨h, h', hc, hs⟩
  | cons m ms ih =>
    obtain ⟨c, hc⟩ := hc
    obtain ⟨s, hs⟩ := hs
    refine ih (N := N.move E A m) ?_ ?_ ?_ ?_
    · cases m with
      | client k => exact (h.clientTurn hA hc k).1
      | _ => exact h.idle rfl rfl id
    · cases m with
      | server k => exact (h'.serverTurn hA hs k).1
      | _ => exact h'.idle rfl rfl id
    · cases m with
      | client k => exact (h.clientTurn hA hc k).2.1
      | _ => exact ⟨c, hc⟩
    · cases m with
      | server k => exact (h'.serverTurn hA hs k).2.1
      | _ => exact ⟨s, hs⟩

/-- An established connection. -/
theorem liveRecords_stable {W : World} (hA : W.Lawful) (v : Nat) :
    Stable W fun c => Layer c.out ∧ c.out.version = v ∧ TlsRecords v c.wire where
  record c ct f ht h := by
    obtain ⟨h1, h2, h3⟩ := h
    unfold Live.writeRecord
    split
    · rename_i rec k hw
      obtain ⟨g1, g2, g3⟩ := h1.write_records ht hw
      rw [h2] at g2 g3
      split
      · exact ⟨g1, g2, h3⟩
      · exact ⟨g1, g2, h3.append g3⟩
    all_goals exact ⟨h1, h2, h3⟩
  close c h := h
  rekey c e key iv h := ⟨h.1.rekey e (hA _ key) iv, h.2⟩
  other c c' h1 h2 h3 h4 h := by rw [h3, h2]; exact h

end Verif.Conn
