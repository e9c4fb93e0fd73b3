import Verif.Conn.Sturdy
import Verif.Spec.Arrivals
import Verif.Machine.Wire
import Verif.Props.HandshakeRead

/-
No transport makes a call of Handshake panic, but for named reasons.
-/

namespace Verif.Conn

open Verif Verif.Crypto Verif.Messages Verif.Negotiation Verif.Handshake Verif.Machine Verif.Spec Verif.Record

/-! ### The keys that states install -/

/-- A cipher suite whose keys the record layer can use. -/
def Wide (p : Params) : Prop := 0 < p.hash.size ∧ 8 ≤ p.ivLen

theorem suite_wide {n : Nat} {p : Params} (h : suiteParams n = some p) : Wide p :=
  ⟨suiteParams_size h, by rw [suiteParams_iv h]; decide⟩

/-- An action with keys that the record layer can use. -/
def keyed : Action → Prop
  | .rekeyIn _ k => 8 ≤ k.2.length
  | .rekeyOut _ k => 8 ≤ k.2.length
  | _ => True

theorem keyed_of_sound {a : Action} (h : soundAct a) : keyed a := by
  cases a <;> first | exact h | trivial

theorem Wide.keys {P : Prims} (hP : P.Sized) {p : Params} (h : Wide p) {s : Bytes} {k : Machine.Keys} (hk : makeTrafficKeys P p s = .ok k) :
    8 ≤ k.2.length := trafficKeys_iv hP h.1 h.2 hk

def CWide : CState → Prop
  | .start _ => True
  | .waitSH _ => True
  | .waitEE s => Wide s.sec.cp
  | .waitCertCR s => Wide s.sec.cp
  | .waitCert s => Wide s.sec.cp
  | .waitCV s => Wide s.sec.cp
  | .waitFinished s => Wide s.sec.cp
  | .connected s => Wide s.cp

def SWide : SState → Prop
  | .start _ => True
  | .negotiated _ => True
  | .waitEOED s => Wide s.sec.cp
  | .readPast => True
  | .waitFlight2 s => Wide s.sec.cp
  | .waitCert s => Wide s.sec.cp
  | .waitCV s => Wide s.sec.cp
  | .waitFinished s => Wide s.sec.cp
  | .connected s => Wide s.cp

theorem start_keyed {E : Env} (hP : E.P.Sized) {x x' : Ctx} {c : Coins} {s : CStart} {w : CWaitSH} {acts : List Action}
    (h : s.next E x c = .ok (w, acts, x')) : ∀ a ∈ acts, keyed a := by
  obtain ⟨_, _, _, _, _, _, ⟨_, o, _, ho, _, rfl, _⟩ | ⟨_, _, _, _, rfl⟩⟩ := CStart.next_ok h
  · obtain ⟨p, _, _, _, _, _, _, _, hp, _, _, _, _, _, _, _, _, _, _, _, hk⟩ := offerPsk_ok ho
    have := (suite_wide hp).keys hP hk
    intro a ha
    split at ha <;> simp at ha <;> rcases ha with rfl | rfl | rfl <;> trivial
  · intro a ha
    simp at ha
    rcases ha with rfl | rfl <;> trivial

theorem CWide.step {E : Env} (hP : E.P.Sized) {x x' : Ctx} {c : Coins} {s s' : CState} {e : Event} {acts : List Action} (h : CWide s)
    (hs : s.step E x c e = .ok (s', acts, x')) : CWide s' ∧ ∀ a ∈ acts, keyed a := by
  cases CState.step_ok hs with
  | retry w m hrr st w' acts x' check random handle start =>
    refine ⟨trivial, fun a ha => ?_⟩
    simp only [List.cons_append, List.nil_append, List.mem_cons] at ha
    rcases ha with rfl | ha
    · trivial
    · exact start_keyed hP start a ha
  | hello w m sh e acts x' check random handle =>
    obtain ⟨_, _, _, p, _, _, _, _, _, hp, _, h1, h2, rfl, rfl, _⟩ := handleHello_ok handle
    have hw := suite_wide hp
    refine ⟨hw, fun a ha => ?_⟩
    split at ha <;> simp at ha
    · rcases ha with rfl | rfl
      · exact hw.keys hP h1
      · exact hw.keys hP h2
    · subst ha; exact hw.keys hP h1
  | ee s m s' acts x' next =>
    obtain ⟨_, exts, found, keys, _, _, hk, rfl, _, ⟨_, rfl⟩ | ⟨_, rfl⟩⟩ := CWaitEE.next_ok next
    all_goals
      refine ⟨h, fun a ha => ?_⟩
      split at ha <;> simp at ha
      subst ha
      exact Wide.keys hP h hk
  | certCR s m s' acts x' next =>
    obtain ⟨rfl, _, ⟨c, _, _, rfl⟩ | ⟨r, _, _, _, rfl⟩⟩ := CWaitEE.nextCertCR_ok next <;> exact ⟨h, by simp⟩
  | cert s m s' acts x' next =>
    obtain ⟨_, rfl, _, c, hc, rfl⟩ := CWaitCert.next_ok next
    exact ⟨h, by simp⟩
  | cv s m s' acts x' next =>
    obtain ⟨_, rfl, _, _, _, _, _, _, _, _, rfl⟩ := CWaitCV.next_ok next
    exact ⟨h, by simp⟩
  | finished s m s' acts x' next =>
    obtain ⟨_, _, _, _, ck, sk, acts1, _, _, acts2, _, _, _, _, _, _, _, _, _, h1, h2, he, ha2, _, _, _, rfl, rfl⟩ := CWaitFinished.next_ok next
    refine ⟨h, fun a ha => ?_⟩
    simp only [List.mem_append, List.mem_cons, List.not_mem_nil, or_false] at ha
    rcases ha with (ha | ha) | rfl | rfl | rfl | rfl
    · rcases clientEOED_ok he with ⟨_, rfl, _⟩ | ⟨_, m, keys, _, hk, rfl, _⟩
      · simp at ha
      · simp at ha
        rcases ha with rfl | rfl
        · trivial
        · exact Wide.keys hP h hk
    · rcases clientAuth_ok ha2 with ⟨_, rfl, _⟩ | ⟨_, _, _, _, _, ⟨_, _, _, _, rfl, _⟩ | ⟨_, _, _, _, _, _, _, _, _, _, rfl, _⟩⟩ <;> simp at ha
      · subst ha; trivial
      · rcases ha with rfl | rfl <;> trivial
    · trivial
    · trivial
    · exact Wide.keys hP h h2
    · exact Wide.keys hP h h1
  | post s m s' acts x' next =>
    obtain ⟨h1, h2⟩ := process_soundAct hP h.1 h.2 next
    exact ⟨by show Wide s'.cp; rw [h1]; exact h, fun a ha => keyed_of_sound (h2 a ha)⟩
  | data s d => exact ⟨h, by simp⟩

theorem SWide.settle {s : SState} (h : SWide s) : SWide s.settle := by
  cases s with
  | waitFlight2 s => simp only [SState.settle, SWait.nextFlight2]; split <;> exact h
  | _ => exact h

theorem queues_keyed {x x' : Ctx} {s : SNegotiated} {E : Env} {hid : HashId} {t t' : Bytes} {acts : List Action}
    (h : serverAuth E x s hid t = .ok (acts, t', x')) : ∀ a ∈ acts, keyed a := by
  rcases serverAuth_ok h with ⟨_, rfl, _⟩ | ⟨_, acts1, _, _, _, m, _, _, mv, hr, _, _, _, _, rfl, _⟩
  · simp
  · intro a ha
    simp only [List.mem_append, List.mem_cons, List.not_mem_nil, or_false] at ha
    rcases ha with ha | rfl | rfl
    · simp only [serverRequest] at hr
      split at hr
      · simp only [Res.bind_eq_ok, orAlert_ok, Res.ok.injEq, Prod.mk.injEq] at hr
        obtain ⟨_, _, _, _, rfl, _⟩ := hr
        simp at ha
        subst ha; trivial
      · simp only [Res.ok.injEq, Prod.mk.injEq] at hr
        obtain ⟨rfl, _⟩ := hr
        simp at ha
    · trivial
    · trivial

theorem SWide.step {E : Env} (hP : E.P.Sized) {x x' : Ctx} {c : Coins} {s s' : SState} {e : Event} {acts : List Action} (h : SWide s)
    (hs : s.step E x c e = .ok (s', acts, x')) : SWide s' ∧ ∀ a ∈ acts, keyed a := by
  cases SState.step_ok hs with
  | skip => exact ⟨trivial, by simp⟩
  | early s d => exact ⟨h, by simp⟩
  | retry s m hrr x' next =>
    refine ⟨trivial, fun a ha => ?_⟩
    simp at ha
    rcases ha with rfl | rfl <;> trivial
  | hello s m n x1 s' acts x2 next neg =>
    obtain ⟨f, _, hc⟩ := SNegotiated.next_ok neg
    have hw := suite_wide f.suiteOk
    have hsent : ∀ a ∈ f.sent, keyed a := by
      intro a ha
      simp only [NegFacts.sent, List.mem_append, List.mem_cons, List.not_mem_nil, or_false] at ha
      rcases ha with ((rfl | rfl | rfl) | ha) | rfl | rfl | rfl
      · trivial
      · exact hw.keys hP f.serverKeysOk
      · trivial
      · exact queues_keyed f.authOk a ha
      · trivial
      · trivial
      · exact hw.keys hP f.apKeysOk
    have key : ∀ {n : Nat} {s : Bytes} {k : Machine.Keys}, makeTrafficKeys E.P f.p s = .ok k → ∀ a ∈ f.sent ++ [.rekeyIn n k], keyed a := by
      intro n s k hk a ha
      rcases List.mem_append.1 ha with ha | ha
      · exact hsent a ha
      · simp at ha; subst ha; exact hw.keys hP hk
    rcases hc with ⟨_, keys, hk, rfl, rfl⟩ | ⟨_, _, rfl, rfl⟩ | ⟨_, _, rfl, rfl⟩
    · exact ⟨SWide.settle (s := .waitEOED f.wait) hw, key hk⟩
    · exact ⟨trivial, key f.clientKeysOk⟩
    · exact ⟨SWide.settle (s := .waitFlight2 f.wait) hw, key f.clientKeysOk⟩
  | eoed s m s' acts x' next =>
    obtain ⟨_, _, _, _, hk, rfl, rfl⟩ := SWait.nextEOED_ok next
    refine ⟨SWide.settle (s := .waitFlight2 _) h, fun a ha => ?_⟩
    simp at ha
    subst ha
    exact Wide.keys hP h hk
  | cert s m s' acts x' next =>
    obtain ⟨_, rfl, _, c, hc, ⟨_, rfl⟩ | ⟨hne, rfl⟩⟩ := SWait.nextCert_ok next <;> exact ⟨h, by simp⟩
  | cv s m s' acts x' next =>
    obtain ⟨_, rfl, _, _, _, _, _, _, _, rfl⟩ := SWaitCV.next_ok next
    exact ⟨h, by simp⟩
  | finished s m s' acts x' next =>
    obtain ⟨_, _, _, _, _, _, _, _, _, _, hk, rfl, rfl⟩ := SWaitFinished.next_ok next
    refine ⟨h, fun a ha => ?_⟩
    simp at ha
    subst ha
    exact Wide.keys hP h hk
  | post s m s' acts x' next =>
    obtain ⟨h1, h2⟩ := process_soundAct hP h.1 h.2 next
    exact ⟨by show Wide s'.cp; rw [h1]; exact h, fun a ha => keyed_of_sound (h2 a ha)⟩
  | data s d => exact ⟨h, by simp⟩

/-! ### Reading records -/

/-- A reader that cannot panic until its numbers are used up. -/
structure Calm (A : Bytes → Aead) (r : Reader) : Prop where
  inv : r.Inv
  dir : r.keys.direction = .read
  cur : ∀ a, (r.keys.heap r.keys.cur).aead = some a → (∃ key, a = A key) ∧ 8 ≤ (r.keys.heap r.keys.cur).iv.length
  known : ∀ e i, (e, i) ∈ r.keys.readCiphers → (r.keys.heap i).aead.isSome → (r.keys.heap r.keys.cur).aead.isSome

theorem Calm.next {A : Bytes → Aead} (nz : ∀ key nonce c h p, (A key).opening nonce c h = some p → ∃ b ∈ p, b ≠ 0) {r : Reader}
    (h : Calm A r) (any : Bool) :
    Calm A (nextRecord r any).2 ∧ ((nextRecord r any).1.Safe ∨ Worn (nextRecord r any).2.keys) ∧
    (∀ pt, (nextRecord r any).1 = .ok pt → (nextRecord r any).2.cached = some pt) := by
  have sound : ¬ Worn r.keys → r.keys.Sound 1 := by
    intro hn
    refine ⟨h.dir, fun a ha => (h.cur a ha).2, ?_, h.known, ?_⟩
    · intro a ha
      obtain ⟨⟨key, rfl⟩, _⟩ := h.cur a ha
      exact nz key
    · intro i
      have : ¬ 2 ^ 48 - 1 ≤ (r.keys.heap i).seq := fun hh => hn ⟨i, hh⟩
      omega
  cases hc : r.cached with
  | some pt =>
    have e : nextRecord r any = (.ok pt, r) := by simp [nextRecord, hc]
    rw [e]
    exact ⟨h, Or.inl trivial, fun pt' hp => by cases hp; exact hc⟩
  | none =>
    obtain ⟨h1, -, -, h4⟩ := nextRecord_spec r any h.inv hc
    rcases h4 with ⟨hd, b, fs, -, -, ⟨pt, k, ho, e6, e7, e8⟩ | ⟨hno, e6, e7, -⟩⟩ | ⟨e, e0, ek, -⟩
    · refine ⟨⟨h1, ?_, ?_, ?_⟩, Or.inl (by rw [e6]; trivial), fun pt' hp => by rw [e6] at hp; cases hp; exact e8⟩
      all_goals
        rw [e7]
        obtain ⟨i, seq, -, -, -, -, rfl, -⟩ := openRecord_ok ho
      · exact h.dir
      · intro a ha
        simp only [upd] at ha ⊢
        split at ha <;> rename_i hi
        · rw [if_pos hi]; dsimp only at ha ⊢; rw [← hi] at ha ⊢; exact h.cur a ha
        · rw [if_neg hi]; exact h.cur a ha
      · intro e' j hj hs
        have hs' : (r.keys.heap j).aead.isSome := by
          simp only [upd] at hs
          split at hs <;> rename_i hi
          · rw [hi]; exact hs
          · exact hs
        have := h.known e' j hj hs'
        simp only [upd]
        split
        · rename_i hi; rw [← hi]; exact this
        · exact this
    · refine ⟨⟨h1, ?_, ?_, ?_⟩, ?_, fun pt hp => ?_⟩
      · rw [e7]; exact h.dir
      · rw [e7]; exact h.cur
      · rw [e7]; exact h.known
      · rw [e6, e7]
        by_cases hw : Worn r.keys
        · exact Or.inr hw
        · exact Or.inl (Res.safe_bind (openRecord_safe _ 0 (sound hw) _ _ _) fun _ _ => trivial)
      · rw [e6, Res.bind_eq_ok] at hp
        obtain ⟨x, hx, _⟩ := hp
        exact absurd hx (hno x)
    · refine ⟨⟨h1, ?_, ?_, ?_⟩, Or.inl (by rw [e0]; trivial), fun pt hp => by rw [e0] at hp; cases hp⟩
      · rw [ek]; exact h.dir
      · rw [ek]; exact h.cur
      · rw [ek]; exact h.known

theorem Calm.uncache {A : Bytes → Aead} {r : Reader} (h : Calm A r) : Calm A { r with cached := none } := ⟨h.inv, h.dir, h.cur, h.known⟩

theorem Calm.more {A : Bytes → Aead} {r : Reader} (h : Calm A r) (c : List (Except Err Bytes)) : Calm A { r with conn := r.conn ++ c } :=
  ⟨h.inv, h.dir, h.cur, h.known⟩

theorem Calm.rekey {A : Bytes → Aead} {r : Reader} (h : Calm A r) {n : Nat} {key iv : Bytes} (hiv : 8 ≤ iv.length) :
    Calm A { r with keys := r.keys.rekey n (A key) iv } := by
  refine ⟨h.inv, h.dir, fun a ha => ?_, fun e i _ _ => ?_⟩
  · simp only [Record.Keys.rekey, upd_same, Option.some.injEq] at ha ⊢
    exact ⟨⟨key, ha.symm⟩, hiv⟩
  · simp [Record.Keys.rekey]

theorem calm_new (A : Bytes → Aead) : Calm A (Reader.new false []) := by
  refine ⟨FrameReader.inv_new _, rfl, ?_, ?_⟩
  · intro a ha; simp [Reader.new, Record.Keys.new, nullCipher] at ha
  · intro e i _ hs; simp [Reader.new, Record.Keys.new, nullCipher] at hs

/-- Reading a record after looking at its type. -/
theorem read_peeked {A : Bytes → Aead} (nz : ∀ key nonce c h p, (A key).opening nonce c h = some p → ∃ b ∈ p, b ≠ 0) {r r' : Reader}
    (h : Calm A r) {t : UInt8} (hp : peekType r = (.ok t, r')) : readRecord r' false = readRecord r false := by
  unfold peekType at hp
  dsimp only at hp
  obtain ⟨_, _, hc⟩ := h.next nz false
  rcases hn : nextRecord r false with ⟨x, s⟩
  rw [hn] at hp hc
  simp only [Prod.mk.injEq, Res.bind_eq_ok] at hp
  obtain ⟨⟨pt, rfl, _⟩, rfl⟩ := hp
  have hc := hc pt rfl
  unfold readRecord
  have : nextRecord s false = (.ok pt, s) := by dsimp only at hc; simp [nextRecord, hc]
  rw [this, hn]

/-! ### The handshake layer -/

/-- The handshake layer of a TLS connection, between messages. -/
structure Tls (h : HsIn) : Prop where
  tls : h.datagram = false
  nonblocking : h.nonblocking = true
  queue : h.queued = []
  inv : h.frame.Inv (hsFraming false)

theorem Tls.frame {h h' : HsIn} (t : Tls h) {r : Option (Res (Option Msg))} (hp : h.processFrame = (r, h')) :
    Tls h' ∧ ∀ x, r = some x → x.Safe ∧ x ≠ .ok none := by
  have hi : h.frame.Inv (hsFraming h.datagram) := by rw [t.tls]; exact t.inv
  cases r with
  | none =>
    obtain ⟨f, rfl, hf, _⟩ := HsIn.processFrame_none hi hp
    exact ⟨⟨t.tls, t.nonblocking, t.queue, by rw [← t.tls]; exact hf⟩, fun _ h => by cases h⟩
  | some x =>
    obtain ⟨f, hf, ⟨e, rfl, rfl, _⟩ | ⟨hdr, body, rfl, rfl, _⟩⟩ := HsIn.processFrame_some hi hp
    · exact ⟨⟨t.tls, t.nonblocking, t.queue, by rw [← t.tls]; exact hf⟩, fun _ h => by cases h; exact ⟨trivial, by simp⟩⟩
    · simp only [HsIn.deliver, t.tls, Bool.false_eq_true, if_false]
      rw [t.tls] at hf
      exact ⟨⟨rfl, t.nonblocking, t.queue, hf⟩, fun _ h => by cases h; exact ⟨trivial, by simp⟩⟩

theorem Tls.read {h : HsIn} (t : Tls h) {feed : Feed} (ha : AlertsWhole feed) :
    Tls (h.readMessage (fun _ => .ok ()) feed).2.1 ∧ (h.readMessage (fun _ => .ok ()) feed).1.Safe ∧
    (h.readMessage (fun _ => .ok ()) feed).1 ≠ .ok none := by
  have hc : h.check = (.ok none, h) := by unfold HsIn.check; rw [t.queue]
  unfold HsIn.readMessage
  rw [hc]
  dsimp only
  rw [show 2 * feed.length + 2 = (2 * feed.length + 1) + 1 from rfl]
  unfold HsIn.readLoop
  dsimp only
  split
  · cases feed with
    | nil => exact ⟨t, trivial, by simp⟩
    | cons r feed =>
      dsimp only
      have hs := HsIn.readRecord_safe (onAck := fun _ => .ok ()) (fun _ => trivial) h r fun pt hm h21 => ha pt (by simp at hm; simp [hm]) h21
      cases hr : h.readRecord (fun _ => .ok ()) r with
      | ok h' =>
        have hpar := HsIn.readRecord_inv hr
        have t' : Tls h' := ⟨hpar.1.trans t.tls, hpar.2.1.trans t.nonblocking, hpar.2.2.2.2.1.trans t.queue, hpar.2.2.2.2.2 _ t.inv⟩
        dsimp only
        rcases hp : h'.processFrame with ⟨x, h''⟩
        obtain ⟨h1, h2⟩ := t'.frame hp
        cases x with
        | some x => exact ⟨h1, h2 x rfl⟩
        | none => dsimp only; rw [if_pos t'.nonblocking]; exact ⟨h1, trivial, by simp⟩
      | err e => dsimp only; rw [if_pos (.inl t.nonblocking)]; exact ⟨t, trivial, by simp⟩
      | panic => rw [hr] at hs; cases hs
      | diverge => rw [hr] at hs; cases hs
  · rcases hp : h.processFrame with ⟨x, h''⟩
    obtain ⟨h1, h2⟩ := t.frame hp
    cases x with
    | some x => exact ⟨h1, h2 x rfl⟩
    | none => dsimp only; rw [if_pos t.nonblocking]; exact ⟨h1, trivial, by simp⟩

/-! ### Ends -/

/-- An end that no transport makes panic, its state machine aside. -/
structure Steady (A : Bytes → Aead) (e : End) : Prop where
  reader : Calm A e.reader
  out : WriterOk e.out
  hs : Tls e.hs

/-- One of the counters of records is used up. -/
def End.Spent (e : End) : Prop := Worn e.reader.keys ∨ Worn e.out

theorem Steady.parse {A : Bytes → Aead} {e : End} (h : Steady A e) {feed : Feed} (ha : AlertsWhole feed) :
    (∃ s, (e.parse feed).2 = { e with hs := s } ∧ Tls s) ∧ (e.parse feed).1.Safe := by
  obtain ⟨h1, h2, h3⟩ := h.hs.read ha
  unfold End.parse
  split <;> (rename_i heq; rw [heq] at h1 h2 h3)
  · exact ⟨⟨_, rfl, h1⟩, trivial⟩
  · exact absurd rfl h3
  · exact ⟨⟨_, rfl, h1⟩, trivial⟩
  · exact ⟨⟨_, rfl, h1⟩, trivial⟩
  · cases h2
  · cases h2

variable {A : Bytes → Aead} (nz : ∀ key nonce c h p, (A key).opening nonce c h = some p → ∃ b ∈ p, b ≠ 0)
include nz

theorem Calm.read {r : Reader} (h : Calm A r) :
    Calm A (readRecord r false).2 ∧ ((readRecord r false).1.Safe ∨ Worn (readRecord r false).2.keys) := by
  obtain ⟨h1, h2, _⟩ := h.next nz false
  exact ⟨h1.uncache, h2⟩

/-- The record that is read next has an alert of two bytes, if any. -/
def NextWhole (e : End) : Prop := ∀ pt, e.hs.frame.needed > 0 → (readRecord e.reader false).1 = .ok pt → WholeAlert pt

theorem Steady.readMessage {e : End} (h : Steady A e) (hw : NextWhole e) :
    (∃ r s, e.readMessage.2 = { e with reader := r, hs := s } ∧ Calm A r ∧ Tls s ∧ (e.readMessage.1.Safe ∨ Worn r.keys)) := by
  unfold End.readMessage
  split
  · rename_i hn
    obtain ⟨h1, h2⟩ := h.reader.read nz
    split <;> (rename_i heq; rw [heq] at h1 h2)
    · rename_i pt r
      obtain ⟨⟨s, h3, h4⟩, h5⟩ := Steady.parse (e := { e with reader := r }) ⟨h1, h.out, h.hs⟩ (feed := [.ok pt]) (by
        intro pt' hm
        simp at hm
        subst hm
        exact hw pt' hn (by rw [heq]))
      exact ⟨r, s, h3, h1, h4, Or.inl h5⟩
    · rename_i er r
      obtain ⟨⟨s, h3, h4⟩, h5⟩ := Steady.parse (e := { e with reader := r }) ⟨h1, h.out, h.hs⟩ (feed := [.error er]) (by
        intro pt' hm
        simp at hm)
      exact ⟨r, s, h3, h1, h4, Or.inl h5⟩
    · exact ⟨_, e.hs, rfl, h1, h.hs, Or.inr (h2.resolve_left id)⟩
    · exact ⟨_, e.hs, rfl, h1, h.hs, Or.inr (h2.resolve_left id)⟩
  · obtain ⟨⟨s, h3, h4⟩, h5⟩ := h.parse (feed := []) (by intro pt hm; simp at hm)
    exact ⟨e.reader, s, h3, h.reader, h4, Or.inl h5⟩

theorem Steady.receive {e : End} (h : Steady A e) (hw : NextWhole e) :
    (∃ r s, e.receive.2 = { e with reader := r, hs := s } ∧ Calm A r ∧ Tls s ∧ (e.receive.1.Safe ∨ Worn r.keys)) := by
  unfold End.receive
  split
  · obtain ⟨h1, h2, _⟩ := h.reader.next nz false
    split <;> rename_i heq
    · rename_i t r
      have hpeek := read_peeked nz h.reader heq
      have hr : (nextRecord e.reader false).2 = r := by rw [show r = (peekType e.reader).2 by rw [heq]]; rfl
      rw [hr] at h1
      split
      · obtain ⟨h3, h4⟩ := h1.read nz
        split <;> (rename_i heq'; rw [heq'] at h3 h4)
        · exact ⟨_, e.hs, rfl, h3, h.hs, Or.inl trivial⟩
        · exact ⟨_, e.hs, rfl, h3, h.hs, Or.inl trivial⟩
        · exact ⟨_, e.hs, rfl, h3, h.hs, Or.inr (h4.resolve_left id)⟩
        · exact ⟨_, e.hs, rfl, h3, h.hs, Or.inr (h4.resolve_left id)⟩
      · have hm := Steady.readMessage nz (e := { e with reader := r }) ⟨h1, h.out, h.hs⟩ (by
          intro pt hn hp
          rw [hpeek] at hp
          exact hw pt hn hp)
        split
        · rename_i e' heq'
          rw [heq'] at hm
          obtain ⟨r', s, h3, h4, h5, _⟩ := hm
          exact ⟨r', s, h3, h4, h5, Or.inl trivial⟩
        · exact hm
    all_goals
      rename_i r
      have hr : (nextRecord e.reader false).2 = r := by rw [show r = (peekType e.reader).2 by rw [heq]]; rfl
      rw [hr] at h1 h2
    · exact ⟨_, e.hs, rfl, h1, h.hs, Or.inl trivial⟩
    · refine ⟨_, e.hs, rfl, h1, h.hs, Or.inr (h2.resolve_left fun hs => ?_)⟩
      have : (peekType e.reader).1.Safe := Res.safe_bind hs fun _ _ => trivial
      rw [heq] at this
      exact this
    · refine ⟨_, e.hs, rfl, h1, h.hs, Or.inr (h2.resolve_left fun hs => ?_)⟩
      have : (peekType e.reader).1.Safe := Res.safe_bind hs fun _ _ => trivial
      rw [heq] at this
      exact this
  · exact h.readMessage nz hw

omit nz

theorem Steady.writeAll (fs : List Bytes) {e : End} (h : Steady A e) (ho : e.outcome = .ok ()) :
    Steady A (e.writeAll fs) ∧ ((e.writeAll fs).outcome.Safe ∨ (e.writeAll fs).Spent) := by
  induction fs generalizing e with
  | nil => exact ⟨h, Or.inl (by rw [End.writeAll, ho]; trivial)⟩
  | cons f fs ih =>
    obtain ⟨h1, h2⟩ := writeRecord_fine h.out e.out.cur 22 f
    unfold End.writeAll
    split <;> (rename_i heq; rw [heq] at h1)
    · rename_i rec k
      exact ih (e := { e with out := k, wire := e.wire ++ rec }) ⟨h.reader, (h2 rec k heq).1, h.hs⟩ ho
    · exact ⟨⟨h.reader, h.out, h.hs⟩, Or.inl trivial⟩
    · exact ⟨⟨h.reader, h.out, h.hs⟩, Or.inr (Or.inr ⟨_, h1.resolve_left id⟩)⟩
    · exact ⟨⟨h.reader, h.out, h.hs⟩, Or.inr (Or.inr ⟨_, h1.resolve_left id⟩)⟩

theorem Steady.act {e : End} (h : Steady A e) (ho : e.outcome = .ok ()) (a : Action) (ha : keyed a) :
    Steady A (e.act A a) ∧ ((e.act A a).outcome.Safe ∨ (e.act A a).Spent) := by
  have safe : e.outcome.Safe := by rw [ho]; trivial
  cases a with
  | queue m =>
    simp only [End.act, tlsWrite]
    by_cases hl : m.body.length > 2 ^ 24
    · rw [if_pos hl]; exact ⟨⟨h.reader, h.out, h.hs⟩, Or.inl trivial⟩
    · rw [if_neg hl, if_neg (by decide)]
      exact h.writeAll _ ho
  | sendQueued => exact ⟨h, Or.inl safe⟩
  | rekeyIn n k =>
    simp only [End.act, HsIn.rekeyIn]
    split
    · rename_i s heq
      split at heq
      · cases heq
      · cases heq
        exact ⟨⟨h.reader.rekey ha, h.out, ⟨h.hs.tls, h.hs.nonblocking, h.hs.queue, h.hs.inv⟩⟩, Or.inl safe⟩
    · exact ⟨⟨h.reader, h.out, h.hs⟩, Or.inl trivial⟩
    · rename_i heq; split at heq <;> cases heq
    · rename_i heq; split at heq <;> cases heq
  | rekeyOut n k => exact ⟨⟨h.reader, h.out.rekey ha, h.hs⟩, Or.inl safe⟩
  | resetOut n =>
    refine ⟨⟨h.reader, ⟨h.out.dir, h.out.version, fun i hi => ?_⟩, h.hs⟩, Or.inl safe⟩
    simp only [End.act, Record.Keys.resetClear, upd] at hi ⊢
    split at hi <;> rename_i he
    · simp [nullCipher] at hi
    · rw [if_neg he]; exact h.out.iv i hi
  | storePsk p => exact ⟨h, Or.inl safe⟩

theorem Steady.perform (as : List Action) {e : End} (h : Steady A e) (ho : e.outcome = .ok ()) (ha : ∀ a ∈ as, keyed a) :
    Steady A (e.perform A as) ∧ ((e.perform A as).outcome.Safe ∨ (e.perform A as).Spent) := by
  induction as generalizing e with
  | nil => exact ⟨h, Or.inl (by rw [End.perform, ho]; trivial)⟩
  | cons a as ih =>
    obtain ⟨h1, h2⟩ := h.act ho a (ha a (by simp))
    unfold End.perform
    split
    · rename_i u heq
      exact ih h1 heq fun b hb => ha b (by simp [hb])
    · exact ⟨h1, h2⟩

/-- It does not panic; if `strict`, it comes to an end. -/
def Returns (strict : Bool) {α : Type} (r : Res α) : Prop := r ≠ .panic ∧ (strict = true → r ≠ .diverge)

theorem returns_of_safe {strict : Bool} {α : Type} {r : Res α} (h : r.Safe) : Returns strict r :=
  ⟨by rintro rfl; exact h, fun _ => by rintro rfl; exact h⟩

theorem Steady.setVersion {e : End} (h : Steady A e) (p : HState) : Steady A (e.setVersion p) := by
  unfold End.setVersion
  split
  · exact ⟨h.reader, ⟨h.out.dir, fun _ => rfl, h.out.iv⟩, h.hs⟩
  · exact h

theorem setVersion_outcome (e : End) (p : HState) : (e.setVersion p).outcome = e.outcome := by
  unfold End.setVersion; split <;> rfl

theorem Steady.advance {strict : Bool} {e : End} (h : Steady A e) (ho : e.outcome = .ok ()) {r : Res (HState × List Action × Ctx)}
    (hr : Returns strict r) (hk : ∀ p acts x, r = .ok (p, acts, x) → ∀ a ∈ acts, keyed a) :
    Steady A (e.advance A r) ∧ (Returns strict (e.advance A r).outcome ∨ (e.advance A r).Spent) ∧
    ((e.advance A r).outcome = .ok () → ∃ p acts x, r = .ok (p, acts, x) ∧ (e.advance A r).party = p) := by
  unfold End.advance
  split
  · rename_i p acts x
    have hs := h.setVersion p
    obtain ⟨h1, h2⟩ := Steady.perform acts (e := { e.setVersion p with x := x, asked := e.asked ++ sent acts })
      ⟨hs.reader, hs.out, hs.hs⟩ ((setVersion_outcome e p).trans ho) (hk p acts x rfl)
    have h2 := h2.imp_left (returns_of_safe (strict := strict))
    split
    · exact ⟨⟨h1.reader, h1.out, h1.hs⟩, h2, fun _ => ⟨p, acts, x, rfl, rfl⟩⟩
    · rename_i hno
      exact ⟨h1, h2, fun hh => absurd hh (hno ())⟩
  · exact ⟨⟨h.reader, h.out, h.hs⟩, Or.inl (returns_of_safe trivial), fun hh => by cases hh⟩
  · exact absurd rfl hr.1
  · refine ⟨⟨h.reader, h.out, h.hs⟩, Or.inl ⟨by simp, fun hs => absurd rfl (hr.2 hs)⟩, fun hh => by cases hh⟩

/-! ### Calls of Handshake -/

/-- The states of one side: those it can be in (`Good`) before a call, and what is to be expected of the messages it reads. -/
structure Side (E : Env) (strict : Bool) where
  Good : HState → Prop
  Fit : Msg → Prop
  Luck : Coins → Prop
  start : ∀ {s : CStart} {x : Ctx} {c : Coins}, Good (.client (.start s)) →
    (s.next E x c).Safe ∧ ∀ w acts x', s.next E x c = .ok (w, acts, x') → Good (.client (.waitSH w)) ∧ ∀ a ∈ acts, keyed a
  step : ∀ {p : HState} {x : Ctx} {c : Coins} {ev : Event}, Good p → (∀ s, p ≠ .client (.start s)) → (∀ m, ev = .msg m → Fit m) → Luck c →
    Returns strict (p.step E x c ev) ∧ ∀ p' acts x', p.step E x c ev = .ok (p', acts, x') → Good p' ∧ ∀ a ∈ acts, keyed a

/-- An end between calls. -/
structure Sturdy {E : Env} {strict : Bool} (S : Side E strict) (A : Bytes → Aead) (e : End) : Prop where
  steady : Steady A e
  good : e.outcome = .ok () → S.Good e.party
  returns : Returns strict e.outcome ∨ e.Spent

variable {E : Env} {strict : Bool} {S : Side E strict}

theorem Sturdy.advance {e' : End} (hs : Steady A e') (ho : e'.outcome = .ok ())
    {r : Res (HState × List Action × Ctx)} (hr : Returns strict r)
    (hk : ∀ p acts x, r = .ok (p, acts, x) → S.Good p ∧ ∀ a ∈ acts, keyed a) : Sturdy S A (e'.advance A r) := by
  obtain ⟨h1, h2, h3⟩ := hs.advance ho hr fun p acts x he => (hk p acts x he).2
  refine ⟨h1, fun h => ?_, h2⟩
  obtain ⟨p, acts, x, he, hp⟩ := h3 h
  rw [hp]
  exact (hk p acts x he).1

include nz

theorem Sturdy.readTurn {e : End} (h : Sturdy S A e) (ho : e.outcome = .ok ()) (hst : ∀ s, e.party ≠ .client (.start s)) (hw : NextWhole e)
    (hm : ∀ m, e.receive.1 = .ok (some (.msg m)) → S.Fit m) {c : Coins} (hc : S.Luck c) : Sturdy S A (e.readTurn E A c) := by
  obtain ⟨r, s, h1, h2, h3, h4⟩ := h.steady.receive nz hw
  have hs : Steady A e.receive.2 := by rw [h1]; exact ⟨h2, h.steady.out, h3⟩
  have ho' : e.receive.2.outcome = .ok () := by rw [h1]; exact ho
  have hp' : e.receive.2.party = e.party := by rw [h1]
  have hk' : e.receive.2.reader = r := by rw [h1]
  unfold End.readTurn
  split <;> (rename_i heq; rw [heq] at hs ho' hp' h4 hk')
  · exact ⟨hs, fun _ => by rw [hp']; exact h.good ho, Or.inl (returns_of_safe (by rw [ho']; trivial))⟩
  · rename_i ev e'
    obtain ⟨h5, h6⟩ := S.step (x := e.x) (c := c) (ev := ev) (h.good ho) hst (fun m he => hm m (by rw [heq, he])) hc
    exact Sturdy.advance hs ho' h5 h6
  · exact ⟨⟨hs.reader, hs.out, hs.hs⟩, fun hh => (by cases hh), Or.inl (returns_of_safe trivial)⟩
  · refine ⟨⟨hs.reader, hs.out, hs.hs⟩, fun hh => (by cases hh), Or.inr (Or.inl ?_)⟩
    dsimp only at hk' ⊢
    rw [hk']
    exact h4.resolve_left id
  · refine ⟨⟨hs.reader, hs.out, hs.hs⟩, fun hh => (by cases hh), Or.inr (Or.inl ?_)⟩
    dsimp only at hk' ⊢
    rw [hk']
    exact h4.resolve_left id

theorem Sturdy.turn {e : End} (h : Sturdy S A e) (hw : ∀ pt ∈ recordRead e, WholeAlert pt) (hm : ∀ m ∈ messageRead e, S.Fit m) {c : Coins}
    (hc : S.Luck c) : Sturdy S A (e.turn E A c) := by
  unfold End.turn
  split
  · rename_i u ho
    cases u
    split
    · rename_i s hp
      have hg := h.good ho
      rw [hp] at hg
      obtain ⟨h1, h2⟩ := S.start (x := e.x) (c := c) hg
      refine Sturdy.advance h.steady ho (returns_of_safe (Res.safe_bind h1 fun _ _ => trivial)) ?_
      intro p acts x he
      simp only [Res.bind_eq_ok, Res.ok.injEq, Prod.mk.injEq] at he
      obtain ⟨⟨w, a, x1⟩, he, rfl, rfl, rfl⟩ := he
      exact h2 w a x1 he
    · exact h
    · exact h
    · rename_i n1 n2 n3
      have hr : callReads e = true := by
        unfold callReads
        rw [ho]
        split
        · rename_i hp; exact absurd hp (n1 _)
        · rename_i hp; exact absurd hp (n2 _)
        · rename_i hp; exact absurd hp (n3 _)
        · rfl
        · simp_all
      refine h.readTurn nz ho n1 ?_ ?_ hc
      · intro pt hn hp
        refine hw pt ?_
        unfold recordRead
        rw [hr, decide_eq_true hn, hp]
        simp
      · intro m he
        refine hm m ?_
        unfold messageRead
        rw [hr, he]
        simp
  · exact h

theorem Sturdy.after (l : List Happens) {e : End} (h : Sturdy S A e) (hw : ∀ pt ∈ recordsRead E A e l, WholeAlert pt)
    (hm : ∀ m ∈ messagesRead E A e l, S.Fit m) (hc : ∀ c ∈ choices l, S.Luck c) : Sturdy S A (after E A e l) := by
  induction l generalizing e with
  | nil => exact h
  | cons a l ih =>
    cases a with
    | call c =>
      simp only [recordsRead, messagesRead, List.mem_append, choices, List.mem_cons] at hw hm hc
      exact ih (h.turn nz (fun pt hp => hw pt (.inl hp)) (fun m hp => hm m (.inl hp)) (hc c (.inl rfl)))
        (fun pt hp => hw pt (.inr hp)) (fun m hp => hm m (.inr hp)) fun c' hp => hc c' (.inr hp)
    | arrives r =>
      exact ih (e := Spec.happen E A e (.arrives r)) ⟨⟨h.steady.reader.more _, h.steady.out, h.steady.hs⟩, h.good, h.returns⟩ hw hm hc

omit nz

theorem steady_new (A : Bytes → Aead) (p : HState) : Steady A (End.new p) :=
  ⟨calm_new A, ⟨rfl, fun h => (by cases h), fun i hi => by simp [End.new, Record.Keys.new, nullCipher] at hi⟩,
    ⟨rfl, rfl, rfl, FrameReader.inv_new _⟩⟩

/-- A client. -/
def clientSide {E : Env} (hP : E.P.Sized) : Side E true where
  Good
    | .client (.start s) => ∀ g ∈ s.cfg.suites, ∃ p, suiteParams g.toNat = some p
    | .client s => CGood E s ∧ CWide s
    | .server _ => False
  Fit := HarmlessToClient E
  Luck _ := True
  start := fun hg => ⟨CStart.next_safe hP _ _ _, fun w acts x' h => ⟨⟨CStart.next_good hg h, trivial⟩, start_keyed hP h⟩⟩
  step := by
    intro p x c ev hg hst hm _
    cases p with
    | server s => cases hg
    | client s =>
      have hg : CGood E s ∧ CWide s := by cases s <;> first | exact hg | exact absurd rfl (hst _)
      refine ⟨returns_of_safe (Res.safe_bind (hg.1.step_safe hP hm) fun _ _ => trivial), fun p' acts x' he => ?_⟩
      simp only [HState.step, Res.bind_eq_ok, Res.ok.injEq, Prod.mk.injEq] at he
      obtain ⟨⟨s', a, x1⟩, he, rfl, rfl, rfl⟩ := he
      have h1 := hg.1.step_good hm he
      obtain ⟨h2, h3⟩ := hg.2.step hP he
      refine ⟨?_, h3⟩
      cases s' <;> first | exact ⟨h1, h2⟩ | cases h1

/-- A server. -/
def serverSide {E : Env} (hP : E.P.Sized) {cfg : Config} (hcfg : SoundServerConfig cfg) : Side E false where
  Good
    | .client _ => False
    | .server s => SGood E cfg s ∧ SWide s
  Fit := HarmlessToServer E cfg
  Luck c := c.appCookie.Safe
  start := fun hg => hg.elim
  step := by
    intro p x c ev hg hst hm hc
    cases p with
    | client s => cases hg
    | server s =>
      have hg : SGood E cfg s ∧ SWide s := hg
      refine ⟨⟨bind_ne_panic (hg.1.step_safe hP hcfg hm hc) fun _ _ => by simp, by simp⟩, fun p' acts x' he => ?_⟩
      simp only [HState.step, Res.bind_eq_ok, Res.ok.injEq, Prod.mk.injEq] at he
      obtain ⟨⟨s', a, x1⟩, he, rfl, rfl, rfl⟩ := he
      obtain ⟨h2, h3⟩ := hg.2.step hP he
      exact ⟨⟨hg.1.step_good he, h2⟩, h3⟩

end Verif.Conn
