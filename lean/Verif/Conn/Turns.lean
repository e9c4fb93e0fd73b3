import Verif.Conn.Channel

/-
One turn of an end.
-/

namespace Verif.Conn

open Verif Verif.Crypto Verif.Messages Verif.Negotiation Verif.Handshake Verif.Machine Verif.Spec Verif.Record

/-- The epoch a reader is in. -/
def epochOf (r : Reader) : Nat := (r.keys.heap r.keys.cur).epoch

/-- An end in a state, between messages. -/
structure At (e : End) (p : HState) (x : Ctx) : Prop where
  party : e.party = p
  ctx : e.x = x
  outcome : e.outcome = .ok ()
  quiet : e.hs.Quiet (epochOf e.reader)

/-! ### Reading -/

theorem uncached {r : Reader} (h : r.cached = none) (pt : Option Plaintext) : { { r with cached := pt } with cached := none } = r := by
  obtain ⟨a, b, c, d⟩ := r
  dsimp only at h
  subst h
  rfl

theorem readRecord_of_next {r r' : Reader} {pt : Plaintext} (hn : nextRecord r false = (.ok pt, { r' with cached := some pt }))
    (hc : r'.cached = none) : readRecord r false = (.ok pt, r') := by
  have := uncached hc (some pt)
  simp only [readRecord, hn]
  rw [this]

theorem readRecord_of_wait {r r' : Reader} (hn : nextRecord r false = (.err .wouldBlock, r')) (hc : r'.cached = none) :
    readRecord r false = (.err .wouldBlock, r') := by
  simp only [readRecord, hn]
  obtain ⟨a, b, c, d⟩ := r'
  dsimp only at hc
  subst hc
  rfl

/-- A record has arrived that holds a message. -/
theorem receive_record {e : End} {n : Nat} (q : e.hs.Quiet n) {r' : Reader} {pt : Plaintext}
    (hn : nextRecord e.reader false = (.ok pt, { r' with cached := some pt })) (hc : r'.cached = none) (hct : pt.contentType = 22)
    {m : Msg} {h' : HsIn} (hr : e.hs.readMessage (fun _ => .ok ()) [.ok pt] = (.ok (some m), h', [])) :
    e.receive = (.ok (some (.msg m)), { e with reader := r', hs := h' }) := by
  have key : ∀ r0, readRecord r0 false = (.ok pt, r') →
      End.readMessage { e with reader := r0 } = (.ok (some (.msg m)), { e with reader := r', hs := h' }) := by
    intro r0 h0
    unfold End.readMessage
    rw [if_pos q.needed]
    simp only [h0, End.parse, hr]
  unfold End.receive
  split
  · have h1 : peekType e.reader = (.ok 22, { r' with cached := some pt }) := by
      simp [peekType, hn, hct]
    rw [h1]
    dsimp only
    rw [if_neg (by decide), key _ (by
      rw [readRecord_cached rfl]
      rw [uncached hc])]
  · exact key e.reader (readRecord_of_next hn hc)

/-- Nothing has arrived. -/
theorem receive_wait {e : End} {n : Nat} (q : e.hs.Quiet n) {r' : Reader} (hn : nextRecord e.reader false = (.err .wouldBlock, r'))
    (hc : r'.cached = none) : e.receive = (.ok none, { e with reader := r' }) := by
  unfold End.receive
  split
  · have h1 : peekType e.reader = (.err .wouldBlock, r') := by simp [peekType, hn]
    rw [h1]
    rfl
  · unfold End.readMessage
    rw [if_pos q.needed, readRecord_of_wait hn hc]
    simp only [End.parse, hs_waits q]

/-- The next message is received if it has arrived. -/
theorem receive_next {e : End} {p : HState} {x : Ctx} (a : At e p x) {A : Bytes → Aead} {I T more : List Sym} {m : Msg}
    {w : Record.Keys} {X u : Bytes} (h : Chan A I T X w u e.reader) (hI : I = T ++ .msg m :: more) (hg : (Sym.msg m).good false)
    (hm : m.body.length < 2 ^ 24) :
    (∃ r h', e.receive = (.ok (some (.msg m)), { e with reader := r, hs := h' }) ∧ Chan A I (T ++ [.msg m]) X w u r ∧ h'.Quiet (epochOf r)) ∨
    (∃ r, e.receive = (.ok none, { e with reader := r }) ∧ Chan A I T X w u r ∧ e.hs.Quiet (epochOf r) ∧ e.reader.frames = []) := by
  obtain ⟨r', hep, ⟨pt, h1, h2, h3, h4, h5, h6⟩ | ⟨h1, h2, h3, h4⟩⟩ := h.next hI
  · obtain ⟨h', h7, h8⟩ := hs_reads a.quiet h2 h4 h3 hg hm (fun _ => .ok ())
    exact .inl ⟨r', h', receive_record a.quiet h1 h5 h2 h7, h6, by rw [epochOf, hep]; exact h8⟩
  · exact .inr ⟨r', receive_wait a.quiet h1 h2, h3, by rw [epochOf, hep]; exact a.quiet, h4⟩

theorem receive_nothing {e : End} {p : HState} {x : Ctx} (a : At e p x) {A : Bytes → Aead} {I T : List Sym}
    {w : Record.Keys} {u : Bytes} (h : Chan A I T [] w u e.reader) (hI : I <+: T) :
    ∃ r, e.receive = (.ok none, { e with reader := r }) ∧ Chan A I T [] w u r ∧ e.hs.Quiet (epochOf r) := by
  obtain ⟨r', hep, h1, h2, h3⟩ := h.waits hI
  exact ⟨r', receive_wait a.quiet h1 h2, h3, by rw [epochOf, hep]; exact a.quiet⟩

/-! ### Writing -/

theorem more_none (n room : Nat) : tlsFragments.more room n [] = [] := by cases n <;> rfl

theorem tlsWrite_small {ov : Nat} {m : Msg} (h : Small ov m) : tlsWrite (2 ^ 14) m = .ok [m.marshal false] := by
  unfold Small at h
  have h1 : (tlsFragments (2 ^ 14) m).1 = m.marshal false := by
    simp only [tlsFragments, Msg.marshal, Bool.false_eq_true, if_false]
    rw [List.take_of_length_le (by omega)]
  have h2 : (tlsFragments (2 ^ 14) m).2 = [] := by
    simp only [tlsFragments]
    rw [List.drop_eq_nil_of_le (by omega), more_none]
  simp only [tlsWrite]
  rw [if_neg (by omega), if_neg (by decide), h1, h2]

theorem marshal_arrived (m : Msg) : (arrived false m).marshal false = m.marshal false := rfl

theorem perform_cons {A : Bytes → Aead} {e e' : End} {a : Action} (acts : List Action) (ha : e.act A a = e') (ho : e'.outcome = .ok ()) :
    e.perform A (a :: acts) = e'.perform A acts := by
  rw [End.perform]
  simp only [ha, ho]

/-- What performing actions comes to. -/
theorem perform_eq {A : Bytes → Aead} {ov : Nat} (acts : List Action) {e : End} (ho : e.outcome = .ok ())
    (hr : e.hs.frame.remainder = []) (hg : ∀ a ∈ outs false acts, a.good false) (hs : ∀ m ∈ sent acts, Small ov m) {b : Bytes}
    {k : Record.Keys} (hk : sendAll e.out (items A (outs false acts)) = .ok (b, k)) :
    e.perform A acts = { e with
      out := k
      wire := e.wire ++ b
      reader := { e.reader with keys := rekeyAll A (ins acts) e.reader.keys }
      hs := { e.hs with epoch := lastEpoch (ins acts) e.hs.epoch } } := by
  induction acts generalizing e b with
  | nil =>
    simp only [outs, items, sendAll, Res.ok.injEq, Prod.mk.injEq] at hk
    obtain ⟨rfl, rfl⟩ := hk
    obtain ⟨a, b, c, d, f, g, h, i⟩ := e
    simp [End.perform, ins, rekeyAll, lastEpoch]
  | cons a acts ih =>
    cases a with
    | queue m =>
      simp only [outs, items, sendAll, Res.bind_eq_ok, Res.ok.injEq, Prod.mk.injEq] at hk
      obtain ⟨⟨rec, k1⟩, h1, ⟨b2, k2⟩, h2, rfl, rfl⟩ := hk
      rw [marshal_arrived] at h1
      have hact : e.act A (.queue m) = { e with out := k1, wire := e.wire ++ rec } := by
        simp only [End.act, tlsWrite_small (hs m (by simp [sent])), End.writeAll, h1]
      rw [perform_cons acts hact ho]
      rw [ih (e := { e with out := k1, wire := e.wire ++ rec }) ho hr (fun a ha => hg a (by simp [outs, ha]))
        (fun m' hm => hs m' (List.mem_cons_of_mem _ hm)) h2]
      simp [ins]
    | sendQueued =>
      have hact : e.act A .sendQueued = e := rfl
      rw [perform_cons acts hact ho]
      exact ih ho hr hg hs hk
    | rekeyIn n kk =>
      have hact : e.act A (.rekeyIn n kk) =
          { e with hs := { e.hs with epoch := n }, reader := { e.reader with keys := e.reader.keys.rekey n (A kk.1) kk.2 } } := by
        simp [End.act, HsIn.rekeyIn, hr]
      rw [perform_cons acts hact ho]
      exact ih (e := { e with
        hs := { e.hs with epoch := n }, reader := { e.reader with keys := e.reader.keys.rekey n (A kk.1) kk.2 } }) ho hr hg hs hk
    | rekeyOut n kk =>
      have hact : e.act A (.rekeyOut n kk) = { e with out := e.out.rekey n (A kk.1) kk.2 } := rfl
      rw [perform_cons acts hact ho]
      exact ih (e := { e with out := e.out.rekey n (A kk.1) kk.2 }) ho hr (fun a ha => hg a (by simp [outs, ha])) hs hk
    | resetOut n => exact False.elim (hg (.reset n) (by simp [outs]))
    | storePsk psk =>
      have hact : e.act A (.storePsk psk) = e := rfl
      rw [perform_cons acts hact ho]
      exact ih ho hr hg hs hk

theorem writeAll_asked (fs : List Bytes) (e : End) : (e.writeAll fs).asked = e.asked := by
  induction fs generalizing e with
  | nil => rfl
  | cons f fs ih =>
    rw [End.writeAll]
    split
    · rw [ih]
    all_goals rfl

theorem act_asked (A : Bytes → Aead) (e : End) (a : Action) : (e.act A a).asked = e.asked := by
  cases a with
  | queue m =>
    simp only [End.act]
    split
    · exact writeAll_asked _ _
    all_goals rfl
  | rekeyIn n k => simp only [End.act]; split <;> rfl
  | _ => rfl

theorem perform_asked (A : Bytes → Aead) (acts : List Action) (e : End) : (e.perform A acts).asked = e.asked := by
  induction acts generalizing e with
  | nil => rfl
  | cons a acts ih =>
    rw [End.perform]
    split
    · rw [ih, act_asked]
    · exact act_asked A e a

theorem advance_asked (A : Bytes → Aead) (e : End) (p : HState) (acts : List Action) (x : Ctx) :
    (e.advance A (.ok (p, acts, x))).asked = e.asked ++ sent acts := by
  simp only [End.advance]
  split <;> exact perform_asked A acts _

theorem advance_keeps (A : Bytes → Aead) (e : End) (r : Res (HState × List Action × Ctx)) : e.asked ⊆ (e.advance A r).asked := by
  match r with
  | .ok (p, acts, x) => rw [advance_asked]; exact List.subset_append_left _ _
  | .err er => exact List.Subset.refl _
  | .panic => exact List.Subset.refl _
  | .diverge => exact List.Subset.refl _

theorem parse_asked (e : End) (feed : Feed) : (e.parse feed).2.asked = e.asked := by
  unfold End.parse
  split <;> rfl

theorem readMessage_asked (e : End) : e.readMessage.2.asked = e.asked := by
  unfold End.readMessage
  split
  · split <;> first | exact parse_asked _ _ | rfl
  · exact parse_asked _ _

theorem receive_asked (e : End) : e.receive.2.asked = e.asked := by
  unfold End.receive
  split
  · split
    · split
      · split <;> rfl
      · rename_i t r _ _
        have := readMessage_asked { e with reader := r }
        split
        · rename_i h
          rw [h] at this
          exact this
        · exact this
    all_goals rfl
  · exact readMessage_asked e

theorem turn_keeps (E : Env) (A : Bytes → Aead) (c : Coins) (e : End) : e.asked ⊆ (e.turn E A c).asked := by
  unfold End.turn
  split
  · split
    · exact advance_keeps ..
    · exact List.Subset.refl _
    · exact List.Subset.refl _
    · have h := receive_asked e
      unfold End.readTurn
      split <;> rename_i h' <;> rw [h'] at h <;> dsimp only at h
      · rw [h]; exact List.Subset.refl _
      · rw [← h]; exact advance_keeps ..
      all_goals (dsimp only; rw [h]; exact List.Subset.refl _)
  · exact List.Subset.refl _

theorem setVersion_keeps (e : End) (p : HState) : (e.setVersion p).outcome = e.outcome ∧ (e.setVersion p).hs = e.hs ∧
    (e.setVersion p).reader = e.reader ∧ (e.setVersion p).wire = e.wire ∧ (e.setVersion p).party = e.party := by
  unfold End.setVersion
  split <;> exact ⟨rfl, rfl, rfl, rfl, rfl⟩

/-! ### Versions -/

theorem writeRecord_version {k k' : Record.Keys} {i pad : Nat} {ct : UInt8} {f b : Bytes} (h : writeRecord k i ct f pad = .ok (b, k')) :
    k'.version = k.version := by
  simp only [writeRecord] at h
  split at h
  · simp only [Res.bind_eq_ok] at h
    obtain ⟨_, _, h2⟩ := h
    split at h2
    · cases h2
    · simp only [Res.bind_eq_ok] at h2
      obtain ⟨_, _, h3⟩ := h2
      split at h3
      · cases h3
      · simp only [Res.bind_eq_ok, Res.ok.injEq, Prod.mk.injEq] at h3
        obtain ⟨_, _, _, rfl⟩ := h3
        rfl
  · simp only [Res.bind_eq_ok] at h
    obtain ⟨_, _, h2⟩ := h
    split at h2
    · cases h2
    · split at h2
      · cases h2
      · simp only [Res.bind_eq_ok, Res.ok.injEq, Prod.mk.injEq] at h2
        obtain ⟨_, _, _, rfl⟩ := h2
        rfl

theorem writeAll_version (fs : List Bytes) (e : End) : (e.writeAll fs).out.version = e.out.version := by
  induction fs generalizing e with
  | nil => rfl
  | cons f fs ih =>
    rw [End.writeAll]
    split
    · rename_i h
      rw [ih]
      exact writeRecord_version h
    all_goals rfl

theorem act_version (A : Bytes → Aead) (e : End) (a : Action) : (e.act A a).out.version = e.out.version := by
  cases a with
  | queue m =>
    simp only [End.act]
    split
    · exact writeAll_version _ _
    all_goals rfl
  | rekeyIn n k => simp only [End.act]; split <;> rfl
  | _ => rfl

theorem perform_version (A : Bytes → Aead) (acts : List Action) (e : End) : (e.perform A acts).out.version = e.out.version := by
  induction acts generalizing e with
  | nil => rfl
  | cons a acts ih =>
    rw [End.perform]
    split
    · rw [ih, act_version]
    · exact act_version A e a

theorem advance_version (A : Bytes → Aead) (e : End) (p : HState) (acts : List Action) (x : Ctx) :
    (e.advance A (.ok (p, acts, x))).out.version = (e.setVersion p).out.version := by
  simp only [End.advance]
  split <;> exact perform_version A acts _

/-- Advancing, when all that is written can be written. -/
theorem advance_eq {A : Bytes → Aead} {ov : Nat} {e : End} (ho : e.outcome = .ok ()) (q : e.hs.Quiet (epochOf e.reader)) {p : HState}
    {acts : List Action} {x : Ctx} (hg : ∀ a ∈ outs false acts, a.good false) (hs : ∀ m ∈ sent acts, Small ov m) {b : Bytes}
    {k : Record.Keys} (hk : sendAll (e.setVersion p).out (items A (outs false acts)) = .ok (b, k)) :
    At (e.advance A (.ok (p, acts, x))) p x ∧ (e.advance A (.ok (p, acts, x))).out = k ∧
      (e.advance A (.ok (p, acts, x))).wire = e.wire ++ b ∧
      (e.advance A (.ok (p, acts, x))).reader = { e.reader with keys := rekeyAll A (ins acts) e.reader.keys } := by
  obtain ⟨k1, k2, k3, k4, k5⟩ := setVersion_keeps e p
  have ho' : (e.setVersion p).outcome = .ok () := k1.trans ho
  have h := perform_eq (A := A) (ov := ov) acts (e := { e.setVersion p with x := x, asked := e.asked ++ sent acts }) ho'
    (by rw [k2]; exact q.remainder) hg hs hk
  have ha : e.advance A (.ok (p, acts, x)) =
      { ({ e.setVersion p with x := x, asked := e.asked ++ sent acts } : End).perform A acts with party := p } := by
    have h1 : (({ e.setVersion p with x := x, asked := e.asked ++ sent acts } : End).perform A acts).outcome = .ok () := by
      rw [h]; exact ho'
    simp only [End.advance, h1]
  rw [ha, h]
  refine ⟨⟨rfl, rfl, ho', ?_⟩, rfl, by rw [← k4], by rw [← k3]⟩
  dsimp only
  rw [k2, k3]
  refine ⟨q.tls, q.nonblocking, q.queued, q.header, q.target, q.filled, q.remainder, ?_⟩
  simp only [epochOf]
  rw [(rekeyAll_epoch A _ _).1]
  rw [q.epoch]
  rfl

end Verif.Conn
