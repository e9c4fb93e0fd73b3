import Verif.Spec.Stream
import Verif.Machine.LinkLemmas
import Verif.Record.RoundTrip

/-
The outgoing side of an established connection: what its history looks like.
-/

namespace Verif.Conn

open Verif Verif.Crypto Verif.Messages Verif.Negotiation Verif.Handshake Verif.Machine Verif.Spec Verif.Record

/-! ### Positions -/

theorem position_append (L M : List Item) (p : Nat × Nat) : position (L ++ M) p = position M (position L p) := by
  induction L generalizing p with
  | nil => rfl
  | cons i L ih =>
    obtain ⟨g, j⟩ := p
    cases i <;> simp [position, ih]

theorem appData_append (L M : List Item) : appData (L ++ M) = appData L ++ appData M := by
  induction L with
  | nil => rfl
  | cons i L ih => cases i <;> simp [appData, ih]

/-- Positions grow. -/
theorem position_lt (L : List Item) (hL : L ≠ []) (g j : Nat) :
    g < (position L (g, j)).1 ∨ (g = (position L (g, j)).1 ∧ j < (position L (g, j)).2) := by
  induction L generalizing g j with
  | nil => exact absurd rfl hL
  | cons i L ih =>
    cases i with
    | record ct f pad =>
      simp only [position]
      by_cases hl : L = []
      · subst hl; right; simp [position]
      · rcases ih hl g (j + 1) with h | ⟨h, h'⟩
        · exact .inl h
        · exact .inr ⟨h, by omega⟩
    | rekey e a iv =>
      simp only [position]
      by_cases hl : L = []
      · subst hl; left; simp [position]
      · rcases ih hl (g + 1) 0 with h | ⟨h, h'⟩
        · left; omega
        · left; omega

/-- A position occurs once. -/
theorem position_inj {L p q p' q' : List Item} (hp : L = p ++ q) (hp' : L = p' ++ q')
    (h : position p (0, 0) = position p' (0, 0)) : p = p' := by
  have aux : ∀ {a b c d : List Item}, a ++ b = c ++ d → a.length ≤ c.length → position a (0, 0) = position c (0, 0) → a = c := by
    intro a b c d he hl hpos
    have hpre : a <+: c := List.prefix_of_prefix_length_le (List.prefix_append a b) (he ▸ List.prefix_append c d) hl
    obtain ⟨e, rfl⟩ := hpre
    by_cases hn : e = []
    · subst hn; simp
    · exfalso
      rw [position_append] at hpos
      have := position_lt e hn (position a (0, 0)).1 (position a (0, 0)).2
      rw [← hpos] at this
      omega
  rcases Nat.le_total p.length p'.length with hl | hl
  · exact aux (hp ▸ hp') hl h
  · exact (aux (hp' ▸ hp) hl h.symm).symm

/-- Sequence numbers stay in range. -/
def Bounded (L : List Item) : Prop := ∀ pre post, L = pre ++ post → (position pre (0, 0)).2 < 2 ^ 48

theorem Bounded.snoc {L : List Item} (h : Bounded L) (i : Item) (hi : (position (L ++ [i]) (0, 0)).2 < 2 ^ 48) :
    Bounded (L ++ [i]) := by
  intro pre post he
  rcases List.eq_nil_or_concat post with rfl | ⟨post', x, rfl⟩
  · rw [List.append_nil] at he; rw [← he]; exact hi
  · rw [List.concat_eq_append, ← List.append_assoc] at he
    have := List.append_inj' he rfl
    exact h pre post' this.1

theorem bounded_nil : Bounded [] := by
  intro pre post he
  have : pre = [] := (List.append_eq_nil_iff.1 he.symm).1
  subst this
  decide

/-! ### Histories -/

/-- Histories of a connection, leading from one traffic secret to another. -/
inductive Wrote (W : World) (cp : Params) (b : Bool) : List Item → Bytes → Bytes → Prop where
  | nil (s : Bytes) : Wrote W cp b [] s s
  | plain (ct : UInt8) (f : Bytes) (L : List Item) (s t : Bytes) : ct = 23 ∨ ct = 21 → Wrote W cp b L s t →
      Wrote W cp b (.record ct f 0 :: L) s t
  | ticket (m : Msg) (tk : Ticket) (L : List Item) (s t : Bytes) :
      toBody W.E.parses m.msgType m.body = .ok (.newSessionTicket tk) → m.body.length < 2 ^ 24 → Wrote W cp b L s t →
      Wrote W cp b (.record 22 (m.msgType :: beBytes 3 m.body.length ++ m.body) 0 :: L) s t
  | update (r : UInt8) (L : List Item) (s t : Bytes) : Wrote W cp b L (dirNext W.E.P cp b s) t →
      Wrote W cp b (.record 22 [24, 0, 0, 1, r] 0 ::
        .rekey epochUpdate (W.A cp (keysOf W.E.P cp (dirNext W.E.P cp b s)).1) (keysOf W.E.P cp (dirNext W.E.P cp b s)).2 :: L) s t

theorem Wrote.append {W : World} {cp : Params} {b : Bool} {L M : List Item} {s t u : Bytes} (h : Wrote W cp b L s t)
    (h' : Wrote W cp b M t u) : Wrote W cp b (L ++ M) s u := by
  induction h with
  | nil s => exact h'
  | plain ct f L s t hc _ ih => exact .plain ct f _ s _ hc (ih h')
  | ticket m tk L s t hb hl _ ih => exact .ticket m tk _ s _ hb hl (ih h')
  | update r L s t _ ih => exact .update r _ s _ (ih h')

/-- What is known of the history, whatever happened. -/
def Logged (W : World) (cp : Params) (b : Bool) (s0 : Bytes) (L : List Item) : Prop := (∃ t, Wrote W cp b L s0 t) ∧ Bounded L

/-- The outgoing side, between calls. -/
structure Writes (W : World) (cp : Params) (b : Bool) (s0 : Bytes) (c : Live) : Prop where
  params : c.st.cp = cp
  role : c.st.isClient = b
  dir : c.out.direction = .write
  tls : c.out.datagram = false
  bound : Bounded c.log
  wrote : ∃ t, Wrote W cp b c.log s0 t ∧ (c.closed = false → t = dirSecret b c.st ∧
    (c.out.heap c.out.cur).aead = some (W.A cp (keysOf W.E.P cp t).1) ∧
    (c.out.heap c.out.cur).iv = (keysOf W.E.P cp t).2 ∧
    (c.out.heap c.out.cur).seq = (position c.log (0, 0)).2)

theorem Writes.logged {W : World} {cp : Params} {b : Bool} {s0 : Bytes} {c : Live} (h : Writes W cp b s0 c) :
    Logged W cp b s0 c.log := by
  obtain ⟨t, ht, _⟩ := h.wrote
  exact ⟨⟨t, ht⟩, h.bound⟩

/-! ### One record -/

/-- What a record written does to a connection. -/
theorem writeRecord_cases (c : Live) (ct : UInt8) (f : Bytes) :
    (∃ rec k, c.writeRecord ct f = (.ok (), { c with out := k, wire := c.wire ++ rec, log := c.log ++ [.record ct f 0] }) ∧
      c.closed = false ∧ Record.writeRecord c.out c.out.cur ct f 0 = .ok (rec, k)) ∨
    (∃ res k, c.writeRecord ct f = (res, { c with out := k }) ∧ (∀ u, res ≠ .ok u) ∧ k.direction = c.out.direction ∧
      k.datagram = c.out.datagram ∧ (c.closed = false → k = c.out ∧
        ∀ x, Record.writeRecord c.out c.out.cur ct f 0 ≠ .ok x) ∧
      (c.closed = true → ∀ rec k', Record.writeRecord c.out c.out.cur ct f 0 = .ok (rec, k') → res = .err .msg)) := by
  unfold Live.writeRecord
  cases h : Record.writeRecord c.out c.out.cur ct f 0 with
  | ok x =>
    obtain ⟨rec, k⟩ := x
    dsimp only
    cases hc : c.closed with
    | false => exact .inl ⟨rec, k, by simp, rfl, rfl⟩
    | true =>
      obtain ⟨_, _, _, _, _, hk, _⟩ := writeRecord_ok h
      refine .inr ⟨_, k, by simp, by simp, by rw [hk], by rw [hk], by simp, fun _ _ _ _ => rfl⟩
  | err e => exact .inr ⟨.err e, c.out, rfl, by simp, rfl, rfl, fun _ => ⟨rfl, by simp⟩, by simp⟩
  | panic => exact .inr ⟨.panic, c.out, rfl, by simp, rfl, rfl, fun _ => ⟨rfl, by simp⟩, by simp⟩
  | diverge => exact .inr ⟨.diverge, c.out, rfl, by simp, rfl, rfl, fun _ => ⟨rfl, by simp⟩, by simp⟩

/-- The keys after a record. -/
theorem writeRecord_keys {k k' : Record.Keys} {ct : UInt8} {f rec : Bytes} (h : Record.writeRecord k k.cur ct f 0 = .ok (rec, k')) :
    k'.direction = k.direction ∧ k'.datagram = k.datagram ∧ (k'.heap k'.cur).aead = (k.heap k.cur).aead ∧
    (k'.heap k'.cur).iv = (k.heap k.cur).iv ∧ (k'.heap k'.cur).seq = (k.heap k.cur).seq + 1 ∧ (k.heap k.cur).seq < 2 ^ 48 - 1 := by
  obtain ⟨_, _, _, _, hs, rfl, _⟩ := writeRecord_ok h
  simp only [upd_same]
  exact ⟨trivial, trivial, trivial, trivial, trivial, hs⟩

theorem position_snoc_record (L : List Item) (ct : UInt8) (f : Bytes) :
    position (L ++ [.record ct f 0]) (0, 0) = ((position L (0, 0)).1, (position L (0, 0)).2 + 1) := by
  rw [position_append]; rfl

/-- Writing a record of application data or an alert. -/
theorem Writes.plain {W : World} {cp : Params} {b : Bool} {s0 : Bytes} {c : Live} (h : Writes W cp b s0 c) (ct : UInt8)
    (hct : ct = 23 ∨ ct = 21) (f : Bytes) : Writes W cp b s0 (c.writeRecord ct f).2 := by
  obtain ⟨t, ht, ho⟩ := h.wrote
  rcases writeRecord_cases c ct f with ⟨rec, k, he, hcl, hw⟩ | ⟨res, k, he, _, hd, hg, hk, _⟩
  · rw [he]
    obtain ⟨h1, h2, h3, h4, h5, h6⟩ := writeRecord_keys hw
    obtain ⟨o1, o2, o3, o4⟩ := ho hcl
    refine ⟨h.params, h.role, h1.trans h.dir, h2.trans h.tls, h.bound.snoc _ ?_, t, ht.append (.plain ct f _ _ _ hct (.nil _)), fun _ => ?_⟩
    · rw [position_snoc_record]; simp only; omega
    · refine ⟨o1, h3.trans o2, h4.trans o3, ?_⟩
      rw [position_snoc_record]; simp only; rw [h5, o4]
  · rw [he]
    refine ⟨h.params, h.role, hd.trans h.dir, hg.trans h.tls, h.bound, t, ht, fun hcl => ?_⟩
    obtain ⟨rfl, _⟩ := hk hcl
    exact ho hcl

theorem Writes.closing {W : World} {cp : Params} {b : Bool} {s0 : Bytes} {c : Live} (h : Writes W cp b s0 c) :
    Writes W cp b s0 { c with closed := true } := by
  obtain ⟨t, ht, _⟩ := h.wrote
  exact ⟨h.params, h.role, h.dir, h.tls, h.bound, t, ht, by simp⟩

/-! ### Sending an alert -/

/-- The result of sending a fatal alert and giving up, from a state whose history is in order: the history stays so, and the
connection is closed unless the record layer panicked. -/
theorem abort_spec {W : World} {cp : Params} {b : Bool} {s0 : Bytes} {c : Live} (hp : c.st.cp = cp) (hr : c.st.isClient = b)
    (hd : c.out.direction = .write) (hg : c.out.datagram = false) (hl : Logged W cp b s0 c.log)
    (hkeys : c.closed = false → (c.out.heap c.out.cur).seq = (position c.log (0, 0)).2) (a : Nat) (ha : a ≠ 0) (ha' : a ≠ 100) (e : Err) :
    Logged W cp b s0 (c.abort a e).2.log ∧ ((c.abort a e).1.Safe → Writes W cp b s0 (c.abort a e).2) ∧
      appData (c.abort a e).2.log = appData c.log ∧ (c.abort a e).1 ≠ .ok () ∧
      (∀ e', (c.abort a e).1 = .err e' → e' = e) := by
  have hlev : (if a = 100 ∨ a = Alert.closeNotify then (1 : UInt8) else 2) = 2 := by
    rw [if_neg]; simp [Alert.closeNotify, ha, ha']
  obtain ⟨⟨t, ht⟩, hb⟩ := hl
  unfold Live.abort Live.sendAlert
  simp only [hlev]
  rcases writeRecord_cases c 21 [UInt8.ofNat a, 2] with ⟨rec, k, he, hcl, hw⟩ | ⟨res, k, he, hno, hd', hg', hk, _⟩
  · rw [he]
    obtain ⟨h1, h2, h3, h4, h5, h6⟩ := writeRecord_keys hw
    have hb' : Bounded (c.log ++ [.record 21 [UInt8.ofNat a, 2] 0]) := by
      refine hb.snoc _ ?_
      rw [position_snoc_record]; simp only
      have := hkeys hcl
      omega
    have ht' := ht.append (.plain 21 [UInt8.ofNat a, 2] _ _ _ (.inr rfl) (.nil _))
    simp only [show (2 : UInt8) ≠ 1 by decide, if_false]
    refine ⟨⟨⟨t, ht'⟩, hb'⟩, fun _ => ⟨hp, hr, h1.trans hd, h2.trans hg, hb', t, ht', by simp⟩, ?_, by simp, by simp⟩
    simp [appData_append, appData]
  · rw [he]
    cases res with
    | ok u => exact absurd rfl (hno u)
    | err e' =>
      simp only [show (2 : UInt8) ≠ 1 by decide, if_false]
      exact ⟨⟨⟨t, ht⟩, hb⟩, fun _ => ⟨hp, hr, hd'.trans hd, hg'.trans hg, hb, t, ht, by simp⟩, by simp, by simp, by simp⟩
    | panic => exact ⟨⟨⟨t, ht⟩, hb⟩, by simp, rfl, by simp, by simp⟩
    | diverge => exact ⟨⟨⟨t, ht⟩, hb⟩, by simp, rfl, by simp, by simp⟩

/-! ### Handshake messages -/

/-- The AEADs of a world are correct. -/
def World.Lawful (W : World) : Prop := ∀ cp key, (W.A cp key).Lawful

theorem seal_too_long {k : Record.Keys} {a : Aead} (ha : (k.heap k.cur).aead = some a) (hl : a.Lawful) {ct : UInt8} {f : Bytes}
    (hf : 2 ^ 14 ≤ f.length + 1 + a.overhead - 1) : ∀ x, Record.writeRecord k k.cur ct f 0 ≠ .ok x := by
  rintro ⟨rec, k'⟩ h
  obtain ⟨hd, body, _, hb, _, _, hc⟩ := writeRecord_ok h
  rcases hc with ⟨a', n, ha', _, _, _, rfl⟩ | ⟨ha', _⟩
  · rw [ha, Option.some.injEq] at ha'
    subst ha'
    rw [hl.seal_length] at hb
    simp [innerPlaintext] at hb
    omega
  · rw [ha] at ha'; cases ha'

theorem writeRecord_iff {c : Live} {a : Aead} (h : CanWrite c a) (ct : UInt8) (f : Bytes) :
    (f.length + 1 + a.overhead ≤ 2 ^ 14 → (c.writeRecord ct f).1 = .ok ()) ∧
    (2 ^ 14 < f.length + 1 + a.overhead → c.writeRecord ct f = (.err .msg, c)) := by
  obtain ⟨hd, hh⟩ : ∃ hd, recordHeader c.out 23 (combineSeq (c.out.heap c.out.cur) c.out.datagram) (f.length + (1 + 0 + a.overhead)) = .ok hd := by
    simp [recordHeader, h.tls]
  obtain ⟨nonce, hn⟩ : ∃ nonce, computeNonce (c.out.heap c.out.cur) (combineSeq (c.out.heap c.out.cur) c.out.datagram) = .ok nonce := by
    unfold computeNonce
    rw [if_neg (by have := h.iv; omega)]
    exact ⟨_, rfl⟩
  have hlen : (a.sealing nonce (innerPlaintext ct f 0) hd).length = f.length + 1 + a.overhead := by
    rw [h.lawful.seal_length]; simp [innerPlaintext]
  have hw : Record.writeRecord c.out c.out.cur ct f 0 = if f.length + 1 + a.overhead > 2 ^ 14 then .err .msg
      else .ok (hd ++ a.sealing nonce (innerPlaintext ct f 0) hd,
        { c.out with heap := upd c.out.heap c.out.cur { c.out.heap c.out.cur with seq := (c.out.heap c.out.cur).seq + 1 } }) := by
    unfold Record.writeRecord
    dsimp only
    rw [h.aead]
    dsimp only
    rw [hh]
    simp only [Res.bind_ok, h.dir, ne_eq, not_true, if_false, hn, hlen, bumpSeq_of_lt h.seq, h.aead]
  refine ⟨fun hl => ?_, fun hl => ?_⟩
  · unfold Live.writeRecord
    rw [hw, if_neg (by omega)]
    simp [h.opened]
  · unfold Live.writeRecord
    rw [hw, if_pos hl]

theorem more_nil (n : Nat) : tlsFragments.more (2 ^ 14) n [] = [] := by
  cases n with
  | zero => rfl
  | succ n => rw [tlsFragments.more, if_pos rfl]

theorem internal_cases {r : Res Unit} {c : Live} (hno : ∀ u, r ≠ .ok u) :
    ∃ res, internal (r, c) = (res, c) ∧ (res = alert Alert.internalError ∨ ¬ res.Safe) := by
  cases r with
  | ok u => exact absurd rfl (hno u)
  | err e => exact ⟨_, rfl, .inl rfl⟩
  | panic => exact ⟨.panic, rfl, .inr (by simp)⟩
  | diverge => exact ⟨.diverge, rfl, .inr (by simp)⟩

/-- What queueing a message does: one record holds it, or nothing is written. -/
theorem queue_cases (W : World) (c : Live) (m : Msg)
    (hA : c.closed = false → ∃ a, (c.out.heap c.out.cur).aead = some a ∧ a.Lawful) :
    (∃ rec k, c.takeAction W (.queue m) =
        (.ok (), { c with out := k, wire := c.wire ++ rec, log := c.log ++ [.record 22 (m.marshal false) 0] }) ∧
      c.closed = false ∧ Record.writeRecord c.out c.out.cur 22 (m.marshal false) 0 = .ok (rec, k)) ∨
    (∃ res k, c.takeAction W (.queue m) = (res, { c with out := k }) ∧ (res = alert Alert.internalError ∨ ¬ res.Safe) ∧
      k.direction = c.out.direction ∧ k.datagram = c.out.datagram ∧ (c.closed = false → k = c.out)) := by
  have stay : ∀ res : Res Unit, (res = alert Alert.internalError ∨ ¬ res.Safe) → c.takeAction W (.queue m) = (res, c) →
      (∃ res k, c.takeAction W (.queue m) = (res, { c with out := k }) ∧ (res = alert Alert.internalError ∨ ¬ res.Safe) ∧
        k.direction = c.out.direction ∧ k.datagram = c.out.datagram ∧ (c.closed = false → k = c.out)) :=
    fun res hr he => ⟨res, c.out, he, hr, rfl, rfl, fun _ => rfl⟩
  by_cases hlen : m.body.length > 2 ^ 24
  · exact .inr (stay _ (.inl rfl) (by simp only [Live.takeAction, tlsWrite]; rw [if_pos hlen]))
  have htw : c.takeAction W (.queue m) =
      internal (c.writeFragments ((tlsFragments (2 ^ 14) m).1 :: (tlsFragments (2 ^ 14) m).2)) := by
    simp only [Live.takeAction, tlsWrite]
    rw [if_neg hlen, if_neg (by decide)]
  -- the first fragment
  rcases writeRecord_cases c 22 (tlsFragments (2 ^ 14) m).1 with ⟨rec, k, he, hcl, hw⟩ | ⟨res, k, he, hno, hd, hg, hk, _⟩
  · obtain ⟨a, ha, hl⟩ := hA hcl
    by_cases hs : m.body.length + 4 < 2 ^ 14
    · have h1 : (tlsFragments (2 ^ 14) m).1 = m.marshal false := by
        simp only [tlsFragments, Msg.marshal, Bool.false_eq_true, if_false]
        rw [List.take_of_length_le (by omega)]
      have h2 : (tlsFragments (2 ^ 14) m).2 = [] := by
        simp only [tlsFragments]
        rw [List.drop_eq_nil_of_le (by omega), more_nil]
      rw [h1] at he hw
      refine .inl ⟨rec, k, ?_, hcl, hw⟩
      rw [htw, h1, h2, Live.writeFragments, he]
      rfl
    · exfalso
      refine seal_too_long ha hl ?_ _ hw
      have h4 : (beBytes 3 m.length).length = 3 := by simp
      have : (tlsFragments (2 ^ 14) m).1.length = 2 ^ 14 := by
        simp only [tlsFragments, List.length_cons, List.length_append, h4, List.length_take]
        omega
      omega
  · obtain ⟨res', h1, h2⟩ := internal_cases (c := { c with out := k }) hno
    refine .inr ⟨res', k, ?_, h2, hd, hg, fun hcl => (hk hcl).1⟩
    rw [htw, Live.writeFragments, he]
    cases res with
    | ok u => exact absurd rfl (hno u)
    | err e => exact h1
    | panic => exact h1
    | diverge => exact h1

/-- What may be said after a call that writes no application data. -/
def After (W : World) (cp : Params) (b : Bool) (s0 : Bytes) (c : Live) {α : Type} (r : Res α × Live) : Prop :=
  Logged W cp b s0 r.2.log ∧ (r.1.Safe → Writes W cp b s0 r.2) ∧ appData r.2.log = appData c.log

/-- Giving up after a failed action. -/
theorem orAbort_after {W : World} {cp : Params} {b : Bool} {s0 : Bytes} {c d : Live} {res : Res Unit} {a : Nat}
    (hres : res = alert a ∨ ¬ res.Safe) (ha : a ≠ 0) (ha' : a ≠ 100) (hp : d.st.cp = cp) (hr : d.st.isClient = b)
    (hd : d.out.direction = .write) (hg : d.out.datagram = false) (hl : Logged W cp b s0 d.log)
    (hkeys : d.closed = false → (d.out.heap d.out.cur).seq = (position d.log (0, 0)).2) (hdata : appData d.log = appData c.log)
    (e : Err) : After W cp b s0 c (Live.orAbort e (res, d)) ∧ (Live.orAbort e (res, d)).1 ≠ .ok () ∧
      (∀ e', (Live.orAbort e (res, d)).1 = .err e' → e' = e) := by
  rcases hres with rfl | hres
  · obtain ⟨h1, h2, h3, h4, h5⟩ := abort_spec hp hr hd hg hl hkeys a ha ha' e
    exact ⟨⟨h1, h2, h3.trans hdata⟩, h4, h5⟩
  · cases res with
    | ok u => simp at hres
    | err e => simp at hres
    | panic => exact ⟨⟨hl, fun h => by simp [Live.orAbort] at h, hdata⟩, by simp [Live.orAbort], by simp [Live.orAbort]⟩
    | diverge => exact ⟨⟨hl, fun h => by simp [Live.orAbort] at h, hdata⟩, by simp [Live.orAbort], by simp [Live.orAbort]⟩

/-! ### Key updates -/

/-- The outgoing side, with the secret its keys were made from. -/
structure Ready (W : World) (cp : Params) (b : Bool) (s0 t : Bytes) (d : Live) : Prop where
  dir : d.out.direction = .write
  tls : d.out.datagram = false
  bound : Bounded d.log
  wrote : Wrote W cp b d.log s0 t
  keys : d.closed = false → (d.out.heap d.out.cur).aead = some (W.A cp (keysOf W.E.P cp t).1) ∧
    (d.out.heap d.out.cur).iv = (keysOf W.E.P cp t).2 ∧ (d.out.heap d.out.cur).seq = (position d.log (0, 0)).2

theorem Writes.ready {W : World} {cp : Params} {b : Bool} {s0 : Bytes} {c : Live} (h : Writes W cp b s0 c) :
    ∃ t, Ready W cp b s0 t c ∧ (c.closed = false → t = dirSecret b c.st) := by
  obtain ⟨t, ht, ho⟩ := h.wrote
  exact ⟨t, ⟨h.dir, h.tls, h.bound, ht, fun hc => (ho hc).2⟩, fun hc => (ho hc).1⟩

theorem Ready.writes {W : World} {cp : Params} {b : Bool} {s0 t : Bytes} {c : Live} (h : Ready W cp b s0 t c)
    (hp : c.st.cp = cp) (hr : c.st.isClient = b) (ht : c.closed = false → t = dirSecret b c.st) : Writes W cp b s0 c :=
  ⟨hp, hr, h.dir, h.tls, h.bound, t, h.wrote, fun hc => ⟨ht hc, h.keys hc⟩⟩

/-- The same connection but for things the outgoing side does not depend on. -/
theorem Ready.congr {W : World} {cp : Params} {b : Bool} {s0 t : Bytes} {c d : Live} (h : Ready W cp b s0 t c)
    (h1 : d.out = c.out) (h2 : d.log = c.log) (h3 : d.closed = c.closed) : Ready W cp b s0 t d :=
  ⟨by rw [h1]; exact h.dir, by rw [h1]; exact h.tls, by rw [h2]; exact h.bound, by rw [h2]; exact h.wrote,
    by rw [h1, h2, h3]; exact h.keys⟩

theorem keyUpdate_spec {E : Env} (hP : E.P.Sized) (x : Ctx) (s : Connected) (hs : 0 < s.cp.hash.size) (r : UInt8) :
    ∃ s' m x', s.keyUpdate E x r = .ok (s', [.queue m, .sendQueued,
        .rekeyOut epochUpdate (keysOf E.P s.cp (dirNext E.P s.cp s.isClient (dirSecret s.isClient s)))], x') ∧
      m.marshal false = [24, 0, 0, 1, r] ∧ s'.cp = s.cp ∧ s'.isClient = s.isClient ∧
      dirSecret s.isClient s' = dirNext E.P s.cp s.isClient (dirSecret s.isClient s) ∧
      dirSecret (!s.isClient) s' = dirSecret (!s.isClient) s := by
  obtain ⟨s', m, x', hk, -, h1, h2, h3, h4, h5, h6⟩ := connected_keyUpdate hP x s hs r
  refine ⟨s', m, x', hk, ?_, h3, h4, h5, h6⟩
  have hlen : m.length = 1 := by
    simp only [Connected.keyUpdate, Res.bind_eq_ok, orAlert_ok, Res.ok.injEq, Prod.mk.injEq, List.cons.injEq, Action.queue.injEq] at hk
    obtain ⟨-, -, -, -, ⟨m', x''⟩, hm, -, ⟨rfl, -⟩, -⟩ := hk
    obtain ⟨d, hd, rfl, -⟩ := mkMsg_ok hm
    simp only at h2
    simp [h2]
  simp [Msg.marshal, h1, h2, hlen, beBytes]

/-- Sending a KeyUpdate and changing the keys for writing. -/
theorem send_update {W : World} (hl : W.Lawful) {cp : Params} {b : Bool} {s0 t : Bytes} {d : Live} (h : Ready W cp b s0 t d)
    (hcp : d.st.cp = cp) {m : Msg} {r : UInt8} (hm : m.marshal false = [24, 0, 0, 1, r]) {K : Machine.Keys}
    (hK : d.closed = false → K = keysOf W.E.P cp (dirNext W.E.P cp b t)) :
    (∃ k w, d.takeAll W [.queue m, .sendQueued, .rekeyOut epochUpdate K] = (.ok (), { d with
          out := k, wire := w, log := d.log ++ [.record 22 [24, 0, 0, 1, r] 0, .rekey epochUpdate (W.A cp K.1) K.2] }) ∧
        d.closed = false ∧ Ready W cp b s0 (dirNext W.E.P cp b t) { d with
          out := k, wire := w, log := d.log ++ [.record 22 [24, 0, 0, 1, r] 0, .rekey epochUpdate (W.A cp K.1) K.2] }) ∨
    (∃ res k, d.takeAll W [.queue m, .sendQueued, .rekeyOut epochUpdate K] = (res, { d with out := k }) ∧
      (res = alert Alert.internalError ∨ ¬ res.Safe) ∧ Ready W cp b s0 t { d with out := k }) := by
  rcases queue_cases W d m (fun hc => ⟨_, (h.keys hc).1, hl _ _⟩) with ⟨rec, k, he, hcl, hw⟩ | ⟨res, k, he, hres, hd, hg, hk⟩
  · rw [hm] at he hw
    obtain ⟨h1, h2, h3, h4, h5, h6⟩ := writeRecord_keys hw
    obtain ⟨o2, o3, o4⟩ := h.keys hcl
    have hK := hK hcl
    refine .inl ⟨_, _, by simp only [Live.takeAll, he]; simp only [Live.takeAction, hcp, List.append_assoc, List.singleton_append]; rfl, hcl, ?_⟩
    have hb1 : Bounded (d.log ++ [.record 22 [24, 0, 0, 1, r] 0]) := by
      refine h.bound.snoc _ ?_
      rw [position_snoc_record]; simp only; omega
    have hpos : ∀ e a iv, position (d.log ++ [.record 22 [24, 0, 0, 1, r] 0] ++ [.rekey e a iv]) (0, 0) =
        ((position d.log (0, 0)).1 + 1, 0) := by
      intro e a iv
      rw [position_append, position_snoc_record]; rfl
    refine ⟨h1.trans h.dir, h2.trans h.tls, ?_, ?_, fun _ => ?_⟩
    · have := hb1.snoc (.rekey epochUpdate (W.A cp K.1) K.2) (by rw [hpos]; simp)
      simpa using this
    · rw [hK]
      exact h.wrote.append (.update r _ _ _ (.nil _))
    · simp only [Record.Keys.rekey, upd_same]
      refine ⟨by rw [hK], by rw [hK], ?_⟩
      have := hpos epochUpdate (W.A cp K.1) K.2
      simp only [List.append_assoc, List.singleton_append] at this
      rw [this]
  · refine .inr ⟨res, k, ?_, hres, hd.trans h.dir, hg.trans h.tls, h.bound, h.wrote, fun hc => ?_⟩
    · rw [Live.takeAll, he]
      cases res with
      | ok u => rcases hres with hres | hres
                · cases hres
                · simp at hres
      | err e => rfl
      | panic => rfl
      | diverge => rfl
    · obtain rfl := hk hc
      exact h.keys hc

/-- `SendKeyUpdate`. -/
theorem update_after {W : World} (hl : W.Lawful) (hP : W.E.P.Sized) {cp : Params} (hs : 0 < cp.hash.size) {b : Bool} {s0 : Bytes}
    {c : Live} (h : Writes W cp b s0 c) (request : Bool) : After W cp b s0 c (c.update W request) := by
  obtain ⟨t, ht, hts⟩ := h.ready
  obtain ⟨rfl, rfl⟩ : cp = c.st.cp ∧ b = c.st.isClient := ⟨h.params.symm, h.role.symm⟩
  obtain ⟨s', m, x', hk, hm, hcp, hic, hw, hr⟩ := keyUpdate_spec hP c.x c.st hs (if request then 1 else 0)
  have hR : Ready W c.st.cp c.st.isClient s0 t { c with st := s', x := x' } := ht.congr rfl rfl rfl
  unfold Live.update
  rw [hk]
  dsimp only
  rcases send_update hl hR hcp hm (K := keysOf W.E.P c.st.cp (dirNext W.E.P c.st.cp c.st.isClient (dirSecret c.st.isClient c.st)))
    (fun hc => by rw [hts hc]) with ⟨k, w, he, hcl, hR'⟩ | ⟨res, k, he, hres, hR'⟩
  · rw [he]
    have hW : Writes W c.st.cp c.st.isClient s0 _ := hR'.writes hcp hic (fun hc => by rw [hts hc]; exact hw.symm)
    refine ⟨hW.logged, fun _ => hW, ?_⟩
    simp [Live.orAbort, appData_append, appData]
  · rw [he]
    refine (orAbort_after hres (by decide) (by decide) hcp hic hR'.dir hR'.tls ⟨⟨t, hR'.wrote⟩, hR'.bound⟩
      (fun hc => (hR'.keys hc).2.2) rfl .msg).1

/-! ### Tickets -/

theorem ticket_after {W : World} (hl : W.Lawful) {cp : Params} {b : Bool} {s0 : Bytes} {c : Live} (h : Writes W cp b s0 c)
    (now : Int) (lifetime early ageAdd : UInt32) (nonce tkt : Bytes) :
    After W cp b s0 c (c.ticket W now lifetime early ageAdd nonce tkt) := by
  obtain ⟨t, ht, hts⟩ := h.ready
  unfold Live.ticket
  cases hn : c.st.newSessionTicket W.E c.x now lifetime early ageAdd nonce tkt with
  | err e => exact ⟨h.logged, fun _ => h, rfl⟩
  | panic => exact ⟨h.logged, by simp, rfl⟩
  | diverge => exact ⟨h.logged, by simp, rfl⟩
  | ok z =>
    obtain ⟨acts, x'⟩ := z
    simp only [Connected.newSessionTicket, Res.bind_eq_ok, orAlert_ok, Res.ok.injEq, Prod.mk.injEq] at hn
    obtain ⟨exts, -, psk, -, ⟨m, x2⟩, hm, rfl, rfl⟩ := hn
    obtain ⟨d, hd, rfl, -⟩ := mkMsg_ok hm
    have hbody : toBody W.E.parses (Body.newSessionTicket ⟨lifetime, ageAdd, nonce, tkt, exts⟩).type d = _ :=
      C31_body_roundtrip_partial W.E.parses (.newSessionTicket _) d trivial hd
    dsimp only
    -- the connection after the PSK was stored
    generalize hc1 : ({ c with x := x2, stored := c.stored ++ [(if c.st.isClient then c.serverName else hexString psk.identity, psk)] } : Live) = c1
    have hst : ({ c with x := x2 } : Live).takeAction W (.storePsk psk) = (.ok (), c1) := by rw [← hc1]; rfl
    have hst1 : c1.st = c.st := by rw [← hc1]
    have hR : Ready W cp b s0 t c1 := by rw [← hc1]; exact ht.congr rfl rfl rfl
    have hcl1 : c1.closed = c.closed := by rw [← hc1]
    have hlog1 : c1.log = c.log := by rw [← hc1]
    rw [Live.takeAll, hst]
    dsimp only
    rcases queue_cases W c1 ⟨(Body.newSessionTicket ⟨lifetime, ageAdd, nonce, tkt, exts⟩).type, c.x.outSeq, d, 0, d.length % 2 ^ 32⟩
      (fun hc => ⟨_, (hR.keys hc).1, hl _ _⟩) with ⟨rec, k, he, hcl, hw⟩ | ⟨res, k, he, hres, hd', hg, hk⟩
    · obtain ⟨h1, h2, h3, h4, h5, h6⟩ := writeRecord_keys hw
      obtain ⟨o2, o3, o4⟩ := hR.keys hcl
      have hsmall : d.length < 2 ^ 14 := by
        rcases Nat.lt_or_ge d.length (2 ^ 14) with hlt | hge
        · exact hlt
        · exact absurd hw (seal_too_long o2 (hl _ _) (by simp [Msg.marshal]; omega) _)
      have hmar : Msg.marshal false ⟨(Body.newSessionTicket ⟨lifetime, ageAdd, nonce, tkt, exts⟩).type, c.x.outSeq, d, 0, d.length % 2 ^ 32⟩ =
          (Body.newSessionTicket ⟨lifetime, ageAdd, nonce, tkt, exts⟩).type :: beBytes 3 d.length ++ d := by
        simp only [Msg.marshal, Bool.false_eq_true, if_false]
        rw [Nat.mod_eq_of_lt (by omega)]
      rw [hmar] at he hw
      simp only [Live.takeAll, he]
      have hq : ({ c1 with out := k, wire := c1.wire ++ rec, log := c1.log ++ [.record 22 ((Body.newSessionTicket ⟨lifetime, ageAdd, nonce, tkt, exts⟩).type :: beBytes 3 d.length ++ d) 0] } : Live).takeAction W .sendQueued =
        (.ok (), { c1 with out := k, wire := c1.wire ++ rec, log := c1.log ++ [.record 22 ((Body.newSessionTicket ⟨lifetime, ageAdd, nonce, tkt, exts⟩).type :: beBytes 3 d.length ++ d) 0] }) := rfl
      rw [hq]
      dsimp only
      have hb1 := hR.bound.snoc (.record 22 ((Body.newSessionTicket ⟨lifetime, ageAdd, nonce, tkt, exts⟩).type :: beBytes 3 d.length ++ d) 0)
        (by rw [position_snoc_record]; simp only; omega)
      have hW : Writes W cp b s0 { c1 with out := k, wire := c1.wire ++ rec, log := c1.log ++ [.record 22 ((Body.newSessionTicket ⟨lifetime, ageAdd, nonce, tkt, exts⟩).type :: beBytes 3 d.length ++ d) 0] } := by
        refine ⟨by rw [hst1]; exact h.params, by rw [hst1]; exact h.role, h1.trans hR.dir, h2.trans hR.tls, hb1, t, ?_, fun hc => ?_⟩
        · exact hR.wrote.append (.ticket ⟨_, 0, d, 0, 0⟩ _ _ _ _ hbody (by simp only; omega) (.nil _))
        · refine ⟨by rw [hst1]; exact hts (by rw [← hcl1]; exact hc), h3.trans o2, h4.trans o3, ?_⟩
          rw [position_snoc_record]; simp only; rw [h5, o4]
      refine ⟨hW.logged, fun _ => hW, ?_⟩
      simp [appData_append, appData, hlog1]
    · rw [Live.takeAll, he]
      have hR' : Ready W cp b s0 t { c1 with out := k } := ⟨hd'.trans hR.dir, hg.trans hR.tls, hR.bound, hR.wrote, fun hc => by
        obtain rfl := hk hc; exact hR.keys hc⟩
      rcases hres with rfl | hres
      · obtain ⟨h1, h2, h3, _, _⟩ := abort_spec (c := { c1 with out := k }) (by rw [hst1]; exact h.params) (by rw [hst1]; exact h.role)
          hR'.dir hR'.tls ⟨⟨t, hR'.wrote⟩, hR'.bound⟩ (fun hc => (hR'.keys hc).2.2) Alert.internalError (by decide) (by decide)
          (.alert Alert.internalError)
        exact ⟨h1, h2, h3.trans (by rw [hlog1])⟩
      · cases res with
        | ok u => simp at hres
        | err e => simp at hres
        | panic => exact ⟨⟨⟨t, hR'.wrote⟩, hR'.bound⟩, by simp, by simp [hlog1]⟩
        | diverge => exact ⟨⟨⟨t, hR'.wrote⟩, hR'.bound⟩, by simp, by simp [hlog1]⟩

end Verif.Conn
