import Verif.Conn.Reading

/-
What a reader returns is what the writer wrote.
-/

namespace Verif.Conn

open Verif Verif.Crypto Verif.Messages Verif.Negotiation Verif.Handshake Verif.Machine Verif.Spec Verif.Record

/-! ### What writing leaves alone -/

/-- Nothing changed on the incoming side. -/
structure SameIn (c c' : Live) : Prop where
  cp : c'.st.cp = c.st.cp
  role : c'.st.isClient = c.st.isClient
  secret : dirSecret (!c.st.isClient) c'.st = dirSecret (!c.st.isClient) c.st
  rest : c'.hsRest = c.hsRest
  reader : c'.reader = c.reader
  buffer : c'.readBuffer = c.readBuffer

theorem SameIn.refl (c : Live) : SameIn c c := ⟨rfl, rfl, rfl, rfl, rfl, rfl⟩

theorem SameIn.trans {a b c : Live} (h : SameIn a b) (h' : SameIn b c) : SameIn a c := by
  obtain ⟨h1, h2, h3, h4, h5, h6⟩ := h
  obtain ⟨g1, g2, g3, g4, g5, g6⟩ := h'
  rw [h2] at g3
  exact ⟨g1.trans h1, g2.trans h2, g3.trans h3, g4.trans h4, g5.trans h5, g6.trans h6⟩

theorem writeRecord_same (c : Live) (ct : UInt8) (f : Bytes) : SameIn c (c.writeRecord ct f).2 ∧ (c.writeRecord ct f).2.st = c.st := by
  rcases writeRecord_cases c ct f with ⟨rec, k, he, _⟩ | ⟨res, k, he, _⟩
  · rw [he]; exact ⟨⟨rfl, rfl, rfl, rfl, rfl, rfl⟩, rfl⟩
  · rw [he]; exact ⟨⟨rfl, rfl, rfl, rfl, rfl, rfl⟩, rfl⟩

theorem sendAlert_same (c : Live) (a : Nat) : SameIn c (c.sendAlert a).2 := by
  have h := (writeRecord_same c 21 [UInt8.ofNat a, if a = 100 ∨ a = Alert.closeNotify then 1 else 2]).1
  unfold Live.sendAlert
  dsimp only
  split
  · rename_i he; rw [he] at h; exact h
  · rename_i he; rw [he] at h; exact h
  · rename_i he
    rw [he] at h
    split
    · exact h
    · exact ⟨h.cp, h.role, h.secret, h.rest, h.reader, h.buffer⟩

theorem sendAlert_res (c : Live) (a : Nat) : (c.sendAlert a).1 = .ok () ∨ ¬ (c.sendAlert a).1.Safe := by
  unfold Live.sendAlert
  dsimp only
  split
  · exact .inr (by simp)
  · exact .inr (by simp)
  · exact .inl rfl

theorem abort_same (c : Live) (a : Nat) (e : Err) : SameIn c (c.abort a e).2 := by
  have h := sendAlert_same c a
  unfold Live.abort
  split
  · rename_i he; rw [he] at h; exact h
  · exact h

theorem abort_res (c : Live) (a : Nat) (e : Err) : (c.abort a e).1 = .err e ∨ ¬ (c.abort a e).1.Safe := by
  have h := sendAlert_res c a
  unfold Live.abort
  split
  · exact .inl rfl
  · rename_i hne
    rcases h with h | h
    · exfalso
      exact hne () (c.sendAlert a).2 (by rw [← h])
    · exact .inr h

theorem writeFragments_same (fs : List Bytes) (c : Live) : SameIn c (c.writeFragments fs).2 ∧ (c.writeFragments fs).2.st = c.st := by
  induction fs generalizing c with
  | nil => exact ⟨.refl c, rfl⟩
  | cons f fs ih =>
    rw [Live.writeFragments]
    obtain ⟨h1, h2⟩ := writeRecord_same c 22 f
    split
    · rename_i he
      rw [he] at h1 h2
      exact ⟨h1.trans (ih _).1, (ih _).2.trans h2⟩
    · exact ⟨h1, h2⟩

theorem internal_snd (r : Res Unit × Live) : (internal r).2 = r.2 := by
  unfold internal; split <;> rfl

/-- Actions that do not change the keys for reading. -/
def noRekeyIn : Action → Bool
  | .rekeyIn _ _ => false
  | _ => true

theorem takeAction_same (W : World) (c : Live) (a : Action) (h : noRekeyIn a = true) :
    SameIn c (c.takeAction W a).2 ∧ (c.takeAction W a).2.st = c.st := by
  cases a with
  | queue m =>
    rw [Live.takeAction]
    split
    · rw [internal_snd]; exact writeFragments_same _ c
    · exact ⟨.refl c, rfl⟩
    · exact ⟨.refl c, rfl⟩
    · exact ⟨.refl c, rfl⟩
  | sendQueued => exact ⟨.refl c, rfl⟩
  | rekeyIn e k => cases h
  | rekeyOut e k => exact ⟨⟨rfl, rfl, rfl, rfl, rfl, rfl⟩, rfl⟩
  | resetOut s => exact ⟨⟨rfl, rfl, rfl, rfl, rfl, rfl⟩, rfl⟩
  | storePsk p => exact ⟨⟨rfl, rfl, rfl, rfl, rfl, rfl⟩, rfl⟩

theorem takeAll_same (W : World) (as : List Action) (c : Live) (h : ∀ a ∈ as, noRekeyIn a = true) :
    SameIn c (c.takeAll W as).2 ∧ (c.takeAll W as).2.st = c.st := by
  induction as generalizing c with
  | nil => exact ⟨.refl c, rfl⟩
  | cons a as ih =>
    rw [Live.takeAll]
    obtain ⟨h1, h2⟩ := takeAction_same W c a (h a (by simp))
    split
    · rename_i c' he
      rw [he] at h1 h2
      obtain ⟨i1, i2⟩ := ih c' (fun a ha => h a (by simp [ha]))
      exact ⟨h1.trans i1, i2.trans h2⟩
    · exact ⟨h1, h2⟩

theorem takeAction_err (W : World) (c : Live) (a : Action) (e : Err) (h : (c.takeAction W a).1 = .err e) : ∃ n, e = .alert n := by
  cases a with
  | queue m =>
    rw [Live.takeAction] at h
    split at h
    · rename_i fs _
      rcases hx : c.writeFragments fs with ⟨res, d⟩
      rw [hx] at h
      cases res with
      | ok u => simp [internal] at h
      | err e' => simp only [internal, alert, Res.err.injEq] at h; exact ⟨_, h.symm⟩
      | panic => simp [internal] at h
      | diverge => simp [internal] at h
    · simp only [alert, Res.err.injEq] at h; exact ⟨_, h.symm⟩
    · simp at h
    · simp at h
  | rekeyIn ep k =>
    rw [Live.takeAction] at h
    split at h
    · simp only [alert, Res.err.injEq] at h; exact ⟨_, h.symm⟩
    · simp at h
  | _ => simp [Live.takeAction] at h

theorem takeAll_err (W : World) (as : List Action) (c : Live) (e : Err) (h : (c.takeAll W as).1 = .err e) : ∃ n, e = .alert n := by
  induction as generalizing c with
  | nil => simp [Live.takeAll] at h
  | cons a as ih =>
    rw [Live.takeAll] at h
    split at h
    · exact ih _ h
    · exact takeAction_err W c a e h

/-- Giving up: only end of file, or a panic. -/
theorem orAbort_res (e : Err) (r : Res Unit × Live) (hok : r.1 ≠ .ok ()) (herr : ∀ e', r.1 = .err e' → ∃ n, e' = .alert n) :
    (Live.orAbort e r).1 = .err e ∨ ¬ (Live.orAbort e r).1.Safe := by
  obtain ⟨res, d⟩ := r
  cases res with
  | ok u => exact absurd rfl hok
  | err e' =>
    obtain ⟨n, rfl⟩ := herr e' rfl
    exact abort_res d n e
  | panic => exact .inr (by simp [Live.orAbort])
  | diverge => exact .inr (by simp [Live.orAbort])

theorem orAbort_same (e : Err) (c : Live) (r : Res Unit × Live) (h : SameIn c r.2) : SameIn c (Live.orAbort e r).2 := by
  obtain ⟨res, d⟩ := r
  unfold Live.orAbort
  split
  · rename_i he
    simp only [Prod.mk.injEq] at he
    obtain ⟨_, rfl⟩ := he
    exact h.trans (abort_same _ _ _)
  · exact h

theorem update_same {W : World} (hP : W.E.P.Sized) (c : Live) (hs : 0 < c.st.cp.hash.size) (request : Bool) :
    SameIn c (c.update W request).2 := by
  obtain ⟨s', m, x', hk, _, hcp, hic, _, hr⟩ := keyUpdate_spec hP c.x c.st hs (if request then 1 else 0)
  unfold Live.update
  rw [hk]
  dsimp only
  refine orAbort_same _ _ _ ?_
  have h1 : SameIn c { c with st := s', x := x' } := ⟨hcp, hic, hr, rfl, rfl, rfl⟩
  refine h1.trans (takeAll_same W _ _ ?_).1
  intro a ha
  simp only [List.mem_cons, List.not_mem_nil, or_false] at ha
  rcases ha with rfl | rfl | rfl <;> rfl

theorem ticket_same (W : World) (c : Live) (now : Int) (lifetime early ageAdd : UInt32) (nonce tkt : Bytes) :
    SameIn c (c.ticket W now lifetime early ageAdd nonce tkt).2 := by
  unfold Live.ticket
  split
  · rename_i acts x hn
    have h1 : SameIn c { c with x := x } := ⟨rfl, rfl, rfl, rfl, rfl, rfl⟩
    have hall : ∀ a ∈ acts, noRekeyIn a = true := by
      simp only [Connected.newSessionTicket, Res.bind_eq_ok, orAlert_ok, Res.ok.injEq, Prod.mk.injEq] at hn
      obtain ⟨exts, -, psk, -, ⟨m, x2⟩, -, rfl, -⟩ := hn
      intro a ha
      simp only [List.mem_cons, List.not_mem_nil, or_false] at ha
      rcases ha with rfl | rfl | rfl <;> rfl
    have h2 := h1.trans (takeAll_same W acts { c with x := x } hall).1
    split
    · rename_i he
      rw [he] at h2
      exact h2.trans (abort_same _ _ _)
    · exact h2
  · exact .refl c
  · exact .refl c
  · exact .refl c

theorem writeAll_same (fs : List Bytes) (sent : Nat) (c : Live) : SameIn c (c.writeAll fs sent).2 := by
  induction fs generalizing sent c with
  | nil => exact .refl c
  | cons f fs ih =>
    rw [Live.writeAll]
    have h := (writeRecord_same c 23 f).1
    split
    · rename_i he; rw [he] at h; exact h.trans (ih _ _)
    all_goals
      rename_i he; rw [he] at h; exact h

/-! ### Where the reader is -/

theorem position_shift (L : List Item) (g j : Nat) :
    position L (g, j) = (g + (position L (0, j)).1, (position L (0, j)).2) := by
  induction L generalizing g j with
  | nil => simp [position]
  | cons i L ih =>
    cases i with
    | record ct f pad => simp only [position]; rw [ih]
    | rekey e a iv =>
      simp only [position]
      rw [ih (g + 1) 0, ih (0 + 1) 0]
      simp only [Prod.mk.injEq, and_true]
      omega

theorem Wrote.generation {W : World} {cp : Params} {b : Bool} {L : List Item} {s t : Bytes} (h : Wrote W cp b L s t) (j : Nat) :
    t = updates W.E.P cp.hash (dirLabel b) (position L (0, j)).1 s := by
  induction h generalizing j with
  | nil s => rfl
  | plain ct f L s t _ _ ih => simp only [position]; exact ih (j + 1)
  | ticket m tk L s t _ _ _ ih => simp only [position]; exact ih (j + 1)
  | update r L s t _ ih =>
    simp only [position]
    rw [position_shift, Nat.zero_add, Nat.add_comm 1]
    exact ih 0

theorem keysOf_generation {W : World} {cp : Params} {b : Bool} {L : List Item} {s t : Bytes} (h : Wrote W cp b L s t) :
    keysOf W.E.P cp t = Spec.generation W cp b s (position L (0, 0)).1 := by
  rw [h.generation 0]; rfl

/-- The bodies of frames have the announced length. -/
theorem frameEvents_length {s h b : Bytes} (hm : .ok (h, b) ∈ frameEvents (recordFraming false) s) :
    h.length = 5 ∧ (recordFraming false).frameLen h = .ok b.length := by
  induction hn : s.length using Nat.strongRecOn generalizing s with
  | _ n ih =>
    rw [frameEvents] at hm
    split at hm
    · simp at hm
    · rename_i hlen
      have h5 : (recordFraming false).headerLen = 5 := rfl
      rw [h5] at hm hlen
      split at hm
      · rename_i e he
        simp [recordFraming] at he
      · rename_i k hk
        split at hm
        · simp at hm
        · rename_i hbig
          simp only [List.mem_cons] at hm
          rcases hm with hm | hm
          · simp only [Except.ok.injEq, Prod.mk.injEq] at hm
            obtain ⟨rfl, rfl⟩ := hm
            refine ⟨by simp; omega, ?_⟩
            rw [hk, Except.ok.injEq, List.length_take]
            omega
          · exact ih _ (by simp; omega) hm rfl

theorem frames_length {r : Reader} (hi : r.Inv) (hd : r.keys.datagram = false) {h b : Bytes} (hm : .ok (h, b) ∈ r.frames) :
    h.length = 5 ∧ (recordFraming false).frameLen h = .ok b.length := by
  unfold Reader.frames FrameReader.future at hm
  rw [hd] at hm
  unfold Reader.Inv at hi
  rw [hd] at hi
  dsimp only at hm
  split at hm
  · rename_i hb
    split at hm
    · simp at hm
    · rename_i hlen
      simp only [List.mem_cons] at hm
      rcases hm with hm | hm
      · simp only [Except.ok.injEq, Prod.mk.injEq] at hm
        obtain ⟨rfl, rfl⟩ := hm
        obtain ⟨h1, h2⟩ := hi.body hb
        refine ⟨h1, ?_⟩
        rw [h2, Except.ok.injEq, List.length_take]
        omega
      · exact frameEvents_length hm
  · exact frameEvents_length hm

theorem announced_frame {h b : Bytes} (hl : h.length = 5) (hf : (recordFraming false).frameLen h = .ok b.length) :
    (b ++ List.replicate (announced h) 0).take (announced h) = b := by
  have : announced h = b.length := by
    simp only [recordFraming, Bool.false_eq_true, if_false, Except.ok.injEq] at hf
    simp only [announced, hl]
    omega
  rw [this]
  simp

/-- The incoming side, having read the part `p` of the other end's history `L`, and having returned the bytes `got`. -/
structure ReadsAt (W : World) (cp : Params) (b : Bool) (s0 : Bytes) (L : List Item) (F : List FrameEvent) (got : Bytes) (c : Live)
    (p q : List Item) : Prop where
  params : c.st.cp = cp
  role : c.st.isClient = b
  rest : c.hsRest = []
  inv : c.reader.Inv
  cached : c.reader.cached = none
  tls : c.reader.keys.datagram = false
  frames : ∀ e ∈ c.reader.frames, e ∈ F
  split : L = p ++ q
  before : Wrote W cp (!b) p s0 (dirSecret (!b) c.st)
  after : ∃ t, Wrote W cp (!b) q (dirSecret (!b) c.st) t
  aead : (c.reader.keys.heap c.reader.keys.cur).aead = some (W.A cp (keysOf W.E.P cp (dirSecret (!b) c.st)).1)
  iv : (c.reader.keys.heap c.reader.keys.cur).iv = (keysOf W.E.P cp (dirSecret (!b) c.st)).2
  seq : (c.reader.keys.heap c.reader.keys.cur).seq = (position p (0, 0)).2
  data : appData p = got ++ c.readBuffer

def Reads (W : World) (cp : Params) (b : Bool) (s0 : Bytes) (L : List Item) (F : List FrameEvent) (got : Bytes) (c : Live) : Prop :=
  ∃ p q, ReadsAt W cp b s0 L F got c p q

theorem Reads.same {W : World} {cp : Params} {b : Bool} {s0 : Bytes} {L : List Item} {F : List FrameEvent} {got : Bytes} {c c' : Live}
    (h : Reads W cp b s0 L F got c) (hs : SameIn c c') : Reads W cp b s0 L F got c' := by
  obtain ⟨p, q, h⟩ := h
  obtain ⟨h1, h2, h3, h4, h5, h6⟩ := hs
  have hb := h.role
  rw [hb] at h3
  refine ⟨p, q, h1.trans h.params, h2.trans hb, h4.trans h.rest, ?_, ?_, ?_, ?_, h.split, ?_, ?_, ?_, ?_, ?_, ?_⟩
  · rw [h5]; exact h.inv
  · rw [h5]; exact h.cached
  · rw [h5]; exact h.tls
  · rw [h5]; exact h.frames
  · rw [h3]; exact h.before
  · rw [h3]; exact h.after
  · rw [h5, h3]; exact h.aead
  · rw [h5, h3]; exact h.iv
  · rw [h5]; exact h.seq
  · rw [h6]; exact h.data

/-- A record that is read is the next one the writer wrote. -/
theorem next_record {W : World} {cp : Params} {b : Bool} {s0 : Bytes} {L : List Item} {F : List FrameEvent} {got : Bytes} {c : Live}
    {p q : List Item} (h : ReadsAt W cp b s0 L F got c p q) (hb : Bounded L) (hF : NoForgery W cp (!b) s0 L F)
    (pt : Plaintext) (r : Reader) (hr : Record.readRecord c.reader false = (.ok pt, r)) :
    ∃ q', q = .record pt.contentType pt.fragment 0 :: q' ∧ r.Inv ∧ r.cached = none ∧ r.keys.datagram = false ∧
      (∀ e ∈ r.frames, e ∈ F) ∧ r.keys.cur = c.reader.keys.cur ∧
      (r.keys.heap r.keys.cur).aead = (c.reader.keys.heap c.reader.keys.cur).aead ∧
      (r.keys.heap r.keys.cur).iv = (c.reader.keys.heap c.reader.keys.cur).iv ∧
      (r.keys.heap r.keys.cur).seq = (c.reader.keys.heap c.reader.keys.cur).seq + 1 := by
  obtain ⟨h1, -, h3, h4⟩ := nextRecord_spec c.reader false h.inv h.cached
  simp only [Record.readRecord, Prod.mk.injEq] at hr
  obtain ⟨hres, rfl⟩ := hr
  rcases h4 with ⟨hd, bd, fs, e1, e2, e3⟩ | ⟨e, e0, -⟩
  · rcases e3 with ⟨pt', k, ho, e6, e7, -⟩ | ⟨e5, e6, -⟩
    · rw [e6, Res.ok.injEq] at hres
      subst hres
      obtain ⟨i, seq, hsel, -, hs, -, hk, -, -, hcase⟩ := openRecord_ok ho
      have hsel' : i = c.reader.keys.cur ∧ seq = (c.reader.keys.heap c.reader.keys.cur).seq := by
        simp only [selectCipher, h.tls, Bool.false_eq_true, if_false, Res.ok.injEq, Prod.mk.injEq] at hsel
        exact ⟨hsel.1.symm, hsel.2.symm⟩
      obtain ⟨rfl, rfl⟩ := hsel'
      rcases hcase with ⟨a', -, -, hdec⟩ | ⟨hn, -⟩
      · have hmem : (.ok (hd, bd) : FrameEvent) ∈ c.reader.frames := by rw [e1]; simp
        obtain ⟨l1, l2⟩ := frames_length h.inv h.tls hmem
        rw [announced_frame l1 l2] at hdec
        unfold decrypt at hdec
        split at hdec
        · simp at hdec
        · split at hdec
          · simp at hdec
          · rw [h.aead] at hdec
            simp only [Res.bind_eq_ok] at hdec
            obtain ⟨nonce, hnonce, hdec⟩ := hdec
            split at hdec
            · simp at hdec
            · rename_i pl hp
              rw [keysOf_generation h.before] at hp
              have hle : (position p (0, 0)).1 ≤ (position L (0, 0)).1 := by
                rw [h.split, position_append]
                by_cases hq : q = []
                · subst hq; exact Nat.le_refl _
                · have := position_lt q hq (position p (0, 0)).1 (position p (0, 0)).2
                  rw [show ((position p (0, 0)).1, (position p (0, 0)).2) = position p (0, 0) from rfl] at this
                  omega
              obtain ⟨pre, ct, f, pad, post, j, g1, g2, g3, rfl⟩ := hF _ _ _ _ _ hle (h.frames _ hmem) hp
              have hj : j < 2 ^ 48 := by
                have := hb pre _ g1
                rw [g2] at this; exact this
              have hjs := computeNonce_inj (c := c.reader.keys.heap c.reader.keys.cur)
                (c' := ⟨0, 0, (Spec.generation W cp (!b) s0 (position p (0, 0)).1).2, none⟩)
                (by rw [h.iv, keysOf_generation h.before]) (by omega) (by omega) hnonce g3
              rw [h.seq] at hjs
              have hpp : pre = p := position_inj g1 h.split (by rw [g2, ← hjs])
              subst hpp
              have hq : q = .record ct f pad :: post := by
                have := h.split.symm.trans g1
                exact List.append_cancel_left this
              obtain ⟨t, ht⟩ := h.after
              rw [hq] at ht
              have hct : ct ≠ 0 ∧ pad = 0 := by
                cases ht with
                | plain _ _ _ _ _ hc _ => rcases hc with rfl | rfl <;> exact ⟨by decide, rfl⟩
                | ticket => exact ⟨by decide, rfl⟩
                | update => exact ⟨by decide, rfl⟩
              obtain ⟨hct, rfl⟩ := hct
              rw [stripPadding_inner _ _ _ hct, Res.ok.injEq, Prod.mk.injEq] at hdec
              refine ⟨post, by rw [hq, hdec.1, hdec.2], h1, rfl, ?_, ?_, ?_, ?_, ?_, ?_⟩
              · show (nextRecord c.reader false).2.keys.datagram = false
                rw [h3]; exact h.tls
              · show ∀ e ∈ (nextRecord c.reader false).2.frames, e ∈ F
                rw [e2]
                intro e he
                exact h.frames e (by rw [e1]; simp [he])
              all_goals
                show _
                simp only [e7, hk, upd_same]
      · rw [h.aead] at hn; cases hn
    · rw [e6, Res.bind_eq_ok] at hres
      obtain ⟨x, hx, -⟩ := hres
      exact absurd hx (e5 x)
  · rw [e0] at hres; cases hres

/-- A read that fails leaves the position alone. -/
theorem no_record {W : World} {cp : Params} {b : Bool} {s0 : Bytes} {L : List Item} {F : List FrameEvent} {got : Bytes} {c : Live}
    {p q : List Item} (h : ReadsAt W cp b s0 L F got c p q) (res : Res Plaintext) (hres : ∀ pt, res ≠ .ok pt) (r : Reader)
    (hr : Record.readRecord c.reader false = (res, r)) : ReadsAt W cp b s0 L F got { c with reader := r } p q := by
  obtain ⟨h1, -, h3, h4⟩ := nextRecord_spec c.reader false h.inv h.cached
  simp only [Record.readRecord, Prod.mk.injEq] at hr
  obtain ⟨hr1, rfl⟩ := hr
  have key : (nextRecord c.reader false).2.keys = c.reader.keys ∧ ∀ e ∈ (nextRecord c.reader false).2.frames, e ∈ F := by
    rcases h4 with ⟨hd, bd, fs, e1, e2, e3⟩ | ⟨e, e0, ek, -, e4⟩
    · rcases e3 with ⟨pt', k, ho, e6, e7, -⟩ | ⟨e5, e6, e7, -⟩
      · exact absurd (hr1.symm.trans e6) (hres pt')
      · refine ⟨e7, fun e he => h.frames e ?_⟩
        rw [e2] at he; rw [e1]; simp [he]
    · refine ⟨ek, fun e he => h.frames e ?_⟩
      rcases e4 with ⟨fs, f1, f2⟩ | ⟨f1, -⟩
      · rw [f2] at he; rw [f1]; simp [he]
      · rw [f1] at he; exact he
  refine ⟨h.params, h.role, h.rest, h1, rfl, ?_, key.2, h.split, h.before, h.after, ?_, ?_, ?_, h.data⟩
  · show (nextRecord c.reader false).2.keys.datagram = false
    rw [h3]; exact h.tls
  all_goals
    show _
    simp only [key.1]
  · exact h.aead
  · exact h.iv
  · exact h.seq

/-! ### One record -/

/-- After a call that has not reported end of file, the reader is where it should be. -/
def Keeps (W : World) (cp : Params) (b : Bool) (s0 : Bytes) (L : List Item) (F : List FrameEvent) (got : Bytes) (r : Res Unit × Live) : Prop :=
  r.1 = .ok () ∨ (∃ e, r.1 = .err e ∧ e ≠ .eof) → Reads W cp b s0 L F got r.2

theorem keeps_stop {W : World} {cp : Params} {b : Bool} {s0 : Bytes} {L : List Item} {F : List FrameEvent} {got : Bytes} {r : Res Unit × Live}
    (h : r.1 = .err .eof ∨ ¬ r.1.Safe) : Keeps W cp b s0 L F got r := by
  intro h'
  exfalso
  rcases h' with h' | ⟨e, h', hne⟩
  · rw [h'] at h; simp at h
  · rw [h'] at h
    simp only [Res.err.injEq, Res.safe_err, not_true, or_false] at h
    exact hne h

theorem keyUpdate_toBody (E : Env) (r : UInt8) : toBody E.parses 24 [r] = .ok (.keyUpdate r) := by
  obtain ⟨m, x', hm, h1, h2⟩ := keyUpdate_total ⟨false, 0, []⟩ r
  have := keyUpdate_body (E := E) hm
  rwa [h1, h2] at this

/-- Reading one whole message. -/
theorem postHandshake_one (W : World) (now : Int) (c : Live) (ty : UInt8) (body : Bytes) (hlen : body.length < 2 ^ 24) (n : Nat) :
    Live.postHandshake W now (n + 2) c (ty :: beBytes 3 body.length ++ body) = c.process W now ⟨ty, 0, body, 0, 0⟩ := by
  have h3 : (beBytes 3 body.length).length = 3 := by simp
  rcases hb : beBytes 3 body.length with _ | ⟨b0, _ | ⟨b1, _ | ⟨b2, _ | _⟩⟩⟩ <;> (rw [hb] at h3; simp at h3)
  have hbe : beNat [b0, b1, b2] = body.length := by
    rw [← hb, beNat_beBytes, Nat.mod_eq_of_lt (by omega)]
  rw [Live.postHandshake, if_neg (by simp), if_neg (by simp)]
  simp only [List.cons_append, List.nil_append, List.drop_succ_cons, List.drop_zero, List.take_succ_cons, List.take_zero, hbe,
    List.take_length, List.getD_cons_zero]
  rw [if_neg (by omega)]
  rcases hp : c.process W now ⟨ty, 0, body, 0, 0⟩ with ⟨res, c'⟩
  cases res with
  | ok u =>
    simp only
    rw [show 4 + body.length = body.length + 1 + 1 + 1 + 1 by omega]
    simp only [List.drop_succ_cons, List.drop_length]
    rw [Live.postHandshake, if_pos rfl]
  | err e => rfl
  | panic => rfl
  | diverge => rfl

theorem consume_reads {W : World} (hP : W.E.P.Sized) {cp : Params} (hs : 0 < cp.hash.size) {b : Bool} {s0 : Bytes} {L : List Item}
    {F : List FrameEvent} {got : Bytes} {c : Live} (h : Reads W cp b s0 L F got c) (hb : Bounded L) (hF : NoForgery W cp (!b) s0 L F)
    (now : Int) : Keeps W cp b s0 L F got (c.consume W now) := by
  obtain ⟨p, q, h⟩ := h
  unfold Live.consume
  rcases hr : Record.readRecord c.reader false with ⟨res, r⟩
  have hno : (∀ pt, res ≠ .ok pt) → Reads W cp b s0 L F got { c with reader := r } := fun hres =>
    ⟨p, q, no_record h res hres r hr⟩
  cases res with
  | err e => exact fun _ => hno (by simp)
  | panic => exact keeps_stop (.inr (by simp))
  | diverge => exact keeps_stop (.inr (by simp))
  | ok pt =>
    obtain ⟨q', rfl, n1, n2, n3, n4, n5, n6, n7, n8⟩ := next_record h hb hF pt r hr
    obtain ⟨ct, ep, sq, f⟩ := pt
    dsimp only at h ⊢
    obtain ⟨t, ht⟩ := h.after
    -- after a record that changes no keys
    have moved : ∀ (buf : Bytes), Wrote W cp (!b) [.record ct f 0] (dirSecret (!b) c.st) (dirSecret (!b) c.st) →
        (∃ t, Wrote W cp (!b) q' (dirSecret (!b) c.st) t) → buf = c.readBuffer ++ (if ct = 23 then f else []) →
        ReadsAt W cp b s0 L F got { c with reader := r, readBuffer := buf } (p ++ [.record ct f 0]) q' := by
      intro buf hw ha hbuf
      refine ⟨h.params, h.role, h.rest, n1, n2, n3, n4, by rw [h.split]; simp, h.before.append hw, ha, n6.trans h.aead,
        n7.trans h.iv, ?_, ?_⟩
      · rw [position_snoc_record]; simp only; rw [n8, h.seq]
      · rw [appData_append, h.data, hbuf]; simp [appData]
    cases ht with
    | plain _ _ _ _ _ hct ht' =>
      have hw : Wrote W cp (!b) [.record ct f 0] (dirSecret (!b) c.st) (dirSecret (!b) c.st) := .plain ct f _ _ _ hct (.nil _)
      rcases hct with rfl | rfl
      · intro _
        have := moved (c.readBuffer ++ f) hw ⟨t, ht'⟩ (by simp)
        exact ⟨_, _, this⟩
      · have hR : Reads W cp b s0 L F got { c with reader := r } := ⟨_, _, moved c.readBuffer hw ⟨t, ht'⟩ (by simp)⟩
        have hab := abort_res ({ c with reader := r } : Live) Alert.unexpectedMessage .eof
        have hsame : ∀ x : Res Unit, Keeps W cp b s0 L F got (x, { c with reader := r }) := fun x _ => hR
        simp only [Live.handle, show (21 : UInt8) ≠ 22 by decide, if_false, if_true]
        split
        · split
          · exact hsame _
          · split
            · exact hsame _
            · split
              · exact hsame _
              · exact keeps_stop hab
        · exact keeps_stop hab
    | ticket m tk _ _ _ hbody hlen ht' =>
      have hw := Wrote.ticket (W := W) (cp := cp) (b := !b) m tk [] (dirSecret (!b) c.st) _ hbody hlen (.nil _)
      have hR : Reads W cp b s0 L F got { c with reader := r } := ⟨_, _, moved c.readBuffer hw ⟨t, ht'⟩ (by simp)⟩
      have hhs : ({ c with reader := r } : Live).handle W now 22 (m.msgType :: beBytes 3 m.body.length ++ m.body) =
          ({ c with reader := r } : Live).process W now ⟨m.msgType, 0, m.body, 0, 0⟩ := by
        unfold Live.handle
        rw [if_pos rfl]
        rw [show (m.msgType :: beBytes 3 m.body.length ++ m.body).length + 1 = (m.body.length + 3) + 2 by simp; omega]
        exact postHandshake_one W now _ _ _ hlen _
      rw [hhs]
      unfold Live.process
      dsimp only
      rcases process_cases hP c.x c.st (h.params ▸ hs) now ⟨m.msgType, 0, m.body, 0, 0⟩ with ⟨a, he, ha, ha'⟩ | hun | ⟨psk, he, hc⟩ | ⟨r', hr'⟩
      · rw [he]
        exact keeps_stop (abort_res _ _ _)
      · cases hp : c.st.process W.E c.x now ⟨m.msgType, 0, m.body, 0, 0⟩ with
        | ok z => rw [hp] at hun; simp at hun
        | err e => rw [hp] at hun; simp at hun
        | panic => exact keeps_stop (.inr (by simp))
        | diverge => exact keeps_stop (.inr (by simp))
      · rw [he]
        intro _
        exact hR.same ⟨rfl, rfl, rfl, rfl, rfl, rfl⟩
      · simp only at hr'
        rw [hbody] at hr'; cases hr'
    | update ku q'' _ _ ht' =>
      have hbody := keyUpdate_toBody W.E ku
      have hhs : ({ c with reader := r } : Live).handle W now 22 [24, 0, 0, 1, ku] =
          ({ c with reader := r } : Live).process W now ⟨24, 0, [ku], 0, 0⟩ := by
        unfold Live.handle
        rw [if_pos rfl]
        have := postHandshake_one W now ({ c with reader := r } : Live) 24 [ku] (by simp) 4
        simpa [beBytes] using this
      rw [hhs]
      obtain ⟨s', rest, x', he, hcp, hic, hrd, hrest⟩ := process_update hP c.x c.st (h.params ▸ hs) now (m := ⟨24, 0, [ku], 0, 0⟩) hbody
      unfold Live.process
      dsimp only
      rw [he]
      dsimp only
      rw [h.role, h.params] at hrd
      -- the reader with its new keys
      have fin : ∀ (K : Machine.Keys) (d : Live), keysOf W.E.P cp (dirNext W.E.P cp (!b) (dirSecret (!b) c.st)) = K → d.st = s' →
          d.hsRest = c.hsRest → d.readBuffer = c.readBuffer →
          d.reader = { r with keys := r.keys.rekey epochUpdate (W.A cp K.1) K.2 } → Reads W cp b s0 L F got d := by
        rintro K d rfl d1 d2 d3 d4
        refine ⟨p ++ [.record 22 [24, 0, 0, 1, ku] 0, .rekey epochUpdate
          (W.A cp (keysOf W.E.P cp (dirNext W.E.P cp (!b) (dirSecret (!b) c.st))).1)
          (keysOf W.E.P cp (dirNext W.E.P cp (!b) (dirSecret (!b) c.st))).2], q'', ?_⟩
        refine ⟨by rw [d1, hcp]; exact h.params, by rw [d1, hic]; exact h.role, d2.trans h.rest, ?_, ?_, ?_, ?_, ?_, ?_, ?_, ?_, ?_, ?_, ?_⟩
        · rw [d4]; exact n1
        · rw [d4]; exact n2
        · rw [d4]; exact n3
        · rw [d4]; exact n4
        · rw [h.split]; simp
        · rw [d1, hrd]; exact h.before.append (.update ku _ _ _ (.nil _))
        · rw [d1, hrd]; exact ⟨t, ht'⟩
        · rw [d4, d1, hrd]; simp [Record.Keys.rekey]
        · rw [d4, d1, hrd]; simp [Record.Keys.rekey]
        · rw [d4, position_append]; simp [Record.Keys.rekey, position]
        · rw [appData_append, h.data, d3]; simp [appData]
      rw [h.role, h.params]
      generalize hK : keysOf W.E.P cp (dirNext W.E.P cp (!b) (dirSecret (!b) c.st)) = K
      have hin : ({ c with reader := r, x := x' } : Live).takeAll W (.rekeyIn epochUpdate K :: rest) =
          ({ c with x := x', reader := { r with keys := r.keys.rekey epochUpdate (W.A cp K.1) K.2 } } : Live).takeAll W rest := by
        rw [Live.takeAll]
        simp [Live.takeAction, h.rest, h.params]
      rw [hin]
      generalize hd : ({ c with x := x', reader := { r with keys := r.keys.rekey epochUpdate (W.A cp K.1) K.2 } } : Live) = d
      have e2 : d.hsRest = c.hsRest := by rw [← hd]
      have e3 : d.readBuffer = c.readBuffer := by rw [← hd]
      have e4 : d.reader = { r with keys := r.keys.rekey epochUpdate (W.A cp K.1) K.2 } := by rw [← hd]
      have hall : ∀ a ∈ rest, noRekeyIn a = true := by
        rcases hrest with ⟨_, rfl, _⟩ | ⟨_, _, m2, _, rfl⟩
        · simp
        · intro a ha
          simp only [List.mem_cons, List.not_mem_nil, or_false] at ha
          rcases ha with rfl | rfl | rfl <;> rfl
      obtain ⟨s1, s2⟩ := takeAll_same W rest d hall
      have herr := takeAll_err W rest d
      rcases htk : d.takeAll W rest with ⟨res, d'⟩
      rw [htk] at s1 s2 herr
      have hcase : Keeps W cp b s0 L F got (match (generalizing := false) ((res, d') : Res Unit × Live) with
          | (.ok _, c') => (.ok (), { c' with st := s' })
          | r => Live.orAbort .eof r) := by
        cases res with
        | ok u => exact fun _ => fin K _ hK rfl (s1.rest.trans e2) (s1.buffer.trans e3) (s1.reader.trans e4)
        | err e => exact keeps_stop (orAbort_res .eof _ (by simp) (fun e' he' => herr e' he'))
        | panic => exact keeps_stop (.inr (by simp [Live.orAbort]))
        | diverge => exact keeps_stop (.inr (by simp [Live.orAbort]))
      exact hcase

/-! ### Read, and all calls -/

theorem readLoop_reads {W : World} (hP : W.E.P.Sized) {cp : Params} (hs : 0 < cp.hash.size) {b : Bool} {s0 : Bytes} {L : List Item}
    {F : List FrameEvent} {got : Bytes} (hb : Bounded L) (hF : NoForgery W cp (!b) s0 L F) (now : Int) (fuel : Nat) {c : Live}
    (h : Reads W cp b s0 L F got c) : Keeps W cp b s0 L F got (Live.readLoop W now fuel c) := by
  induction fuel generalizing c with
  | zero =>
    rw [Live.readLoop]
    split <;> exact fun _ => h
  | succ n ih =>
    rw [Live.readLoop]
    split
    · have hc := consume_reads hP hs h hb hF now
      split
      · rename_i c' he
        rw [he] at hc
        exact ih (hc (.inl rfl))
      · rename_i e c' he
        rw [he] at hc
        split
        · exact hc
        · rename_i hcond
          refine ih (hc (.inr ⟨e, rfl, ?_⟩))
          rintro rfl
          exact hcond (.inr (by simp))
      · exact hc
    · exact fun _ => h

theorem call_reads {W : World} (hP : W.E.P.Sized) {cp : Params} (hs : 0 < cp.hash.size) {b : Bool} {s0 : Bytes} {L : List Item}
    {F : List FrameEvent} {got : Bytes} (hb : Bounded L) (hF : NoForgery W cp (!b) s0 L F) {c : Live}
    (h : Reads W cp b s0 L F got c) (k : Call) (r : Reply) (c' : Live) (hk : c.call W k = (.ok r, c')) :
    (r.error ≠ some .eof → Reads W cp b s0 L F (got ++ r.bytes) c') ∧ (r.error = some .eof → r.bytes = []) := by
  have hcp : c.st.cp = cp := by obtain ⟨p, q, h⟩ := h; exact h.params
  have hreply : ∀ z : Res Unit × Live, SameIn c z.2 → reply z = (.ok r, c') →
      (r.error ≠ some .eof → Reads W cp b s0 L F (got ++ r.bytes) c') ∧ (r.error = some .eof → r.bytes = []) := by
    rintro ⟨res, d⟩ hsame he
    cases res with
    | ok u =>
      simp only [reply, Prod.mk.injEq, Res.ok.injEq] at he
      obtain ⟨rfl, rfl⟩ := he
      exact ⟨fun _ => by simpa using h.same hsame, fun _ => rfl⟩
    | err e =>
      simp only [reply, Prod.mk.injEq, Res.ok.injEq] at he
      obtain ⟨rfl, rfl⟩ := he
      exact ⟨fun _ => by simpa using h.same hsame, fun _ => rfl⟩
    | panic => simp [reply] at he
    | diverge => simp [reply] at he
  cases k with
  | read now fuel n =>
    rw [Live.call, Live.read] at hk
    by_cases hn : n = 0
    · rw [if_pos hn] at hk
      simp only [Prod.mk.injEq, Res.ok.injEq] at hk
      obtain ⟨rfl, rfl⟩ := hk
      exact ⟨fun _ => by simpa using h, fun _ => rfl⟩
    · rw [if_neg hn] at hk
      have hl := readLoop_reads hP hs hb hF now fuel h
      rcases hx : Live.readLoop W now fuel c with ⟨res, d⟩
      rw [hx] at hk hl
      cases res with
      | ok u =>
        simp only [Live.readPartial, Prod.mk.injEq, Res.ok.injEq] at hk
        obtain ⟨rfl, rfl⟩ := hk
        refine ⟨fun _ => ?_, by simp⟩
        obtain ⟨p, q, g⟩ := hl (.inl rfl)
        refine ⟨p, q, g.params, g.role, g.rest, g.inv, g.cached, g.tls, g.frames, g.split, g.before, g.after, g.aead, g.iv, g.seq, ?_⟩
        rw [g.data]
        simp
      | err e =>
        simp only [Prod.mk.injEq, Res.ok.injEq] at hk
        obtain ⟨rfl, rfl⟩ := hk
        refine ⟨fun hne => ?_, fun _ => rfl⟩
        have := hl (.inr ⟨e, rfl, fun he => hne (by simp [he])⟩)
        simpa using this
      | panic => simp at hk
      | diverge => simp at hk
  | write d =>
    rw [Live.call, Live.write] at hk
    have hsame := writeAll_same (fragments d.length d) 0 c
    rcases hx : c.writeAll (fragments d.length d) 0 with ⟨res, c1⟩
    rw [hx] at hsame hk
    cases res with
    | ok z =>
      simp only [Prod.mk.injEq, Res.ok.injEq] at hk
      obtain ⟨rfl, rfl⟩ := hk
      exact ⟨fun _ => by simpa using h.same hsame, fun _ => rfl⟩
    | err e =>
      simp only [Prod.mk.injEq, Res.ok.injEq] at hk
      obtain ⟨rfl, rfl⟩ := hk
      exact ⟨fun _ => by simpa using h.same hsame, fun _ => rfl⟩
    | panic => simp at hk
    | diverge => simp at hk
  | update request => exact hreply _ (update_same hP c (hcp ▸ hs) request) hk
  | ticket now lifetime early ageAdd nonce tkt => exact hreply _ (ticket_same W c now lifetime early ageAdd nonce tkt) hk
  | close =>
    simp only [Live.call, Prod.mk.injEq, Res.ok.injEq] at hk
    obtain ⟨rfl, rfl⟩ := hk
    refine ⟨fun _ => ?_, by simp⟩
    simp only [List.append_nil]
    exact h.same ⟨rfl, rfl, rfl, rfl, rfl, rfl⟩

/-- The bytes read are the first of the bytes in the writer's history. -/
theorem calls_reads {W : World} (hP : W.E.P.Sized) {cp : Params} (hs : 0 < cp.hash.size) {b : Bool} {s0 : Bytes} {L : List Item}
    {F : List FrameEvent} {got : Bytes} (hb : Bounded L) (hF : NoForgery W cp (!b) s0 L F) (ks : List Call) {c : Live}
    (h : Reads W cp b s0 L F got c) : got ++ gotten (Live.calls W c ks).1 <+: appData L := by
  have base : ∀ {got : Bytes} {c : Live}, Reads W cp b s0 L F got c → got <+: appData L := by
    rintro got c ⟨p, q, g⟩
    rw [g.split, appData_append, g.data]
    simp
  induction ks generalizing c got with
  | nil => simpa [Live.calls, gotten] using base h
  | cons k ks ih =>
    rw [Live.calls]
    rcases hx : c.call W k with ⟨res, c'⟩
    cases res with
    | ok r =>
      obtain ⟨h1, h2⟩ := call_reads hP hs hb hF h k r c' hx
      simp only [gotten]
      by_cases he : r.error = some .eof
      · rw [if_pos he, h2 he]
        simpa using base h
      · rw [if_neg he, ← List.append_assoc]
        exact ih (h1 he)
    | err e => simpa [gotten] using base h
    | panic => simpa [gotten] using base h
    | diverge => simpa [gotten] using base h

end Verif.Conn
