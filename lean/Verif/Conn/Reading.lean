import Verif.Conn.Writing

/-
The incoming side of an established connection: what it does with the records of the other end.
-/

namespace Verif.Conn

open Verif Verif.Crypto Verif.Messages Verif.Negotiation Verif.Handshake Verif.Machine Verif.Spec Verif.Record

/-- What the connected state does with a KeyUpdate. -/
theorem process_update {E : Env} (hP : E.P.Sized) (x : Ctx) (st : Connected) (hs : 0 < st.cp.hash.size) (now : Int) {m : Msg} {r : UInt8}
    (hm : toBody E.parses m.msgType m.body = .ok (.keyUpdate r)) :
    ∃ s' rest x', st.process E x now m = .ok (s', .rekeyIn epochUpdate
        (keysOf E.P st.cp (dirNext E.P st.cp (!st.isClient) (dirSecret (!st.isClient) st))) :: rest, x') ∧
      s'.cp = st.cp ∧ s'.isClient = st.isClient ∧
      dirSecret (!st.isClient) s' = dirNext E.P st.cp (!st.isClient) (dirSecret (!st.isClient) st) ∧
      ((r ≠ 1 ∧ rest = [] ∧ dirSecret st.isClient s' = dirSecret st.isClient st) ∨
       (r = 1 ∧ dirSecret st.isClient s' = dirNext E.P st.cp st.isClient (dirSecret st.isClient st) ∧
        ∃ m2, m2.marshal false = [24, 0, 0, 1, 0] ∧ rest = [.queue m2, .sendQueued,
          .rekeyOut epochUpdate (keysOf E.P st.cp (dirNext E.P st.cp st.isClient (dirSecret st.isClient st)))])) := by
  let s1 : Connected := if st.isClient then { st with serverAp := dirNext E.P st.cp false st.serverAp }
    else { st with clientAp := dirNext E.P st.cp true st.clientAp }
  have hs1cp : s1.cp = st.cp := by simp only [s1]; split <;> rfl
  have hs1c : s1.isClient = st.isClient := by simp only [s1]; split <;> rfl
  have hs1r : dirSecret (!st.isClient) s1 = dirNext E.P st.cp (!st.isClient) (dirSecret (!st.isClient) st) := by
    cases hc : st.isClient <;> simp [s1, hc, dirSecret]
  have hs1w : dirSecret st.isClient s1 = dirSecret st.isClient st := by
    cases hc : st.isClient <;> simp [s1, hc, dirSecret]
  have hproc : st.process E x now m =
      (if r = 1 then
        (s1.keyUpdate E x 0).bind fun (s'', acts, x') =>
          .ok (s'', .rekeyIn epochUpdate (keysOf E.P st.cp (dirSecret (!st.isClient) s1)) :: acts, x')
      else .ok (s1, [.rekeyIn epochUpdate (keysOf E.P st.cp (dirSecret (!st.isClient) s1))], x)) := by
    cases hc : st.isClient
    all_goals
      simp only [Connected.process, hm, orAlert, Res.bind_ok, hc, nextSecret_eq hP hs, makeTrafficKeys_eq E.P hP _ hs, s1,
        Bool.not_false, Bool.not_true, Bool.false_eq_true, if_true, if_false]
      rfl
  by_cases hr : r = 1
  · obtain ⟨s', m2, x', hk, hm2, hcp, hic, hw, hrd⟩ := keyUpdate_spec hP x s1 (hs1cp ▸ hs) 0
    rw [if_pos hr, hk] at hproc
    simp only [Res.bind_ok, hs1r] at hproc
    rw [hs1c, hs1cp, hs1w] at hw
    rw [hs1c] at hrd
    rw [hs1c, hs1cp, hs1w] at hproc
    exact ⟨s', _, x', hproc, hcp.trans hs1cp, hic.trans hs1c, hrd.trans hs1r, .inr ⟨hr, hw, m2, hm2, rfl⟩⟩
  · rw [if_neg hr, hs1r] at hproc
    exact ⟨s1, [], x, hproc, hs1cp, hs1c, hs1r, .inl ⟨hr, rfl, hs1w⟩⟩

/-- What the connected state may do with any message. -/
theorem process_cases {E : Env} (hP : E.P.Sized) (x : Ctx) (st : Connected) (hs : 0 < st.cp.hash.size) (now : Int) (m : Msg) :
    (∃ a, st.process E x now m = alert a ∧ a ≠ 0 ∧ a ≠ 100) ∨
    (¬ (st.process E x now m).Safe) ∨
    (∃ psk, st.process E x now m = .ok (st, [.storePsk psk], x) ∧ st.isClient = true) ∨
    (∃ r, toBody E.parses m.msgType m.body = .ok (.keyUpdate r)) := by
  cases hb : toBody E.parses m.msgType m.body with
  | err e => exact .inl ⟨Alert.decodeError, by simp [Connected.process, hb, orAlert, alert], by decide, by decide⟩
  | panic => exact .inr (.inl (by simp [Connected.process, hb, orAlert]))
  | diverge => exact .inr (.inl (by simp [Connected.process, hb, orAlert]))
  | ok body =>
    have bad : (match body with | .keyUpdate _ => False | .newSessionTicket _ => False | _ => True) →
        ∃ a, st.process E x now m = alert a ∧ a ≠ 0 ∧ a ≠ 100 := by
      intro h
      refine ⟨Alert.unexpectedMessage, ?_, by decide, by decide⟩
      cases body <;> simp_all [Connected.process, hb, orAlert]
    cases body with
    | keyUpdate r => exact .inr (.inr (.inr ⟨r, rfl⟩))
    | newSessionTicket t =>
      cases hc : st.isClient
      · refine .inl ⟨Alert.unexpectedMessage, ?_, by decide, by decide⟩
        simp [Connected.process, hb, orAlert, hc]
      · refine .inr (.inr (.inl ⟨?_, ?_, rfl⟩))
        · exact { suite := st.cp.suite, isResumption := true, identity := t.ticket,
                  key := expandLabel E.P st.cp.hash st.resumption labelResumption t.nonce st.cp.hash.size,
                  nextProto := st.params.nextProto, receivedAt := now,
                  expiresAt := now + t.lifetime.toNat * 1000000000, ticketAgeAdd := t.ageAdd }
        · simp only [Connected.process, hb, orAlert, Res.bind_ok, hc, ticketPsk, hkdfExpandLabel_eq E.P hP _ hs]
          rfl
    | _ => exact .inl (bad trivial)

/-! ### The outgoing side while reading -/

theorem process_after {W : World} (hl : W.Lawful) (hP : W.E.P.Sized) {cp : Params} (hs : 0 < cp.hash.size) {b : Bool} {s0 : Bytes}
    {c : Live} (h : Writes W cp b s0 c) (now : Int) (m : Msg) : After W cp b s0 c (c.process W now m) := by
  obtain ⟨t, ht, hts⟩ := h.ready
  obtain ⟨rfl, rfl⟩ : cp = c.st.cp ∧ b = c.st.isClient := ⟨h.params.symm, h.role.symm⟩
  unfold Live.process
  rcases process_cases hP c.x c.st hs now m with ⟨a, he, ha, ha'⟩ | hun | ⟨psk, he, hc⟩ | ⟨r, hr⟩
  · rw [he]
    obtain ⟨h1, h2, h3, _, _⟩ := abort_spec h.params h.role h.dir h.tls h.logged (fun hc => (ht.keys hc).2.2) a ha ha' .eof
    exact ⟨h1, h2, h3⟩
  · cases hp : c.st.process W.E c.x now m with
    | ok z => rw [hp] at hun; simp at hun
    | err e => rw [hp] at hun; simp at hun
    | panic => exact ⟨h.logged, by simp, rfl⟩
    | diverge => exact ⟨h.logged, by simp, rfl⟩
  · rw [he]
    simp only [Live.takeAll, Live.takeAction]
    have hW : Writes W c.st.cp c.st.isClient s0 _ := (ht.congr (d := { c with stored := c.stored ++ [(if c.st.isClient then c.serverName else hexString psk.identity, psk)] }) rfl rfl rfl).writes rfl rfl hts
    exact ⟨hW.logged, fun _ => hW, rfl⟩
  · obtain ⟨s', rest, x', he, hcp, hic, hrd, hrest⟩ := process_update hP c.x c.st hs now hr
    generalize keysOf W.E.P c.st.cp (dirNext W.E.P c.st.cp (!c.st.isClient) (dirSecret (!c.st.isClient) c.st)) = K at he
    rw [he]
    dsimp only
    have hin : ({ c with x := x' } : Live).takeAll W (.rekeyIn epochUpdate K :: rest) =
        if c.hsRest ≠ [] then (alert Alert.decodeError, { c with x := x' })
        else ({ c with x := x', reader := { c.reader with keys := c.reader.keys.rekey epochUpdate (W.A c.st.cp K.1) K.2 } } : Live).takeAll W rest := by
      rw [Live.takeAll]
      by_cases hh : c.hsRest = []
      · simp [Live.takeAction, hh]
      · simp [Live.takeAction, hh, alert]
    rw [hin]
    by_cases hh : c.hsRest = []
    · rw [if_neg (by simp [hh])]
      generalize hd : ({ c with x := x', reader := { c.reader with keys := c.reader.keys.rekey epochUpdate (W.A c.st.cp K.1) K.2 } } : Live) = d
      have hst : d.st = c.st := by rw [← hd]
      have hcl : d.closed = c.closed := by rw [← hd]
      have hlog : d.log = c.log := by rw [← hd]
      have hR : Ready W c.st.cp c.st.isClient s0 t d := by rw [← hd]; exact ht.congr rfl rfl rfl
      rcases hrest with ⟨_, rfl, hw⟩ | ⟨_, hw, m2, hm2, rfl⟩
      · simp only [Live.takeAll]
        have hW : Writes W c.st.cp c.st.isClient s0 { d with st := s' } := (hR.congr (d := { d with st := s' }) rfl rfl rfl).writes hcp hic
            (fun hc => by rw [hts (hcl ▸ hc)]; exact hw.symm)
        exact ⟨hW.logged, fun _ => hW, by rw [hlog]⟩
      · generalize hK : keysOf W.E.P c.st.cp (dirNext W.E.P c.st.cp c.st.isClient (dirSecret c.st.isClient c.st)) = K2
        rcases send_update hl hR (by rw [hst]) hm2 (K := K2) (fun hc => by rw [hts (hcl ▸ hc), hK]) with
          ⟨k, w, he', hcl', hR'⟩ | ⟨res, k, he', hres, hR'⟩
        · rw [he']
          have hW : Writes W c.st.cp c.st.isClient s0 { d with
              st := s'
              out := k
              wire := w
              log := d.log ++ [.record 22 [24, 0, 0, 1, 0] 0, .rekey epochUpdate (W.A c.st.cp K2.1) K2.2] } :=
            by
            refine Ready.writes (t := dirNext W.E.P c.st.cp c.st.isClient t) (hR'.congr rfl rfl rfl) hcp hic (fun hc => ?_)
            rw [hts (hcl ▸ hc)]; exact hw.symm
          refine ⟨hW.logged, fun _ => hW, ?_⟩
          simp [appData_append, appData, hlog]
        · rw [he']
          have := (orAbort_after (c := c) hres (by decide) (by decide) (show ({ d with out := k } : Live).st.cp = c.st.cp by rw [hst])
            (show ({ d with out := k } : Live).st.isClient = c.st.isClient by rw [hst]) hR'.dir hR'.tls ⟨⟨t, hR'.wrote⟩, hR'.bound⟩
            (fun hc => (hR'.keys hc).2.2) (by rw [hlog]) .eof).1
          cases res with
          | ok u =>
            rcases hres with hres | hres
            · cases hres
            · simp at hres
          | err e => exact this
          | panic => exact this
          | diverge => exact this
    · rw [if_pos hh]
      exact (orAbort_after (c := c) (d := { c with x := x' }) (.inl rfl) (by decide) (by decide) rfl rfl h.dir h.tls h.logged
        (fun hc => (ht.keys hc).2.2) rfl .eof).1

theorem After.trans {W : World} {cp : Params} {b : Bool} {s0 : Bytes} {c c' : Live} {α : Type} {r : Res α × Live}
    (hd : appData c'.log = appData c.log) (h : After W cp b s0 c' r) : After W cp b s0 c r := ⟨h.1, h.2.1, h.2.2.trans hd⟩

theorem postHandshake_after {W : World} (hl : W.Lawful) (hP : W.E.P.Sized) {cp : Params} (hs : 0 < cp.hash.size) {b : Bool} {s0 : Bytes}
    (now : Int) (n : Nat) {c : Live} (h : Writes W cp b s0 c) (f : Bytes) :
    After W cp b s0 c (Live.postHandshake W now n c f) := by
  induction n generalizing c f with
  | zero => exact ⟨h.logged, by simp [Live.postHandshake], rfl⟩
  | succ n ih =>
    rw [Live.postHandshake]
    split
    · exact ⟨h.logged, fun _ => h, rfl⟩
    · split
      · exact ⟨h.logged, fun _ => h, rfl⟩
      · dsimp only
        split
        · exact ⟨h.logged, fun _ => h, rfl⟩
        · have hp := process_after hl hP hs h now ⟨f.getD 0 0, 0, (f.drop 4).take (beNat ((f.drop 1).take 3)), 0, 0⟩
          split
          · rename_i c' he
            rw [he] at hp
            exact (ih (hp.2.1 (by simp)) _).trans hp.2.2
          · exact hp

theorem handle_after {W : World} (hl : W.Lawful) (hP : W.E.P.Sized) {cp : Params} (hs : 0 < cp.hash.size) {b : Bool} {s0 : Bytes}
    (now : Int) {c : Live} (h : Writes W cp b s0 c) (ct : UInt8) (f : Bytes) : After W cp b s0 c (c.handle W now ct f) := by
  obtain ⟨t, ht, hts⟩ := h.ready
  have habort : After W cp b s0 c (c.abort Alert.unexpectedMessage .eof) := by
    obtain ⟨h1, h2, h3, _, _⟩ := abort_spec h.params h.role h.dir h.tls h.logged (fun hc => (ht.keys hc).2.2) Alert.unexpectedMessage
      (by decide) (by decide) .eof
    exact ⟨h1, h2, h3⟩
  have hsame : ∀ r : Res Unit, After W cp b s0 c (r, c) := fun r => ⟨h.logged, fun _ => h, rfl⟩
  unfold Live.handle
  split
  · exact postHandshake_after hl hP hs now _ h f
  · split
    · split
      · split
        · exact hsame _
        · split
          · exact hsame _
          · split
            · exact hsame _
            · exact habort
      · exact habort
    · split
      · exact hsame _
      · split
        · have hW : Writes W cp b s0 { c with readBuffer := c.readBuffer ++ f } :=
            (ht.congr (d := { c with readBuffer := c.readBuffer ++ f }) rfl rfl rfl).writes h.params h.role hts
          exact ⟨hW.logged, fun _ => hW, rfl⟩
        · exact hsame _

theorem consume_after {W : World} (hl : W.Lawful) (hP : W.E.P.Sized) {cp : Params} (hs : 0 < cp.hash.size) {b : Bool} {s0 : Bytes}
    (now : Int) {c : Live} (h : Writes W cp b s0 c) : After W cp b s0 c (c.consume W now) := by
  obtain ⟨t, ht, hts⟩ := h.ready
  unfold Live.consume
  rcases hr : Record.readRecord c.reader false with ⟨res, r⟩
  have hW : Writes W cp b s0 { c with reader := r } :=
    (ht.congr (d := { c with reader := r }) rfl rfl rfl).writes h.params h.role hts
  cases res with
  | ok pt => exact (handle_after hl hP hs now hW _ _).trans rfl
  | err e => exact ⟨hW.logged, fun _ => hW, rfl⟩
  | panic => exact ⟨hW.logged, fun _ => hW, rfl⟩
  | diverge => exact ⟨hW.logged, fun _ => hW, rfl⟩

theorem readLoop_after {W : World} (hl : W.Lawful) (hP : W.E.P.Sized) {cp : Params} (hs : 0 < cp.hash.size) {b : Bool} {s0 : Bytes}
    (now : Int) (fuel : Nat) {c : Live} (h : Writes W cp b s0 c) : After W cp b s0 c (Live.readLoop W now fuel c) := by
  induction fuel generalizing c with
  | zero =>
    rw [Live.readLoop]
    split
    · exact ⟨h.logged, fun _ => h, rfl⟩
    · exact ⟨h.logged, fun _ => h, rfl⟩
  | succ n ih =>
    rw [Live.readLoop]
    split
    · have hc := consume_after hl hP hs now h
      split
      · rename_i c' he
        rw [he] at hc
        exact (ih (hc.2.1 (by simp))).trans hc.2.2
      · rename_i e c' he
        rw [he] at hc
        split
        · exact hc
        · exact (ih (hc.2.1 (by simp))).trans hc.2.2
      · exact hc
    · exact ⟨h.logged, fun _ => h, rfl⟩

theorem read_after {W : World} (hl : W.Lawful) (hP : W.E.P.Sized) {cp : Params} (hs : 0 < cp.hash.size) {b : Bool} {s0 : Bytes}
    (now : Int) (fuel n : Nat) {c : Live} (h : Writes W cp b s0 c) : After W cp b s0 c (c.read W now fuel n) := by
  unfold Live.read
  split
  · exact ⟨h.logged, fun _ => h, rfl⟩
  · have hc := readLoop_after hl hP hs now fuel h
    split
    · rename_i c' he
      rw [he] at hc
      have hW := hc.2.1 (by simp)
      obtain ⟨t, ht, hts⟩ := hW.ready
      have hW' : Writes W cp b s0 { c' with readBuffer := c'.readBuffer.drop n } :=
        (ht.congr (d := { c' with readBuffer := c'.readBuffer.drop n }) rfl rfl rfl).writes hW.params hW.role hts
      exact ⟨hW'.logged, fun _ => hW', hc.2.2⟩
    · rename_i he
      rw [he] at hc
      exact ⟨hc.1, fun _ => hc.2.1 (by simp), hc.2.2⟩
    · rename_i he
      rw [he] at hc
      exact ⟨hc.1, fun hx => absurd hx (by simp), hc.2.2⟩
    · rename_i he
      rw [he] at hc
      exact ⟨hc.1, fun hx => absurd hx (by simp), hc.2.2⟩

/-! ### Write -/

theorem writeAll_after {W : World} {cp : Params} {b : Bool} {s0 : Bytes} (fs : List Bytes) (sent : Nat) {c : Live} (h : Writes W cp b s0 c) :
    Writes W cp b s0 (c.writeAll fs sent).2 := by
  induction fs generalizing c sent with
  | nil => exact h
  | cons f fs ih =>
    rw [Live.writeAll]
    have hp := h.plain 23 (.inl rfl) f
    split
    all_goals
      rename_i he
      rw [he] at hp
    · exact ih _ hp
    · exact hp
    · exact hp
    · exact hp

theorem fragments_flatten (n : Nat) (b : Bytes) (hn : b.length ≤ n) : (fragments n b).flatten = b := by
  induction n generalizing b with
  | zero =>
    have : b = [] := List.eq_nil_of_length_eq_zero (by omega)
    subst this; rfl
  | succ n ih =>
    rw [fragments]
    split
    · rw [List.flatten_cons, ih _ (by simp; omega), List.take_append_drop]
    · split
      · subst_vars; rfl
      · simp

/-- What Write reports is what it added to the history. -/
theorem writeAll_sent (fs : List Bytes) (sent : Nat) (c : Live) :
    (∀ n e c', c.writeAll fs sent = (.ok (n, e), c') → sent ≤ n ∧
      appData c'.log = appData c.log ++ fs.flatten.take (n - sent) ∧ (e = none → n = sent + fs.flatten.length)) ∧
    (∀ e c', c.writeAll fs sent ≠ (.err e, c')) := by
  induction fs generalizing sent c with
  | nil => simp [Live.writeAll]
  | cons f fs ih =>
    rw [Live.writeAll]
    rcases writeRecord_cases c 23 f with ⟨rec, k, he, hcl, hw⟩ | ⟨res, k, he, hno, -⟩
    · rw [he]
      dsimp only
      obtain ⟨h1, h2⟩ := ih (sent + f.length) { c with out := k, wire := c.wire ++ rec, log := c.log ++ [.record 23 f 0] }
      refine ⟨fun n e c' hx => ?_, h2⟩
      obtain ⟨g1, g2, g3⟩ := h1 n e c' hx
      refine ⟨by omega, ?_, fun hn => ?_⟩
      · rw [g2]
        simp only [appData_append, appData, if_true, List.append_nil, List.append_assoc, List.flatten_cons]
        rw [List.take_append, List.take_of_length_le (l := f) (by omega)]
        congr 3
        omega
      · rw [g3 hn, List.flatten_cons, List.length_append]; omega
    · rw [he]
      cases res with
      | ok u => exact absurd rfl (hno u)
      | err e =>
        dsimp only
        refine ⟨fun n e' c' hx => ?_, by simp⟩
        simp only [Prod.mk.injEq, Res.ok.injEq] at hx
        obtain ⟨⟨rfl, rfl⟩, rfl⟩ := hx
        simp
      | panic => simp
      | diverge => simp

/-! ### All calls -/

theorem call_after {W : World} (hl : W.Lawful) (hP : W.E.P.Sized) {cp : Params} (hs : 0 < cp.hash.size) {b : Bool} {s0 : Bytes}
    {c : Live} (h : Writes W cp b s0 c) (k : Call) :
    Logged W cp b s0 (c.call W k).2.log ∧
      ∀ r c', c.call W k = (.ok r, c') → Writes W cp b s0 c' ∧ appData c'.log = appData c.log ++ r.wrote := by
  have hreply : ∀ r : Res Unit × Live, After W cp b s0 c r → Logged W cp b s0 (reply r).2.log ∧
      ∀ r' c', reply r = (.ok r', c') → Writes W cp b s0 c' ∧ appData c'.log = appData c.log ++ r'.wrote := by
    rintro ⟨res, d⟩ ⟨h1, h2, h3⟩
    cases res with
    | ok u =>
      refine ⟨h1, fun r' c' he => ?_⟩
      simp only [reply, Prod.mk.injEq, Res.ok.injEq] at he
      obtain ⟨rfl, rfl⟩ := he
      exact ⟨h2 (by simp), by simpa using h3⟩
    | err e =>
      refine ⟨h1, fun r' c' he => ?_⟩
      simp only [reply, Prod.mk.injEq, Res.ok.injEq] at he
      obtain ⟨rfl, rfl⟩ := he
      exact ⟨h2 (by simp), by simpa using h3⟩
    | panic => exact ⟨h1, by simp [reply]⟩
    | diverge => exact ⟨h1, by simp [reply]⟩
  cases k with
  | read now fuel n =>
    have hr := read_after hl hP hs now fuel n h
    rw [Live.call]
    rcases hx : c.read W now fuel n with ⟨res, d⟩
    rw [hx] at hr
    obtain ⟨h1, h2, h3⟩ := hr
    cases res with
    | ok u =>
      refine ⟨h1, fun r' c' he => ?_⟩
      simp only [Prod.mk.injEq, Res.ok.injEq] at he
      obtain ⟨rfl, rfl⟩ := he
      exact ⟨h2 (by simp), by simpa using h3⟩
    | err e =>
      refine ⟨h1, fun r' c' he => ?_⟩
      simp only [Prod.mk.injEq, Res.ok.injEq] at he
      obtain ⟨rfl, rfl⟩ := he
      exact ⟨h2 (by simp), by simpa using h3⟩
    | panic => exact ⟨h1, by simp⟩
    | diverge => exact ⟨h1, by simp⟩
  | write d =>
    have hw := writeAll_after (fragments d.length d) 0 h
    have hsent := writeAll_sent (fragments d.length d) 0 c
    rw [Live.call, Live.write]
    rcases hx : c.writeAll (fragments d.length d) 0 with ⟨res, c1⟩
    rw [hx] at hw hsent
    cases res with
    | ok z =>
      obtain ⟨n, e⟩ := z
      refine ⟨hw.logged, fun r' c' he => ?_⟩
      simp only [Prod.mk.injEq, Res.ok.injEq] at he
      obtain ⟨rfl, rfl⟩ := he
      obtain ⟨-, h2, -⟩ := hsent.1 n e c1 rfl
      rw [fragments_flatten _ _ (Nat.le_refl _)] at h2
      exact ⟨hw, by simpa using h2⟩
    | err e => exact absurd rfl (hsent.2 e c1)
    | panic => exact ⟨hw.logged, by simp⟩
    | diverge => exact ⟨hw.logged, by simp⟩
  | update request => exact hreply _ (update_after hl hP hs h request)
  | ticket now lifetime early ageAdd nonce tkt => exact hreply _ (ticket_after hl h now lifetime early ageAdd nonce tkt)
  | close =>
    refine ⟨h.logged, fun r' c' he => ?_⟩
    simp only [Live.call, Prod.mk.injEq, Res.ok.injEq] at he
    obtain ⟨rfl, rfl⟩ := he
    exact ⟨h.closing, by simp [Live.close]⟩

/-- Every call keeps the history in order, and adds to its application data exactly what Write reports. -/
theorem calls_logged {W : World} (hl : W.Lawful) (hP : W.E.P.Sized) {cp : Params} (hs : 0 < cp.hash.size) {b : Bool} {s0 : Bytes}
    (ks : List Call) {c : Live} (h : Writes W cp b s0 c) :
    Logged W cp b s0 (Live.calls W c ks).2.log ∧
      ((Live.calls W c ks).1.length = ks.length → Writes W cp b s0 (Live.calls W c ks).2 ∧
        appData (Live.calls W c ks).2.log = appData c.log ++ written (Live.calls W c ks).1) := by
  induction ks generalizing c with
  | nil => exact ⟨h.logged, fun _ => ⟨h, by simp [Live.calls, written]⟩⟩
  | cons k ks ih =>
    rw [Live.calls]
    obtain ⟨h1, h2⟩ := call_after hl hP hs h k
    rcases hx : c.call W k with ⟨res, c'⟩
    rw [hx] at h1 h2
    cases res with
    | ok r =>
      obtain ⟨hW, hdat⟩ := h2 r c' rfl
      obtain ⟨i1, i2⟩ := ih hW
      refine ⟨i1, fun hlen => ?_⟩
      obtain ⟨i3, i4⟩ := i2 (by simpa using hlen)
      refine ⟨i3, ?_⟩
      rw [i4, hdat]
      simp [written]
    | err e => exact ⟨h1, by simp⟩
    | panic => exact ⟨h1, by simp⟩
    | diverge => exact ⟨h1, by simp⟩

end Verif.Conn
