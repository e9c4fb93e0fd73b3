import Verif.Conn.ConcurrentLemmas
import Verif.Conn.Writing
import Verif.Conn.Toy

/-
C53: Read and Write called at the same time.
-/

namespace Verif.Props

open Verif Verif.Conn

/-- No two of these calls of Seal have the same key and nonce. -/
def NoReuse (l : List Seal) : Prop := l.Pairwise fun x y => x.key = y.key → x.nonce ≠ y.nonce

/-- Outgoing keys as they are between calls: the current cipher state exists, and numbers and epochs are within their types. -/
structure Sane (k : Record.Keys) : Prop where
  epoch : ∀ i, (k.heap i).epoch < 2 ^ 16
  seq : ∀ i, (k.heap i).seq < 2 ^ 48
  cur : k.cur < k.fresh

theorem start_inv {o : Option Nat} {k : Record.Keys} {th : Nat → Thread} (hk : Sane k)
    (he : ∀ n, o = some n → ∀ i a, (k.heap i).aead = some a → Expands n a)
    (hl : ∀ id, (th id).prog.Locked false) (hf : ∀ n, o = some n → ∀ id, (th id).prog.Fits n) (hi : ∀ id, (th id).phase = .idle) :
    Sys.Inv o ⟨⟨k, fun _ => none, [], [], [], false⟩, th⟩ where
  locked := fun id => by simpa using hl id
  fits := hf
  idle := fun id _ => hi id
  inRecord := fun id h => absurd (hi id) h
  core := ⟨⟨hk.epoch, hk.seq, hk.cur, he⟩, [], ⟨List.Pairwise.nil, fun x hx => by cases hx⟩, List.Sublist.refl _, fun _ => rfl, trivial⟩

theorem inv_sent {o : Option Nat} {S : Sys} (h : S.Inv o) : NoReuse S.sh.sent := by
  obtain ⟨-, l, hu, hsub, -⟩ := h.core
  exact hu.distinct.sublist hsub

theorem inv_sealed {n : Nat} {S : Sys} (h : S.Inv (some n)) : NoReuse S.sh.sealed := by
  obtain ⟨hk, l, hu, -, hsl, hp⟩ := h.core
  rw [hsl (by simp)]
  have fin : ∀ i s, Current S.sh.keys i s → NoReuse (l ++ s.toList) := by
    intro i s hs
    cases s with
    | none => simpa [NoReuse] using hu.distinct
    | some x =>
      obtain ⟨h1, h2⟩ := hs.2 x rfl
      subst h1
      exact hu.distinct_snoc hk.epoch h2
  revert hp
  generalize S.active = p
  intro hp
  cases p with
  | idle => simpa [NoReuse, Phase.seal] using hu.distinct
  | picked i => simpa [NoReuse, Phase.seal] using hu.distinct
  | numbered i q => simpa [NoReuse, Phase.seal] using hu.distinct
  | ready i s r => exact fin i s hp
  | checked i s r => exact fin i s hp.1
  | loaded i n s r => exact fin i s hp.1
  | counted s r => exact hp.distinct

/-- C53 for any program: if records are written and outgoing keys changed under the lock of the outgoing layer only, then
under all schedules of any number of goroutines no two records are sent with the same key and nonce; if moreover no record is
too large, no two are sealed so. (Keys are cipher states: two that are installed are different.) -/
theorem C53_locked (k : Record.Keys) (hk : Sane k) (progs : Nat → Prog) (hl : ∀ id, (progs id).Locked false)
    (sched : List (Nat × Bool)) :
    let S := Sys.run ⟨⟨k, fun _ => none, [], [], [], false⟩, fun id => ⟨progs id, .idle⟩⟩ sched
    NoReuse S.sh.sent ∧
    ∀ o, (∀ i a, (k.heap i).aead = some a → Expands o a) → (∀ id, (progs id).Fits o) → NoReuse S.sh.sealed := by
  intro S
  refine ⟨inv_sent (Sys.Inv.run sched (start_inv (o := none) hk (by simp) hl (by simp) fun _ => rfl)), fun o he hf => ?_⟩
  exact inv_sealed (Sys.Inv.run sched (start_inv (o := some o) hk (by rintro n ⟨⟩; exact he) hl (by rintro n ⟨⟩; exact hf) fun _ => rfl))

/-- A call that sends application data only: any Write, and a Read that gets nothing it has to answer. -/
def CCall.Calm : CCall → Prop
  | .write _ => True
  | .read as => ∀ a ∈ as, a = .quiet

theorem readAnswers_calm (k : Prog) (as : List Answer) (h : ∀ a ∈ as, a = .quiet) : readAnswers k as = k := by
  induction as with
  | nil => rfl
  | cons a as ih =>
    obtain rfl := h a (by simp)
    rw [readAnswers]
    exact ih fun a ha => h a (by simp [ha])

theorem writeRecords_locked {k : Prog} (hk : k.Locked true) (fs : List Bytes) : (writeRecords k fs).Locked true := by
  induction fs with
  | nil => exact hk
  | cons f fs ih => exact ⟨rfl, ih, hk⟩

theorem callsProg_locked (ks : List CCall) (h : ∀ c ∈ ks, CCall.Calm c) : (callsProg ks).Locked false := by
  induction ks with
  | nil => exact rfl
  | cons c ks ih =>
    have ih := ih fun c hc => h c (by simp [hc])
    cases c with
    | write b =>
      simp only [callsProg, writeProg, Prog.Locked, if_true]
      refine ⟨trivial, writeRecords_locked ?_ _⟩
      simp only [Prog.Locked, if_true]
      exact ⟨trivial, ih⟩
    | read as =>
      simp only [callsProg, readProg]
      rw [readAnswers_calm _ as (h (.read as) (by simp))]
      simpa [Prog.Locked] using ih

theorem writeRecords_fits {o : Nat} {k : Prog} (hk : k.Fits o) (fs : List Bytes) (hf : ∀ f ∈ fs, f.length + 1 + o ≤ 2 ^ 14) :
    (writeRecords k fs).Fits o := by
  induction fs with
  | nil => exact hk
  | cons f fs ih => exact ⟨hf f (by simp), ih fun f h => hf f (by simp [h]), hk⟩

theorem fragments_short {n : Nat} {b : Bytes} (h : b.length < 2 ^ 14) : fragments n b = if b = [] then [] else [b] := by
  cases n with
  | zero => rfl
  | succ n => rw [fragments, if_neg (by omega)]

theorem callsProg_fits {o : Nat} (ks : List CCall) (h : ∀ c ∈ ks, CCall.Calm c)
    (hw : ∀ b, CCall.write b ∈ ks → b.length + 1 + o ≤ 2 ^ 14) : (callsProg ks).Fits o := by
  induction ks with
  | nil => exact trivial
  | cons c ks ih =>
    have ih := ih (fun c hc => h c (by simp [hc])) (fun b hb => hw b (by simp [hb]))
    cases c with
    | write b =>
      have hb := hw b (by simp)
      simp only [callsProg, writeProg, Prog.Fits]
      refine writeRecords_fits (by simpa [Prog.Fits] using ih) _ ?_
      rw [fragments_short (by omega)]
      intro f hf
      split at hf
      · cases hf
      · simp only [List.mem_singleton] at hf; subst hf; exact hb
    | read as =>
      simp only [callsProg, readProg]
      rw [readAnswers_calm _ as (h (.read as) (by simp))]
      exact ih

/-- C53 where no Read has anything to answer: under all schedules of any number of goroutines that call Read and Write any
number of times, no two records are sent with the same key and nonce, and none are sealed so if all buffers given to Write
fit into a record. Missing: Reads that answer a KeyUpdate or send an alert, and larger buffers; see below. -/
theorem C53_calm_partial (k : Record.Keys) (hk : Sane k) (calls : Nat → List CCall) (hc : ∀ id, ∀ c ∈ calls id, CCall.Calm c)
    (sched : List (Nat × Bool)) :
    NoReuse ((Sys.start k calls).run sched).sh.sent ∧
    ∀ o, (∀ i a, (k.heap i).aead = some a → Expands o a) → (∀ id b, CCall.write b ∈ calls id → b.length + 1 + o ≤ 2 ^ 14) →
      NoReuse ((Sys.start k calls).run sched).sh.sealed := by
  obtain ⟨h1, h2⟩ := C53_locked k hk (fun id => callsProg (calls id)) (fun id => callsProg_locked _ (hc id)) sched
  exact ⟨h1, fun o he hw => h2 o he fun id => callsProg_fits _ (hc id) (hw id)⟩

/-- Outgoing keys with an AEAD, over TLS, with numbers left. -/
structure Ready (k : Record.Keys) (a : Record.Aead) : Prop where
  tls : k.datagram = false
  dir : k.direction = .write
  aead : (k.heap k.cur).aead = some a
  iv : 8 ≤ (k.heap k.cur).iv.length
  seq : (k.heap k.cur).seq + 2 < 2 ^ 48
  expands : Expands a.overhead a

theorem encipher_ready {k : Record.Keys} {i : Nat} {a : Record.Aead} (seq : Nat) (ct : UInt8) {f : Bytes} (tls : k.datagram = false)
    (dir : k.direction = .write) (aead : (k.heap i).aead = some a) (iv : 8 ≤ (k.heap i).iv.length)
    (he : Expands a.overhead a) (hf : f.length + 1 + a.overhead ≤ 2 ^ 14) :
    ∃ n hd c, Record.computeNonce (k.heap i) seq = .ok n ∧
      encipher k i seq ct f = .ok (some ⟨i, n, Record.innerPlaintext ct f 0⟩, hd, c) ∧ ¬ (c.length > 2 ^ 14) := by
  obtain ⟨n, hn⟩ : ∃ n, Record.computeNonce (k.heap i) seq = .ok n := ⟨_, by rw [Record.computeNonce, if_neg (by omega)]⟩
  obtain ⟨hd, hh⟩ : ∃ hd, Record.recordHeader k 23 seq (f.length + (1 + 0 + a.overhead)) = .ok hd :=
    ⟨_, by rw [Record.recordHeader, if_neg (by rw [tls]; decide)]⟩
  refine ⟨n, hd, a.sealing n (Record.innerPlaintext ct f 0) hd, hn, ?_, ?_⟩
  · simp only [encipher, aead, hh, hn, Res.bind_ok, dir, ne_eq, not_true_eq_false, if_false]
  · rw [he.2]
    simp [Record.innerPlaintext]
    omega

/-- Steps of one goroutine alone, all writes succeeding. -/
def solo (id : Nat) : Nat → Shared × Thread → Shared × Thread
  | 0, r => r
  | n + 1, (s, t) => if s.dead then (s, t) else solo id n (t.step s id true)

theorem solo_add (id m : Nat) : ∀ n r, solo id (n + m) r = solo id m (solo id n r) := by
  intro n
  induction n with
  | zero => intro r; rw [Nat.zero_add]; rfl
  | succ n ih =>
    rintro ⟨s, t⟩
    rw [Nat.add_right_comm]
    by_cases hd : s.dead = true
    · have : ∀ m, solo id m (s, t) = (s, t) := by
        intro m; cases m with
        | zero => rfl
        | succ m => simp [solo, hd]
      rw [this, this, this]
    · simp only [solo, hd, Bool.false_eq_true, if_false]
      exact ih _

def times (n : Nat) (id : Nat) : List (Nat × Bool) := List.replicate n (id, true)

theorem run_times (id n : Nat) : ∀ S : Sys, S.run (times n id) =
    ⟨(solo id n (S.sh, S.th id)).1, fun j => if j = id then (solo id n (S.sh, S.th id)).2 else S.th j⟩ := by
  induction n with
  | zero =>
    intro S
    simp only [times, List.replicate, Sys.run, List.foldl_nil, solo]
    have : (fun j => if j = id then S.th id else S.th j) = S.th := by
      funext j; split
      · rename_i h; rw [h]
      · rfl
    rw [this]
  | succ n ih =>
    intro S
    have hrun : S.run (times (n + 1) id) = (S.step (id, true)).run (times n id) := by
      simp [times, List.replicate, Sys.run]
    rw [hrun, ih]
    unfold Sys.step
    by_cases hd : S.sh.dead = true
    · simp only [hd, if_true]
      have h1 : ∀ m, solo id m (S.sh, S.th id) = (S.sh, S.th id) := by
        intro m; cases m with
        | zero => rfl
        | succ m => simp [solo, hd]
      simp only [h1]
    · simp only [hd, if_true, Bool.false_eq_true, if_false]
      simp only [solo, hd, Bool.false_eq_true, if_false]
      congr 1
      funext j
      split <;> simp_all

theorem run_append (S : Sys) (a b : List (Nat × Bool)) : S.run (a ++ b) = (S.run a).run b := by
  simp [Sys.run]

/-- From the number on, alone. -/
theorem solo_finish {s : Shared} {id i seq : Nat} {ct : UInt8} {f : Bytes} {ok fail : Prog} {c : Option Seal} {hd b : Bytes}
    (hdead : s.dead = false) (he : encipher s.keys i seq ct f = .ok (c, hd, b)) (hb : ¬ (b.length > 2 ^ 14))
    (hs : (s.keys.heap i).seq + 1 < 2 ^ 48) :
    solo id 5 (s, ⟨.record ct f ok fail, .numbered i seq⟩) =
      ({ s with
          keys := bump s.keys i
          sealed := s.sealed ++ c.toList
          sent := s.sent ++ c.toList
          wire := s.wire ++ (hd ++ b) }, ⟨ok, .idle⟩) := by
  have hn : ¬ ((s.keys.heap i).seq ≥ 2 ^ 48 - 1) := by omega
  simp only [solo, Thread.step, hdead, he, hb, hn, if_false, Bool.false_eq_true, if_true, bump]

theorem solo_record {s : Shared} {id : Nat} {ct : UInt8} {f : Bytes} {ok fail : Prog} {c : Option Seal} {hd b : Bytes}
    (hdead : s.dead = false)
    (he : encipher s.keys s.keys.cur (Record.combineSeq (s.keys.heap s.keys.cur) s.keys.datagram) ct f = .ok (c, hd, b))
    (hb : ¬ (b.length > 2 ^ 14)) (hs : (s.keys.heap s.keys.cur).seq + 1 < 2 ^ 48) :
    solo id 7 (s, ⟨.record ct f ok fail, .idle⟩) =
      ({ s with
          keys := bump s.keys s.keys.cur
          sealed := s.sealed ++ c.toList
          sent := s.sent ++ c.toList
          wire := s.wire ++ (hd ++ b) }, ⟨ok, .idle⟩) := by
  rw [← solo_finish (fail := fail) (id := id) hdead he hb hs]
  simp only [solo, Thread.step, hdead, Bool.false_eq_true, if_false]

/-- Two goroutines about to write a record: a schedule in which both use the same number. -/
theorem race {S : Sys} {a : Record.Aead} {id id' : Nat} (hne : id' ≠ id) {ct ct' : UInt8} {f f' : Bytes} {ok fail ok' fail' : Prog}
    (hk : Ready S.sh.keys a) (hdead : S.sh.dead = false) (h : S.th id = ⟨.record ct f ok fail, .idle⟩)
    (h' : S.th id' = ⟨.record ct' f' ok' fail', .idle⟩) (hf : f.length + 1 + a.overhead ≤ 2 ^ 14) (hf' : f'.length + 1 + a.overhead ≤ 2 ^ 14) :
    ∃ n, (S.run (times 2 id ++ (times 7 id' ++ times 5 id))).sh.sent = S.sh.sent ++
      [⟨S.sh.keys.cur, n, Record.innerPlaintext ct' f' 0⟩, ⟨S.sh.keys.cur, n, Record.innerPlaintext ct f 0⟩] := by
  obtain ⟨⟨k, locks, sealed, sent, wire, dead⟩, th⟩ := S
  dsimp only at hk hdead h h' ⊢
  subst hdead
  have hcs : ∀ c, Record.combineSeq c k.datagram = c.seq := fun c => by rw [hk.tls]; rfl
  obtain ⟨n, hd1, c1, hn, he1, hc1⟩ := encipher_ready (k.heap k.cur).seq ct' hk.tls hk.dir hk.aead hk.iv hk.expands hf'
  obtain ⟨n', hd2, c2, hn', he2, hc2⟩ := encipher_ready (k := bump k k.cur) (i := k.cur) (k.heap k.cur).seq ct hk.tls hk.dir
    (by simp only [bump, Record.upd_same]; exact hk.aead) (by simp only [bump, Record.upd_same]; exact hk.iv) hk.expands hf
  have hnn : n' = n := by
    simp only [bump, Record.upd_same] at hn'
    have : Record.computeNonce (k.heap k.cur) (k.heap k.cur).seq = .ok n' := hn'
    rw [hn] at this
    simpa using this.symm
  subst hnn
  have hs := hk.seq
  refine ⟨n', ?_⟩
  rw [run_append, run_append, run_times id 2]
  have e1 : solo id 2 (⟨k, locks, sealed, sent, wire, false⟩, th id) =
      (⟨k, locks, sealed, sent, wire, false⟩, ⟨.record ct f ok fail, .numbered k.cur (k.heap k.cur).seq⟩) := by
    rw [h]; simp only [solo, Thread.step, Bool.false_eq_true, if_false, hcs]
  dsimp only
  rw [e1, run_times id' 7]
  dsimp only
  rw [if_neg hne, h', solo_record (s := ⟨k, locks, sealed, sent, wire, false⟩) rfl (by rw [hcs]; exact he1) hc1 (by dsimp only; omega), run_times id 5]
  dsimp only
  rw [if_neg (fun h => hne h.symm), if_pos rfl]
  rw [solo_finish rfl he2 hc2 (by simp only [bump, Record.upd_same]; omega)]
  simp

/-- C53 fails. Whatever the keys: when a Write runs while a Read gets a KeyUpdate that asks for an answer, there is a schedule in
which the answer and the application data are sent under the same key with the same nonce. Read does not hold the lock that
Write holds. -/
theorem C53_update_fails (k : Record.Keys) (a : Record.Aead) (hk : Ready k a) (d f : Bytes) (epoch : Nat) (a' : Record.Aead) (iv' : Bytes)
    (hd : d ≠ []) (hdl : d.length + 1 + a.overhead ≤ 2 ^ 14) (hfl : f.length + 1 + a.overhead ≤ 2 ^ 14) :
    ∃ sched n, ((Sys.start k fun id => if id = 0 then [.write d] else if id = 1 then [.read [.update f epoch a' iv']] else []).run sched).sh.sent =
      [⟨k.cur, n, Record.innerPlaintext 22 f 0⟩, ⟨k.cur, n, Record.innerPlaintext 23 d 0⟩] := by
  generalize hS : (Sys.start k fun id => if id = 0 then [.write d] else if id = 1 then [.read [.update f epoch a' iv']] else []) = S
  have hrun : ∃ l th, S.run (times 1 0 ++ times 1 1) = ⟨⟨k, l, [], [], [], false⟩, th⟩ ∧
      th 0 = ⟨.record 23 d (.unlock .out .done) (.unlock .out .done), .idle⟩ ∧
      th 1 = ⟨.record 22 f (.rekey epoch a' iv' (.unlock .inp .done)) (alertProg 80 2 (.unlock .inp .done)), .idle⟩ := by
    rw [run_append, run_times, run_times, ← hS]
    simp [Sys.start, callsProg, writeProg, readProg, readAnswers, fragments_short (b := d) (by omega), hd, writeRecords, solo, Thread.step, setLock]
  obtain ⟨l, th, hr, h0, h1⟩ := hrun
  obtain ⟨n, hn⟩ := race (S := ⟨⟨k, l, [], [], [], false⟩, th⟩) (id := 0) (id' := 1) (by decide) hk rfl h0 h1 hdl hfl
  exact ⟨_, n, by rw [run_append, hr]; exact hn⟩

/-- C53 fails. The same when the Read gets something it answers with an alert, which is sent under another lock. -/
theorem C53_alert_fails (k : Record.Keys) (a : Record.Aead) (hk : Ready k a) (d : Bytes) (desc level : UInt8)
    (hd : d ≠ []) (hdl : d.length + 1 + a.overhead ≤ 2 ^ 14) (hal : 3 + a.overhead ≤ 2 ^ 14) :
    ∃ sched n, ((Sys.start k fun id => if id = 0 then [.write d] else if id = 1 then [.read [.alert desc level]] else []).run sched).sh.sent =
      [⟨k.cur, n, Record.innerPlaintext 21 [desc, level] 0⟩, ⟨k.cur, n, Record.innerPlaintext 23 d 0⟩] := by
  generalize hS : (Sys.start k fun id => if id = 0 then [.write d] else if id = 1 then [.read [.alert desc level]] else []) = S
  have hrun : ∃ l th, S.run (times 1 0 ++ times 2 1) = ⟨⟨k, l, [], [], [], false⟩, th⟩ ∧
      th 0 = ⟨.record 23 d (.unlock .out .done) (.unlock .out .done), .idle⟩ ∧
      th 1 = ⟨.record 21 [desc, level] (.unlock .hs (.unlock .inp .done)) (.unlock .hs (.unlock .inp .done)), .idle⟩ := by
    rw [run_append, run_times, run_times, ← hS]
    simp [Sys.start, callsProg, writeProg, readProg, readAnswers, alertProg, fragments_short (b := d) (by omega), hd, writeRecords, solo, Thread.step, setLock]
  obtain ⟨l, th, hr, h0, h1⟩ := hrun
  obtain ⟨n, hn⟩ := race (S := ⟨⟨k, l, [], [], [], false⟩, th⟩) (id := 0) (id' := 1) (by decide) hk rfl h0 h1 hdl (by simp; omega)
  exact ⟨_, n, by rw [run_append, hr]; exact hn⟩

/-- C53 fails for sealing even in one goroutine: a Write of 2^14 bytes seals a record, finds it too large and returns an error
without counting its number, so that the next Write seals with the same key and nonce. The first is not sent. -/
theorem C53_sealed_fails (k : Record.Keys) (a : Record.Aead) (hk : Ready k a) (b d : Bytes) (hb : b.length = 2 ^ 14)
    (hd : d ≠ []) (hdl : d.length + 1 + a.overhead ≤ 2 ^ 14) :
    ∃ sched n, ((Sys.start k fun id => if id = 0 then [.write b, .write d] else []).run sched).sh.sealed =
      [⟨k.cur, n, Record.innerPlaintext 23 b 0⟩, ⟨k.cur, n, Record.innerPlaintext 23 d 0⟩] := by
  have hcs : ∀ c, Record.combineSeq c k.datagram = c.seq := fun c => by rw [hk.tls]; rfl
  obtain ⟨n, hd1, c1, hn, he1, hc1⟩ := encipher_ready (k.heap k.cur).seq 23 hk.tls hk.dir hk.aead hk.iv hk.expands hdl
  obtain ⟨hd2, hh⟩ : ∃ h, Record.recordHeader k 23 (k.heap k.cur).seq (b.length + (1 + 0 + a.overhead)) = .ok h :=
    ⟨_, by rw [Record.recordHeader, if_neg (by rw [hk.tls]; decide)]⟩
  have he2 : encipher k k.cur (k.heap k.cur).seq 23 b =
      .ok (some ⟨k.cur, n, Record.innerPlaintext 23 b 0⟩, hd2, a.sealing n (Record.innerPlaintext 23 b 0) hd2) := by
    simp only [encipher, hk.aead, hh, hn, Res.bind_ok, hk.dir, ne_eq, not_true_eq_false, if_false]
  have hbig : (a.sealing n (Record.innerPlaintext 23 b 0) hd2).length > 2 ^ 14 := by
    rw [hk.expands.2]
    simp [Record.innerPlaintext]
    omega
  have hfr : fragments b.length b = [b] := by
    rw [hb, show (2 : Nat) ^ 14 = 16383 + 1 from rfl, fragments, if_pos (by omega), fragments_short (by simp; omega)]
    simp [hb, List.take_of_length_le (show b.length ≤ 16384 by omega)]
  have hs := hk.seq
  refine ⟨times 13 0, n, ?_⟩
  rw [run_times]
  have e1 : solo 0 13 ((Sys.start k fun id => if id = 0 then [.write b, .write d] else []).sh,
      (Sys.start k fun id => if id = 0 then [.write b, .write d] else []).th 0) =
      solo 0 7 (⟨k, setLock (setLock (setLock (fun _ => none) .out (some 0)) .out none) .out (some 0),
        [⟨k.cur, n, Record.innerPlaintext 23 b 0⟩], [], [], false⟩, ⟨.record 23 d (.unlock .out .done) (.unlock .out .done), .idle⟩) := by
    rw [show (13 : Nat) = 6 + 7 from rfl, solo_add]
    congr 1
    simp only [Sys.start, callsProg, writeProg, fragments_short (b := d) (by omega), hd, hfr, writeRecords, solo, if_true, if_false, Bool.false_eq_true,
      Thread.step, hcs, he2, hbig, Option.toList_some, List.nil_append]
    simp [setLock]
  rw [e1, solo_record rfl (by dsimp only; rw [hcs]; exact he1) hc1 (by dsimp only; omega)]
  rfl

theorem writeRecord_encipher (k : Record.Keys) (i : Nat) (ct : UInt8) (f : Bytes) :
    Record.writeRecord k i ct f 0 = (encipher k i (Record.combineSeq (k.heap i) k.datagram) ct f).bind fun r =>
      if r.2.2.length > 2 ^ 14 then .err .msg
      else (Record.bumpSeq k.heap i).bind fun h => .ok (r.2.1 ++ r.2.2, { k with heap := h }) := by
  unfold Record.writeRecord encipher
  cases ha : (k.heap i).aead with
  | some a =>
    simp only [ha]
    cases Record.recordHeader k 23 (Record.combineSeq (k.heap i) k.datagram) (f.length + (1 + 0 + a.overhead)) with
    | ok hd =>
      simp only [Res.bind_ok]
      split
      · rfl
      · cases Record.computeNonce (k.heap i) (Record.combineSeq (k.heap i) k.datagram) <;> rfl
    | _ => rfl
  | none =>
    simp only [ha]
    cases Record.recordHeader k ct (Record.combineSeq (k.heap i) k.datagram) f.length <;> rfl

/-- What the steps are: a goroutine that writes a record while no other runs does what `Record.writeRecord` says, which is
what C12 to C18 and C49 are about. -/
theorem C53_solo (s : Shared) (id : Nat) (ct : UInt8) (f : Bytes) (ok fail : Prog) (hdead : s.dead = false) :
    match (generalizing := false) Record.writeRecord s.keys s.keys.cur ct f 0 with
    | .ok (rec, k') => ∃ m, let r := solo id m (s, ⟨.record ct f ok fail, .idle⟩)
        r.1.keys = k' ∧ r.1.wire = s.wire ++ rec ∧ r.1.dead = false ∧ r.1.locks = s.locks ∧ r.2 = ⟨ok, .idle⟩
    | .err _ => ∃ m, let r := solo id m (s, ⟨.record ct f ok fail, .idle⟩)
        r.1.keys = s.keys ∧ r.1.wire = s.wire ∧ r.1.dead = false ∧ r.1.locks = s.locks ∧ r.2 = ⟨fail, .idle⟩
    | .panic => ∃ m, let r := solo id m (s, ⟨.record ct f ok fail, .idle⟩)
        r.1.wire = s.wire ∧ r.1.dead = true
    | .diverge => ∃ m, let r := solo id m (s, ⟨.record ct f ok fail, .idle⟩)
        r.1.wire = s.wire ∧ r.1.dead = true := by
  rw [writeRecord_encipher]
  cases he : encipher s.keys s.keys.cur (Record.combineSeq (s.keys.heap s.keys.cur) s.keys.datagram) ct f with
  | ok r =>
    obtain ⟨c, hd, b⟩ := r
    simp only [Res.bind_ok]
    by_cases hb : b.length > 2 ^ 14
    · rw [if_pos hb]
      refine ⟨3, ?_⟩
      simp only [solo, Thread.step, hdead, he, hb, if_true, Bool.false_eq_true, if_false, and_self]
    · rw [if_neg hb]
      unfold Record.bumpSeq
      by_cases hs : (s.keys.heap s.keys.cur).seq ≥ 2 ^ 48 - 1
      · rw [if_pos hs]
        refine ⟨4, ?_⟩
        simp only [solo, Thread.step, hdead, he, hb, hs, if_true, Bool.false_eq_true, if_false, and_self]
      · rw [if_neg hs]
        simp only [Res.bind_ok]
        refine ⟨7, ?_⟩
        rw [solo_record hdead he hb (by omega)]
        exact ⟨rfl, rfl, hdead, rfl, rfl⟩
  | err e =>
    exfalso
    revert he
    unfold encipher
    split
    · rename_i a _
      unfold Record.recordHeader Record.computeNonce Record.dtlsConvertVersion
      repeat' split
      all_goals simp [Res.bind]
    · unfold Record.recordHeader Record.dtlsConvertVersion
      repeat' split
      all_goals simp [Res.bind]
  | panic =>
    refine ⟨3, ?_⟩
    simp only [solo, Thread.step, hdead, he, Bool.false_eq_true, if_false, and_self]
  | diverge =>
    refine ⟨3, ?_⟩
    simp only [solo, Thread.step, hdead, he, Bool.false_eq_true, if_false, and_self]

namespace ConcurrentCase

/-- Outgoing keys of the toy world, with nothing sent under them yet. -/
def keys : Record.Keys :=
  { direction := .write
    version := 0x0304
    datagram := false
    heap := fun i => if i = 0 then { epoch := 3, seq := 0, iv := List.replicate 12 7, aead := some (Verif.Toy.aead [1]) } else ⟨0, 0, [], none⟩
    fresh := 1
    cur := 0
    readCiphers := [] }

theorem keys_sane : Sane keys where
  epoch := fun i => by by_cases h : i = 0 <;> simp [keys, h]
  seq := fun i => by by_cases h : i = 0 <;> simp [keys, h]
  cur := by decide

theorem aead_expands (k : Bytes) : Expands 28 (Verif.Toy.aead k) :=
  ⟨Nat.le_refl _, fun n p ad => by simp [Verif.Toy.aead, Verif.Toy.tag_length]⟩

theorem keys_ready : Ready keys (Verif.Toy.aead [1]) where
  tls := rfl
  dir := rfl
  aead := rfl
  iv := by decide
  seq := by decide
  expands := aead_expands [1]

/-- One goroutine writes twice, another writes once and a third reads, getting nothing to answer. -/
def calls (id : Nat) : List CCall :=
  if id = 0 then [.write [1, 2], .write [3]] else if id = 1 then [.write [4]] else if id = 2 then [.read [.quiet]] else []

theorem calls_calm (id : Nat) : ∀ c ∈ calls id, CCall.Calm c := by
  intro c hc
  unfold calls at hc
  split at hc
  · simp at hc; rcases hc with rfl | rfl <;> trivial
  · split at hc
    · simp at hc; subst hc; trivial
    · split at hc
      · simp at hc; subst hc; simp [CCall.Calm]
      · simp at hc

theorem calls_short (id : Nat) (b : Bytes) (hb : CCall.write b ∈ calls id) : b.length + 1 + 28 ≤ 2 ^ 14 := by
  unfold calls at hb
  split at hb
  · simp at hb; rcases hb with rfl | rfl <;> decide
  · split at hb
    · simp at hb; subst hb; decide
    · split at hb <;> simp at hb

-- Whatever the schedule, nothing is sealed twice with the same nonce.
example (sched : List (Nat × Bool)) : NoReuse ((Sys.start keys calls).run sched).sh.sealed :=
  (C53_calm_partial keys keys_sane calls calls_calm sched).2 28
    (fun i a h => by
      by_cases hi : i = 0
      · subst hi
        simp only [keys, if_true, Option.some.injEq] at h
        subst h
        exact aead_expands [1]
      · simp [keys, hi] at h)
    calls_short

-- With one of the schedules, all three records are sent.
example : (((Sys.start keys calls).run
    (times 3 0 ++ times 4 1 ++ times 2 2 ++ times 20 0 ++ times 20 1)).sh.sent.map Seal.plain) = [[1, 2, 23], [3, 23], [4, 23]] := by
  decide +kernel

-- The same three programs and C53_locked.
example (sched : List (Nat × Bool)) :
    NoReuse (Sys.run ⟨⟨keys, fun _ => none, [], [], [], false⟩, fun id => ⟨callsProg (calls id), .idle⟩⟩ sched).sh.sent :=
  (C53_locked keys keys_sane _ (fun id => callsProg_locked _ (calls_calm id)) sched).1

-- A Read that gets a KeyUpdate while a Write is under way.
example := C53_update_fails keys _ keys_ready [1, 2, 3] [24, 0, 0, 1, 0] 4 (Verif.Toy.aead [2]) (List.replicate 12 8)
  (by decide) (by decide) (by decide)

-- A Read that gets something it answers with unexpected_message while a Write is under way.
example := C53_alert_fails keys _ keys_ready [1, 2, 3] 10 2 (by decide) (by decide) (by decide)

-- A Write of 16384 zero bytes, then of three.
example := C53_sealed_fails keys _ keys_ready (List.replicate (2 ^ 14) 0) [1, 2, 3] List.length_replicate (by decide) (by decide)

-- A record written alone.
example : (match Record.writeRecord keys 0 23 [1, 2] 0 with | .ok (rec, k') => decide (rec.length = 36 ∧ (k'.heap 0).seq = 1) | _ => false) = true := by
  decide +kernel

end ConcurrentCase

end Verif.Props
