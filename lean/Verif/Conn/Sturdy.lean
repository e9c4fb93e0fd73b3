import Verif.Conn.Datagram
import Verif.Machine.Safe
import Verif.Props.RecordSafety
import Verif.Handshake.FlightLemmas

/-
No call on an established connection panics or hangs, over TLS and over DTLS, whatever arrives: lemmas.
-/

namespace Verif.Conn

open Verif Verif.Crypto Verif.Messages Verif.Negotiation Verif.Handshake Verif.Machine Verif.Spec Verif.Record

/-- Some key has been used for as many records as there are numbers. -/
def Worn (k : Record.Keys) : Prop := ∃ i, 2 ^ 48 - 1 ≤ (k.heap i).seq

/-- The AEAD accepts no plaintext of zeros. -/
def NonZero (W : World) (cp : Params) : Prop :=
  ∀ key nonce c h p, (W.A cp key).opening nonce c h = some p → ∃ b ∈ p, b ≠ 0

structure ReaderOk (W : World) (cp : Params) (r : Reader) : Prop where
  inv : r.Inv
  dir : r.keys.direction = .read
  cur : ∃ key, (r.keys.heap r.keys.cur).aead = some (W.A cp key)
  iv : 8 ≤ (r.keys.heap r.keys.cur).iv.length

structure WriterOk (k : Record.Keys) : Prop where
  dir : k.direction = .write
  version : k.datagram = true → k.version = 0x0303
  iv : ∀ i, (k.heap i).aead.isSome = true → 8 ≤ (k.heap i).iv.length

theorem WriterOk.rekey {k : Record.Keys} (h : WriterOk k) {e : Nat} {a : Aead} {iv : Bytes} (hiv : 8 ≤ iv.length) :
    WriterOk (k.rekey e a iv) := by
  refine ⟨h.dir, h.version, fun i hi => ?_⟩
  simp only [Record.Keys.rekey, upd] at hi ⊢
  split
  · exact hiv
  · rename_i hne; rw [if_neg hne] at hi; exact h.iv i hi

theorem ReaderOk.rekey {W : World} {cp : Params} {r : Reader} (h : ReaderOk W cp r) {e : Nat} {key iv : Bytes} (hiv : 8 ≤ iv.length) :
    ReaderOk W cp { r with keys := r.keys.rekey e (W.A cp key) iv } :=
  ⟨h.inv, h.dir, ⟨key, by simp [Record.Keys.rekey]⟩, by simpa [Record.Keys.rekey] using hiv⟩

theorem readRecord_fine {W : World} {cp : Params} (nz : NonZero W cp) {r : Reader} (h : ReaderOk W cp r) (any : Bool) :
    ReaderOk W cp (readRecord r any).2 ∧ ((readRecord r any).1.Safe ∨ Worn (readRecord r any).2.keys) := by
  obtain ⟨key, hkey⟩ := h.cur
  have sound : ¬ Worn r.keys → r.keys.Sound 1 := by
    intro hn
    refine ⟨h.dir, fun _ _ => h.iv, ?_, ?_, ?_⟩
    · intro a ha
      rw [hkey] at ha
      cases ha
      exact nz key
    · intro _ _ _ _; rw [hkey]; rfl
    · intro i
      have : ¬ 2 ^ 48 - 1 ≤ (r.keys.heap i).seq := fun hh => hn ⟨i, hh⟩
      omega
  unfold readRecord
  dsimp only
  cases hc : r.cached with
  | some pt =>
    have e : nextRecord r any = (.ok pt, r) := by simp [nextRecord, hc]
    rw [e]
    exact ⟨⟨h.inv, h.dir, h.cur, h.iv⟩, Or.inl trivial⟩
  | none =>
    obtain ⟨h1, -, -, h4⟩ := nextRecord_spec r any h.inv hc
    rcases h4 with ⟨hd, b, fs, -, -, ⟨pt, k, ho, e6, e7, -⟩ | ⟨hno, e6, e7, -⟩⟩ | ⟨e, e0, ek, -⟩
    · refine ⟨⟨h1, ?_, ?_, ?_⟩, Or.inl (by rw [e6]; trivial)⟩
      all_goals
        dsimp only
        rw [e7]
        obtain ⟨i, seq, -, -, -, -, rfl, -⟩ := openRecord_ok ho
      · exact h.dir
      · refine ⟨key, ?_⟩
        simp only [upd]
        split
        · rename_i hi; dsimp only; rw [← hi]; exact hkey
        · exact hkey
      · simp only [upd]
        split
        · rename_i hi; dsimp only; rw [← hi]; exact h.iv
        · exact h.iv
    · refine ⟨⟨h1, ?_, ?_, ?_⟩, ?_⟩
      · dsimp only; rw [e7]; exact h.dir
      · dsimp only; rw [e7]; exact h.cur
      · dsimp only; rw [e7]; exact h.iv
      · rw [e6, e7]
        by_cases hw : Worn r.keys
        · exact Or.inr hw
        · exact Or.inl (Res.safe_bind (openRecord_safe _ 0 (sound hw) _ _ _) fun _ _ => trivial)
    · refine ⟨⟨h1, ?_, ?_, ?_⟩, Or.inl (by rw [e0]; trivial)⟩
      · dsimp only; rw [ek]; exact h.dir
      · dsimp only; rw [ek]; exact h.cur
      · dsimp only; rw [ek]; exact h.iv

theorem recordHeader_safe {k : Record.Keys} (h : WriterOk k) (t : UInt8) (seq n : Nat) : (recordHeader k t seq n).Safe := by
  unfold recordHeader
  split
  · rename_i hd
    rw [h.version hd]
    trivial
  · trivial

theorem bumpSeq_safe (hp : Nat → CipherState) (i : Nat) : (bumpSeq hp i).Safe ∨ 2 ^ 48 - 1 ≤ (hp i).seq := by
  unfold bumpSeq
  by_cases hs : (hp i).seq ≥ 2 ^ 48 - 1
  · exact Or.inr hs
  · rw [if_neg hs]; exact Or.inl trivial

theorem writeRecord_fine {k : Record.Keys} (h : WriterOk k) (i : Nat) (ct : UInt8) (f : Bytes) :
    ((Record.writeRecord k i ct f 0).Safe ∨ 2 ^ 48 - 1 ≤ (k.heap i).seq) ∧
    ∀ rec k', Record.writeRecord k i ct f 0 = .ok (rec, k') → WriterOk k' ∧ ∀ j, (k'.heap j).seq ≤ (k.heap j).seq + 1 := by
  constructor
  · rcases bumpSeq_safe k.heap i with hb | hb
    · refine Or.inl ?_
      unfold Record.writeRecord
      dsimp only
      split
      · rename_i a ha
        refine Res.safe_bind (recordHeader_safe h _ _ _) fun hd _ => ?_
        rw [if_neg (by rw [h.dir]; simp)]
        refine Res.safe_bind ?_ fun n _ => ?_
        · unfold computeNonce
          rw [if_neg (by have := h.iv i (by rw [ha]; rfl); omega)]
          trivial
        · split
          · trivial
          · exact Res.safe_bind hb fun _ _ => trivial
      · refine Res.safe_bind (recordHeader_safe h _ _ _) fun hd _ => ?_
        rw [if_neg (by omega)]
        split
        · trivial
        · exact Res.safe_bind hb fun _ _ => trivial
    · exact Or.inr hb
  · intro rec k' hw
    obtain ⟨_, _, -, -, -, rfl, -⟩ := writeRecord_ok hw
    refine ⟨⟨h.dir, h.version, fun j hj => ?_⟩, fun j => ?_⟩
    · simp only [upd] at hj ⊢
      split
      · rename_i he; subst he; rw [if_pos rfl] at hj; exact h.iv j hj
      · rename_i he; rw [if_neg he] at hj; exact h.iv j hj
    · simp only [upd]
      split
      · rename_i he; rw [he]
      · omega

/-- Actions with keys of the right length and no reset. -/
def soundAct : Action → Prop
  | .rekeyIn _ k => 8 ≤ k.2.length
  | .rekeyOut _ k => 8 ≤ k.2.length
  | .resetOut _ => False
  | _ => True

theorem trafficKeys_iv {P : Prims} (hP : P.Sized) {cp : Params} (hz : 0 < cp.hash.size) (hiv : 8 ≤ cp.ivLen) {s : Bytes} {k : Machine.Keys}
    (h : makeTrafficKeys P cp s = .ok k) : 8 ≤ k.2.length := by
  rw [makeTrafficKeys_eq P hP cp hz] at h
  cases h
  simp only [trafficKeys, expandLabel]
  rw [expand_length P hP _ hz]
  exact hiv

theorem keyUpdate_soundAct {E : Env} (hP : E.P.Sized) {x x' : Ctx} {s s' : Connected} {r : UInt8} {acts : List Action}
    (hz : 0 < s.cp.hash.size) (hiv : 8 ≤ s.cp.ivLen) (h : s.keyUpdate E x r = .ok (s', acts, x')) :
    s'.cp = s.cp ∧ ∀ a ∈ acts, soundAct a := by
  obtain ⟨t, keys, m, _, rfl, h2, _, rfl⟩ := Connected.keyUpdate_ok h
  refine ⟨by split <;> rfl, ?_⟩
  simp [soundAct, trafficKeys_iv hP hz hiv h2]

theorem process_soundAct {E : Env} (hP : E.P.Sized) {x x' : Ctx} {s s' : Connected} {now : Int} {m : Msg} {acts : List Action}
    (hz : 0 < s.cp.hash.size) (hiv : 8 ≤ s.cp.ivLen) (h : s.process E x now m = .ok (s', acts, x')) :
    s'.cp = s.cp ∧ ∀ a ∈ acts, soundAct a := by
  refine ⟨Connected.process_cp h, ?_⟩
  rcases Connected.process_ok h with ⟨r, t, s1, keys, _, _, _, hs1, hk, ⟨_, acts', h1, rfl⟩ | ⟨_, rfl, rfl, _⟩⟩ |
    ⟨_, _, _, _, _, _, rfl, rfl, _⟩
  · have hcp : s1.cp = s.cp := by subst hs1; split <;> rfl
    have := (keyUpdate_soundAct hP (by rw [hcp]; exact hz) (by rw [hcp]; exact hiv) h1).2
    intro a ha
    rcases List.mem_cons.1 ha with rfl | ha
    · exact trafficKeys_iv hP hz hiv hk
    · exact this a ha
  · simp [soundAct, trafficKeys_iv hP hz hiv hk]
  · simp [soundAct]

theorem newSessionTicket_soundAct {E : Env} {x x' : Ctx} {s : Connected} {now : Int} {l e a : UInt32} {n t : Bytes} {acts : List Action}
    (h : s.newSessionTicket E x now l e a n t = .ok (acts, x')) : ∀ a ∈ acts, soundAct a := by
  simp only [Connected.newSessionTicket, Res.bind_eq_ok, Res.ok.injEq, Prod.mk.injEq] at h
  obtain ⟨_, -, _, -, _, -, rfl, -⟩ := h
  simp [soundAct]

theorem newSessionTicket_safe {E : Env} (hP : E.P.Sized) {x : Ctx} {s : Connected} {now : Int} {l e a : UInt32} {n t : Bytes}
    (hz : 0 < s.cp.hash.size) : (s.newSessionTicket E x now l e a n t).Safe := by
  unfold Connected.newSessionTicket
  refine Res.safe_bind (safe_orAlert (addExt_safe trivial)) fun exts _ => ?_
  dsimp only
  unfold ticketPsk
  rw [hkdfExpandLabel_eq E.P hP _ hz]
  exact Res.safe_bind trivial fun _ _ => Res.safe_bind (safe_orAlert (mkMsg_safe _ _)) fun _ _ => trivial

/-! ### TLS -/

/-- What keeps calls from panicking. -/
structure Live.Good (W : World) (cp : Params) (c : Live) : Prop where
  params : c.st.cp = cp
  reader : ReaderOk W cp c.reader
  out : WriterOk c.out

/-- One of the two counters of records is used up. -/
def Live.Spent (c : Live) : Prop := Worn c.reader.keys ∨ Worn c.out

def Live.Fine {α : Type} (W : World) (cp : Params) (r : Res α × Live) : Prop := r.2.Good W cp ∧ (r.1.Safe ∨ r.2.Spent)

section
variable {W : World} {cp : Params}

theorem Live.Good.writeRecord {c : Live} (h : c.Good W cp) (ct : UInt8) (f : Bytes) : Live.Fine W cp (c.writeRecord ct f) := by
  obtain ⟨h1, h2⟩ := writeRecord_fine h.out c.out.cur ct f
  unfold Live.writeRecord
  split
  · rename_i rec k hw
    have hk := (h2 rec k hw).1
    split <;> exact ⟨⟨h.params, h.reader, hk⟩, Or.inl trivial⟩
  · exact ⟨h, Or.inl trivial⟩
  · rename_i hw
    rw [hw] at h1
    exact ⟨h, Or.inr (Or.inr ⟨_, h1.resolve_left (by simp)⟩)⟩
  · rename_i hw
    rw [hw] at h1
    exact ⟨h, Or.inr (Or.inr ⟨_, h1.resolve_left (by simp)⟩)⟩

theorem Live.Good.writeFragments (fs : List Bytes) {c : Live} (h : c.Good W cp) : Live.Fine W cp (c.writeFragments fs) := by
  induction fs generalizing c with
  | nil => exact ⟨h, Or.inl trivial⟩
  | cons f fs ih =>
    unfold Live.writeFragments
    have hr := h.writeRecord 22 f
    split
    · rename_i heq; rw [heq] at hr; exact ih hr.1
    · exact hr

theorem internal_fine {r : Res Unit × Live} (h : Live.Fine W cp r) : Live.Fine W cp (internal r) := by
  unfold internal
  split
  · exact ⟨h.1, Or.inl trivial⟩
  · exact h

theorem Live.Good.action {c : Live} (h : c.Good W cp) (a : Action) (ha : soundAct a) : Live.Fine W cp (c.takeAction W a) := by
  cases a with
  | queue m =>
    simp only [Live.takeAction, tlsWrite]
    by_cases hl : m.body.length > 2 ^ 24
    · rw [if_pos hl]; exact ⟨h, Or.inl trivial⟩
    · rw [if_neg hl, if_neg (by decide)]
      exact internal_fine (h.writeFragments _)
  | sendQueued => exact ⟨h, Or.inl trivial⟩
  | rekeyIn e k =>
    simp only [Live.takeAction]
    split
    · exact ⟨h, Or.inl trivial⟩
    · refine ⟨⟨h.params, ?_, h.out⟩, Or.inl trivial⟩
      rw [h.params]
      exact h.reader.rekey ha
  | rekeyOut e k => exact ⟨⟨h.params, h.reader, h.out.rekey ha⟩, Or.inl trivial⟩
  | resetOut s => exact absurd ha id
  | storePsk p => exact ⟨⟨h.params, h.reader, h.out⟩, Or.inl trivial⟩

theorem Live.Good.closed {c : Live} (h : c.Good W cp) : Live.Good W cp { c with closed := true } := ⟨h.params, h.reader, h.out⟩

theorem Live.Good.sendAlert {c : Live} (h : c.Good W cp) (a : Nat) : Live.Fine W cp (c.sendAlert a) := by
  unfold Live.sendAlert
  dsimp only
  have hr := h.writeRecord 21 [UInt8.ofNat a, if a = 100 ∨ a = Alert.closeNotify then 1 else 2]
  split
  · rename_i heq; rw [heq] at hr; exact hr
  · rename_i heq; rw [heq] at hr; exact hr
  · rename_i heq
    rw [heq] at hr
    refine ⟨?_, Or.inl trivial⟩
    dsimp only
    split
    · exact hr.1
    · exact Live.Good.closed hr.1

theorem Live.Good.abort {c : Live} (h : c.Good W cp) (a : Nat) (e : Err) : Live.Fine W cp (c.abort a e) := by
  unfold Live.abort
  have hr := h.sendAlert a
  split
  · rename_i heq; rw [heq] at hr; exact ⟨hr.1, Or.inl trivial⟩
  · exact hr

theorem Live.orAbort_fine {r : Res Unit × Live} (h : Live.Fine W cp r) (e : Err) : Live.Fine W cp (Live.orAbort e r) := by
  unfold Live.orAbort
  split
  · exact Live.Good.abort h.1 _ e
  · exact h

theorem Live.Good.actions (as : List Action) {c : Live} (h : c.Good W cp) (ha : ∀ a ∈ as, soundAct a) :
    Live.Fine W cp (c.takeAll W as) := by
  induction as generalizing c with
  | nil => exact ⟨h, Or.inl trivial⟩
  | cons a as ih =>
    unfold Live.takeAll
    have hr := h.action a (ha a (by simp))
    split
    · rename_i heq; rw [heq] at hr; exact ih hr.1 (fun a h => ha a (by simp [h]))
    · exact hr

variable (hP : W.E.P.Sized) (hz : 0 < cp.hash.size) (hiv : 8 ≤ cp.ivLen)
include hP hz hiv

theorem Live.Good.process {c : Live} (h : c.Good W cp) (now : Int) (m : Msg) : Live.Fine W cp (c.process W now m) := by
  have hs := Connected.process_safe (E := W.E) hP (x := c.x) (s := c.st) (now := now) (m := m) (by rw [h.params]; exact hz)
  unfold Live.process
  split
  · rename_i s acts x heq
    obtain ⟨h1, h2⟩ := process_soundAct hP (by rw [h.params]; exact hz) (by rw [h.params]; exact hiv) heq
    have hr := Live.Good.actions acts (c := { c with x := x }) (W := W) (cp := cp) ⟨h.params, h.reader, h.out⟩ h2
    split
    · rename_i heq'; rw [heq'] at hr; exact ⟨⟨h1.trans h.params, hr.1.reader, hr.1.out⟩, Or.inl trivial⟩
    · exact Live.orAbort_fine hr _
  · exact h.abort _ _
  · exact ⟨h, Or.inl trivial⟩
  · rename_i heq; rw [heq] at hs; exact absurd hs (by simp)
  · rename_i heq; rw [heq] at hs; exact absurd hs (by simp)

theorem Live.Good.postHandshake (now : Int) (n : Nat) {c : Live} (h : c.Good W cp) (b : Bytes) (hb : b.length < n) :
    Live.Fine W cp (Live.postHandshake W now n c b) := by
  induction n generalizing c b with
  | zero => omega
  | succ n ih =>
    unfold Live.postHandshake
    split
    · exact ⟨h, Or.inl trivial⟩
    · split
      · exact ⟨h, Or.inl trivial⟩
      · dsimp only
        split
        · exact ⟨h, Or.inl trivial⟩
        · have hr := h.process hP hz hiv now ⟨b.getD 0 0, 0, (b.drop 4).take (beNat ((b.drop 1).take 3)), 0, 0⟩
          split
          · rename_i heq; rw [heq] at hr; exact ih hr.1 _ (by simp; omega)
          · exact hr

theorem Live.Good.handle {c : Live} (h : c.Good W cp) (now : Int) (ct : UInt8) (f : Bytes) : Live.Fine W cp (c.handle W now ct f) := by
  unfold Live.handle
  split
  · exact h.postHandshake hP hz hiv now _ _ (by omega)
  · split
    · split
      · split
        · exact ⟨h, Or.inl trivial⟩
        · split
          · exact ⟨h, Or.inl trivial⟩
          · split
            · exact ⟨h, Or.inl trivial⟩
            · exact h.abort _ _
      · exact h.abort _ _
    · split
      · exact ⟨h, Or.inl trivial⟩
      · split
        · exact ⟨⟨h.params, h.reader, h.out⟩, Or.inl trivial⟩
        · exact ⟨h, Or.inl trivial⟩

variable (nz : NonZero W cp)
include nz

theorem Live.Good.consume {c : Live} (h : c.Good W cp) (now : Int) : Live.Fine W cp (c.consume W now) := by
  obtain ⟨h1, h2⟩ := readRecord_fine nz h.reader false
  unfold Live.consume
  split
  · rename_i pt r heq
    rw [heq] at h1
    exact Live.Good.handle hP hz hiv (c := { c with reader := r }) ⟨h.params, h1, h.out⟩ now _ _
  all_goals
    rename_i heq
    rw [heq] at h1 h2
    exact ⟨⟨h.params, h1, h.out⟩, h2.imp id Or.inl⟩

theorem Live.Good.readLoop (now : Int) (fuel : Nat) {c : Live} (h : c.Good W cp) : Live.Fine W cp (Live.readLoop W now fuel c) := by
  induction fuel generalizing c with
  | zero => unfold Live.readLoop; split <;> exact ⟨h, Or.inl trivial⟩
  | succ fuel ih =>
    unfold Live.readLoop
    split
    · have hr := h.consume hP hz hiv nz now
      split
      · rename_i heq; rw [heq] at hr; exact ih hr.1
      · rename_i heq
        rw [heq] at hr
        split
        · exact ⟨hr.1, Or.inl trivial⟩
        · exact ih hr.1
      · exact hr
    · exact ⟨h, Or.inl trivial⟩

omit hP hz hiv nz in
theorem Live.Good.writeAll (fs : List Bytes) (sent : Nat) {c : Live} (h : c.Good W cp) : Live.Fine W cp (c.writeAll fs sent) := by
  induction fs generalizing c sent with
  | nil => exact ⟨h, Or.inl trivial⟩
  | cons f fs ih =>
    unfold Live.writeAll
    have hr := h.writeRecord 23 f
    split
    · rename_i heq; rw [heq] at hr; exact ih _ hr.1
    · rename_i heq; rw [heq] at hr; exact ⟨hr.1, Or.inl trivial⟩
    all_goals
      rename_i heq
      rw [heq] at hr
      exact ⟨hr.1, Or.inr (hr.2.resolve_left (by simp))⟩

theorem Live.Good.read {c : Live} (h : c.Good W cp) (now : Int) (fuel n : Nat) : Live.Fine W cp (c.read W now fuel n) := by
  unfold Live.read
  split
  · exact ⟨h, Or.inl trivial⟩
  · have hr := h.readLoop hP hz hiv nz now fuel
    split <;> (rename_i heq; rw [heq] at hr)
    · exact ⟨⟨hr.1.params, hr.1.reader, hr.1.out⟩, Or.inl trivial⟩
    · exact ⟨hr.1, Or.inl trivial⟩
    · exact ⟨hr.1, Or.inr (hr.2.resolve_left (by simp))⟩
    · exact ⟨hr.1, Or.inr (hr.2.resolve_left (by simp))⟩


omit hP hz hiv nz in
theorem Live.reply_fine {r : Res Unit × Live} (h : Live.Fine W cp r) : Live.Fine W cp (reply r) := by
  unfold reply
  split
  · exact ⟨h.1, Or.inl trivial⟩
  · exact ⟨h.1, Or.inl trivial⟩
  · exact ⟨h.1, Or.inr (h.2.resolve_left (by simp))⟩
  · exact ⟨h.1, Or.inr (h.2.resolve_left (by simp))⟩

theorem Live.Good.call {c : Live} (h : c.Good W cp) (k : Call) : Live.Fine W cp (c.call W k) := by
  cases k with
  | read now fuel n =>
    simp only [Live.call]
    have hr := h.read hP hz hiv nz now fuel n
    split <;> (rename_i heq; rw [heq] at hr)
    · exact ⟨hr.1, Or.inl trivial⟩
    · exact ⟨hr.1, Or.inl trivial⟩
    · exact ⟨hr.1, Or.inr (hr.2.resolve_left (by simp))⟩
    · exact ⟨hr.1, Or.inr (hr.2.resolve_left (by simp))⟩
  | write b =>
    simp only [Live.call, Live.write]
    have hr := h.writeAll (Conn.fragments b.length b) 0
    split <;> (rename_i heq; rw [heq] at hr)
    · exact ⟨hr.1, Or.inl trivial⟩
    · exact ⟨hr.1, Or.inl trivial⟩
    · exact ⟨hr.1, Or.inr (hr.2.resolve_left (by simp))⟩
    · exact ⟨hr.1, Or.inr (hr.2.resolve_left (by simp))⟩
  | update request =>
    refine Live.reply_fine ?_
    have hs := Connected.keyUpdate_safe (E := W.E) hP (x := c.x) (s := c.st) (r := if request then 1 else 0) (by rw [h.params]; exact hz)
    unfold Live.update
    split
    · rename_i s acts x heq
      obtain ⟨h1, h2⟩ := keyUpdate_soundAct hP (by rw [h.params]; exact hz) (by rw [h.params]; exact hiv) heq
      exact Live.orAbort_fine (Live.Good.actions acts (c := { c with st := s, x := x }) ⟨h1.trans h.params, h.reader, h.out⟩ h2) _
    · exact h.abort _ _
    · exact ⟨h, Or.inl trivial⟩
    · rename_i heq; rw [heq] at hs; exact absurd hs (by simp)
    · rename_i heq; rw [heq] at hs; exact absurd hs (by simp)
  | ticket now l e a nonce tkt =>
    refine Live.reply_fine ?_
    have hs := newSessionTicket_safe (E := W.E) hP (x := c.x) (s := c.st) (now := now) (l := l) (e := e) (a := a) (n := nonce) (t := tkt)
      (by rw [h.params]; exact hz)
    unfold Live.ticket
    split
    · rename_i acts x heq
      have hr := Live.Good.actions acts (c := { c with x := x }) (W := W) (cp := cp) ⟨h.params, h.reader, h.out⟩ (newSessionTicket_soundAct heq)
      split
      · rename_i heq'; rw [heq'] at hr; exact Live.Good.abort hr.1 _ _
      · exact hr
    · exact ⟨h, Or.inl trivial⟩
    · rename_i heq; rw [heq] at hs; exact absurd hs (by simp)
    · rename_i heq; rw [heq] at hs; exact absurd hs (by simp)
  | close => exact ⟨h.closed, Or.inl trivial⟩

/-- Either all calls return or a counter of records is used up. -/
theorem Live.Good.calls (ks : List Call) {c : Live} (h : c.Good W cp) :
    (Live.calls W c ks).2.Good W cp ∧ ((Live.calls W c ks).1.length = ks.length ∨ (Live.calls W c ks).2.Spent) := by
  induction ks generalizing c with
  | nil => exact ⟨h, Or.inl rfl⟩
  | cons k ks ih =>
    have hr := h.call hP hz hiv nz k
    unfold Live.calls
    split
    · rename_i heq
      rw [heq] at hr
      obtain ⟨h1, h2⟩ := ih hr.1
      exact ⟨h1, h2.imp (fun e => by simp [e]) id⟩
    · rename_i r c' hno heq
      rw [heq] at hr
      refine ⟨hr.1, Or.inr ?_⟩
      cases r with
      | ok r => exact absurd rfl (hno r)
      | err e => exact absurd heq (by
          intro heq
          have := congrArg Prod.fst heq
          cases k <;> simp only [Live.call, reply] at this <;> (repeat' split at this) <;> simp at this)
      | panic => exact hr.2.resolve_left (by simp)
      | diverge => exact hr.2.resolve_left (by simp)

end

/-! ### DTLS -/

structure OutOk (o : Out) : Prop where
  room : o.room = 1200
  keys : WriterOk o.keys

/-- An upper bound for the records written when the queue is sent. -/
def pending (ms : List OutMsg) : Nat := (ms.map fun m => m.body.length + 1).sum

/-- What a step of the sending side does if it is allowed `n` records. -/
structure Step (o : Out) (n : Nat) (o' : Out) : Prop where
  ok : OutOk o'
  queued : o'.queued = o.queued
  grows : ∀ i, (o'.keys.heap i).seq ≤ (o.keys.heap i).seq + n

def WornBy (o : Out) (n : Nat) : Prop := ∃ i, 2 ^ 48 - 1 ≤ (o.keys.heap i).seq + n

theorem emit_fine {o : Out} (h : OutOk o) (key : Nat) (ct : UInt8) (f : Bytes) (content : Option (Nat × Nat × Bytes)) :
    ((o.emit key ct f content).Safe ∨ WornBy o 0) ∧ ∀ o', o.emit key ct f content = .ok o' → Step o 1 o' := by
  obtain ⟨h1, h2⟩ := writeRecord_fine h.keys key ct f
  unfold Out.emit
  refine ⟨h1.imp (fun hs => Res.safe_bind hs fun _ _ => trivial) fun hs => ⟨key, hs⟩, ?_⟩
  intro o' ho
  simp only [Res.bind_eq_ok, Res.ok.injEq] at ho
  obtain ⟨⟨rec, k⟩, hw, rfl⟩ := ho
  obtain ⟨g1, g2⟩ := h2 rec k hw
  exact ⟨⟨h.room, g1⟩, rfl, g2⟩

theorem writeFragment_fine {o : Out} (h : OutOk o) (m : OutMsg) (start : Nat) :
    ((o.writeFragment m start).Safe ∨ WornBy o 0) ∧
    ∀ w s o', o.writeFragment m start = .ok (w, s, o') → Step o 1 o' ∧ s = start + min (m.body.length - start) 1188 := by
  unfold Out.writeFragment
  rw [if_neg (by rw [h.room]; decide)]
  dsimp only
  have hr : o.room - 12 = 1188 := by rw [h.room]
  rw [hr]
  split
  · refine ⟨Or.inl trivial, ?_⟩
    intro w s o' ho
    simp only [Res.ok.injEq, Prod.mk.injEq] at ho
    obtain ⟨-, rfl, rfl⟩ := ho
    exact ⟨⟨h, rfl, fun i => by omega⟩, rfl⟩
  · have he := emit_fine (o := { o with sent := o.sent ++ [⟨m.seq, start, ((m.body.drop start).take (min (m.body.length - start) 1188)).length, combineSeq (o.keys.heap o.keys.cur) true, false⟩] })
      ⟨h.room, h.keys⟩ m.cipher 22 (Msg.marshal true ⟨m.msgType, m.seq, (m.body.drop start).take (min (m.body.length - start) 1188), start, m.body.length⟩)
      (some (m.seq, start, (m.body.drop start).take (min (m.body.length - start) 1188)))
    refine ⟨he.1.imp (fun hs => Res.safe_bind hs fun _ _ => trivial) id, ?_⟩
    intro w s o' ho
    simp only [Res.bind_eq_ok, Res.ok.injEq, Prod.mk.injEq] at ho
    obtain ⟨o1, ho, -, rfl, rfl⟩ := ho
    have := he.2 o1 ho
    exact ⟨⟨this.ok, this.queued, this.grows⟩, rfl⟩

theorem writeLoop_fine (m : OutMsg) : ∀ (fuel : Nat) {o : Out} (start written : Nat), OutOk o → start ≤ m.body.length →
    m.body.length < fuel + start →
    ((o.writeLoop m fuel start written).Safe ∨ WornBy o fuel) ∧ ∀ w o', o.writeLoop m fuel start written = .ok (w, o') → Step o fuel o' := by
  intro fuel
  induction fuel with
  | zero => intro o start written h h1 h2; omega
  | succ fuel ih =>
    intro o start written h hle hlt
    obtain ⟨f1, f2⟩ := writeFragment_fine h m start
    rw [Out.writeLoop]
    cases hw : o.writeFragment m start with
    | ok x =>
      obtain ⟨w, s, o1⟩ := x
      obtain ⟨g, hs⟩ := f2 w s o1 hw
      rw [Res.bind_ok]
      dsimp only
      split
      · refine ⟨Or.inl trivial, ?_⟩
        intro w' o' ho
        simp only [Res.ok.injEq, Prod.mk.injEq] at ho
        obtain ⟨-, rfl⟩ := ho
        exact ⟨g.ok, g.queued, fun i => by have := g.grows i; omega⟩
      · rename_i hge
        obtain ⟨i1, i2⟩ := ih (o := o1) s (if w = true then written + 1 else written) g.ok (by omega) (by omega)
        refine ⟨i1.imp id ?_, ?_⟩
        · rintro ⟨i, hi⟩
          exact ⟨i, by have := g.grows i; omega⟩
        · intro w' o' ho
          have g' := i2 w' o' ho
          exact ⟨g'.ok, g'.queued.trans g.queued, fun i => by have := g.grows i; have := g'.grows i; omega⟩
    | err e => exact ⟨Or.inl trivial, by simp⟩
    | panic =>
      rw [hw] at f1
      obtain ⟨i, hi⟩ := f1.resolve_left (by simp)
      exact ⟨Or.inr ⟨i, by omega⟩, by simp⟩
    | diverge =>
      rw [hw] at f1
      obtain ⟨i, hi⟩ := f1.resolve_left (by simp)
      exact ⟨Or.inr ⟨i, by omega⟩, by simp⟩

theorem writeMessages_fine (ms : List OutMsg) {o : Out} (written : Nat) (h : OutOk o) :
    ((Out.writeMessages ms written o).Safe ∨ WornBy o (pending ms)) ∧
    ∀ w o', Out.writeMessages ms written o = .ok (w, o') → Step o (pending ms) o' := by
  induction ms generalizing o written with
  | nil =>
    refine ⟨Or.inl trivial, ?_⟩
    intro w o' ho
    simp only [Out.writeMessages, Res.ok.injEq, Prod.mk.injEq] at ho
    obtain ⟨-, rfl⟩ := ho
    exact ⟨h, rfl, fun i => by omega⟩
  | cons m ms ih =>
    have hp : pending (m :: ms) = m.body.length + 1 + pending ms := by simp [pending]
    rw [hp, Out.writeMessages, Out.writeMessage]
    split
    · exact ⟨Or.inl trivial, by simp⟩
    · obtain ⟨f1, f2⟩ := writeLoop_fine m (m.body.length + 1) (o := o) 0 0 h (by omega) (by omega)
      cases hw : o.writeLoop m (m.body.length + 1) 0 0 with
      | ok x =>
        obtain ⟨n, o1⟩ := x
        have g := f2 n o1 hw
        obtain ⟨i1, i2⟩ := ih (o := o1) (written + n) g.ok
        rw [Res.bind_ok]
        dsimp only
        refine ⟨i1.imp id ?_, ?_⟩
        · rintro ⟨i, hi⟩
          exact ⟨i, by have := g.grows i; omega⟩
        · intro w' o' ho
          have g' := i2 w' o' ho
          exact ⟨g'.ok, g'.queued.trans g.queued, fun i => by have := g.grows i; have := g'.grows i; omega⟩
      | err e => exact ⟨Or.inl trivial, by simp⟩
      | panic =>
        rw [hw] at f1
        obtain ⟨i, hi⟩ := f1.resolve_left (by simp)
        exact ⟨Or.inr ⟨i, by omega⟩, by simp⟩
      | diverge =>
        rw [hw] at f1
        obtain ⟨i, hi⟩ := f1.resolve_left (by simp)
        exact ⟨Or.inr ⟨i, by omega⟩, by simp⟩

theorem ackNumbers_safe (d : Bytes) : (ackNumbers d).Safe := by
  unfold ackNumbers
  refine Res.safe_bind (Syntax.C06_unmarshal_safe_partial ackTy ?_ d) fun x _ => ?_
  · simp [ackTy, Syntax.Ty.robust, Syntax.Fields.robust, Syntax.Ty.nonEmpty]
  · dsimp only
    split <;> trivial

def soundOp : OutOp → Prop
  | .rekey _ _ iv => 8 ≤ iv.length
  | .resetClear _ => False
  | .version _ => False
  | _ => True

theorem op_fine {o : Out} (h : OutOk o) (op : OutOp) (hs : soundOp op) :
    ((o.op op).Safe ∨ WornBy o (pending o.queued)) ∧ ∀ o', o.op op = .ok o' → OutOk o' := by
  cases op with
  | queue t s b => exact ⟨Or.inl trivial, by rintro o' ⟨⟩; exact ⟨h.room, h.keys⟩⟩
  | send =>
    obtain ⟨f1, f2⟩ := writeMessages_fine o.queued 0 h
    simp only [Out.op, Out.sendQueued]
    refine ⟨f1.imp (fun hs => Res.safe_bind hs fun _ _ => trivial) id, ?_⟩
    intro o' ho
    simp only [Res.bind_eq_ok, Res.ok.injEq] at ho
    obtain ⟨⟨n, o1⟩, hw, rfl⟩ := ho
    have := (f2 n o1 hw).ok
    exact ⟨this.room, this.keys⟩
  | ack d =>
    simp only [Out.op, Out.processAck, Out.sendQueued]
    have f := fun nums => writeMessages_fine o.queued (o := { o with timer := false, sent := markAcked nums o.sent, acks := o.acks ++ nums }) 0 ⟨h.room, h.keys⟩
    constructor
    · by_cases hw : WornBy o (pending o.queued)
      · exact Or.inr hw
      · refine Or.inl (Res.safe_bind (ackNumbers_safe d) fun nums _ => ?_)
        refine Res.safe_bind ((f nums).1.resolve_right hw) fun x _ => ?_
        split <;> trivial
    · intro o' ho
      simp only [Res.bind_eq_ok] at ho
      obtain ⟨nums, -, ⟨n, o1⟩, hw, ho⟩ := ho
      have := ((f nums).2 n o1 hw).ok
      dsimp only at ho
      split at ho <;> cases ho <;> exact ⟨this.room, this.keys⟩
  | nextFlight => exact ⟨Or.inl trivial, by rintro o' ⟨⟩; exact ⟨h.room, h.keys⟩⟩
  | rekey e a iv => exact ⟨Or.inl trivial, by rintro o' ⟨⟩; exact ⟨h.room, h.keys.rekey hs⟩⟩
  | resetClear s => exact absurd hs id
  | version v => exact absurd hs id
  | other ct f =>
    obtain ⟨f1, f2⟩ := emit_fine h o.keys.cur ct f none
    refine ⟨f1.imp id ?_, fun o' ho => (f2 o' ho).ok⟩
    rintro ⟨i, hi⟩
    exact ⟨i, by omega⟩

/-- What keeps calls from panicking. -/
structure DLive.Good (W : World) (cp : Params) (c : DLive) : Prop where
  params : c.st.cp = cp
  reader : ReaderOk W cp c.reader
  out : OutOk c.out

/-- One of the two counters of records is used up, or would be by sending the queue. -/
def DLive.Spent (c : DLive) : Prop := Worn c.reader.keys ∨ WornBy c.out (pending c.out.queued)

def DLive.Fine {α : Type} (W : World) (cp : Params) (r : Res α × DLive) : Prop := r.2.Good W cp ∧ (r.1.Safe ∨ r.2.Spent)

section
variable {W : World} {cp : Params}

theorem DLive.Good.sends {c : DLive} (h : c.Good W cp) {r : Res Out}
    (hr : (r.Safe ∨ WornBy c.out (pending c.out.queued)) ∧ ∀ o', r = .ok o' → OutOk o') : DLive.Fine W cp (c.sends r) := by
  cases r with
  | ok o =>
    simp only [DLive.sends]
    split
    · exact ⟨h, Or.inl trivial⟩
    · exact ⟨⟨h.params, h.reader, hr.2 o rfl⟩, Or.inl trivial⟩
  | err e => exact ⟨h, Or.inl trivial⟩
  | panic => exact ⟨h, Or.inr (Or.inr (hr.1.resolve_left (by simp)))⟩
  | diverge => exact ⟨h, Or.inr (Or.inr (hr.1.resolve_left (by simp)))⟩

theorem DLive.Good.writeRecord {c : DLive} (h : c.Good W cp) (ct : UInt8) (f : Bytes) : DLive.Fine W cp (c.writeRecord ct f) :=
  h.sends (op_fine h.out _ trivial)

theorem dInternal_fine {r : Res Unit × DLive} (h : DLive.Fine W cp r) : DLive.Fine W cp (dInternal r) := by
  unfold dInternal
  split
  · exact ⟨h.1, Or.inl trivial⟩
  · exact h

theorem DLive.Good.action {c : DLive} (h : c.Good W cp) (a : Action) (ha : soundAct a) : DLive.Fine W cp (c.takeAction W a) := by
  cases a with
  | queue m => exact dInternal_fine (h.sends (op_fine h.out _ trivial))
  | sendQueued => exact dInternal_fine (h.sends (op_fine h.out _ trivial))
  | rekeyIn e k =>
    simp only [DLive.takeAction]
    split
    · exact ⟨h, Or.inl trivial⟩
    · refine ⟨⟨h.params, ?_, h.out⟩, Or.inl trivial⟩
      rw [h.params]
      exact h.reader.rekey ha
  | rekeyOut e k => exact h.sends (op_fine h.out _ ha)
  | resetOut s => exact absurd ha id
  | storePsk p => exact ⟨⟨h.params, h.reader, h.out⟩, Or.inl trivial⟩

theorem DLive.Good.closed {c : DLive} (h : c.Good W cp) : DLive.Good W cp { c with closed := true } := ⟨h.params, h.reader, h.out⟩

theorem DLive.Good.sendAlert {c : DLive} (h : c.Good W cp) (a : Nat) : DLive.Fine W cp (c.sendAlert a) := by
  unfold DLive.sendAlert
  dsimp only
  have hr := h.writeRecord 21 [UInt8.ofNat a, if a = 100 ∨ a = Alert.closeNotify then 1 else 2]
  split
  · rename_i heq; rw [heq] at hr; exact hr
  · rename_i heq; rw [heq] at hr; exact hr
  · rename_i heq
    rw [heq] at hr
    refine ⟨?_, Or.inl trivial⟩
    dsimp only
    split
    · exact hr.1
    · exact DLive.Good.closed hr.1

theorem DLive.Good.abort {c : DLive} (h : c.Good W cp) (a : Nat) (e : Err) : DLive.Fine W cp (c.abort a e) := by
  unfold DLive.abort
  have hr := h.sendAlert a
  split
  · rename_i heq; rw [heq] at hr; exact ⟨hr.1, Or.inl trivial⟩
  · exact hr

theorem DLive.orAbort_fine {r : Res Unit × DLive} (h : DLive.Fine W cp r) (e : Err) : DLive.Fine W cp (DLive.orAbort e r) := by
  unfold DLive.orAbort
  split
  · exact DLive.Good.abort h.1 _ e
  · exact h

theorem DLive.Good.actions (as : List Action) {c : DLive} (h : c.Good W cp) (ha : ∀ a ∈ as, soundAct a) :
    DLive.Fine W cp (c.takeAll W as) := by
  induction as generalizing c with
  | nil => exact ⟨h, Or.inl trivial⟩
  | cons a as ih =>
    unfold DLive.takeAll
    have hr := h.action a (ha a (by simp))
    split
    · rename_i heq; rw [heq] at hr; exact ih hr.1 (fun a h => ha a (by simp [h]))
    · exact hr

variable (hP : W.E.P.Sized) (hz : 0 < cp.hash.size) (hiv : 8 ≤ cp.ivLen)
include hP hz hiv

theorem DLive.Good.process {c : DLive} (h : c.Good W cp) (now : Int) (m : Msg) : DLive.Fine W cp (c.process W now m) := by
  have hs := Connected.process_safe (E := W.E) hP (x := c.x) (s := c.st) (now := now) (m := m) (by rw [h.params]; exact hz)
  unfold DLive.process
  split
  · rename_i s acts x heq
    obtain ⟨h1, h2⟩ := process_soundAct hP (by rw [h.params]; exact hz) (by rw [h.params]; exact hiv) heq
    have hr := DLive.Good.actions acts (c := { c with x := x }) (W := W) (cp := cp) ⟨h.params, h.reader, h.out⟩ h2
    split
    · rename_i heq'; rw [heq'] at hr; exact ⟨⟨h1.trans h.params, hr.1.reader, hr.1.out⟩, Or.inl trivial⟩
    · exact DLive.orAbort_fine hr _
  · exact h.abort _ _
  · exact ⟨h, Or.inl trivial⟩
  · rename_i heq; rw [heq] at hs; exact absurd hs (by simp)
  · rename_i heq; rw [heq] at hs; exact absurd hs (by simp)

theorem DLive.Good.postHandshake (now : Int) (n : Nat) {c : DLive} (h : c.Good W cp) (b : Bytes) (hb : b.length < n) :
    DLive.Fine W cp (DLive.postHandshake W now n c b) := by
  induction n generalizing c b with
  | zero => omega
  | succ n ih =>
    unfold DLive.postHandshake
    split
    · exact ⟨h, Or.inl trivial⟩
    · split
      · exact ⟨h, Or.inl trivial⟩
      · dsimp only
        split
        · exact ⟨h, Or.inl trivial⟩
        · have hr := h.process hP hz hiv now ⟨b.getD 0 0, 0, (b.drop 12).take (beNat ((b.drop 1).take 3)), 0, 0⟩
          split
          · rename_i heq; rw [heq] at hr; exact ih hr.1 _ (by simp; omega)
          · exact hr

theorem DLive.Good.handle {c : DLive} (h : c.Good W cp) (now : Int) (ct : UInt8) (f : Bytes) : DLive.Fine W cp (c.handle W now ct f) := by
  unfold DLive.handle
  split
  · exact h.postHandshake hP hz hiv now _ _ (by omega)
  · split
    · split
      · split
        · exact ⟨h, Or.inl trivial⟩
        · split
          · exact ⟨h, Or.inl trivial⟩
          · split
            · exact ⟨h, Or.inl trivial⟩
            · exact h.abort _ _
      · exact h.abort _ _
    · split
      · exact h.sends (op_fine h.out _ trivial)
      · split
        · exact ⟨⟨h.params, h.reader, h.out⟩, Or.inl trivial⟩
        · exact ⟨h, Or.inl trivial⟩

variable (nz : NonZero W cp)
include nz

theorem DLive.Good.consume {c : DLive} (h : c.Good W cp) (now : Int) : DLive.Fine W cp (c.consume W now) := by
  obtain ⟨h1, h2⟩ := readRecord_fine nz h.reader false
  unfold DLive.consume
  split
  · rename_i pt r heq
    rw [heq] at h1
    exact DLive.Good.handle hP hz hiv (c := { c with reader := r }) ⟨h.params, h1, h.out⟩ now _ _
  all_goals
    rename_i heq
    rw [heq] at h1 h2
    exact ⟨⟨h.params, h1, h.out⟩, h2.imp id Or.inl⟩

theorem DLive.Good.readLoop (now : Int) (fuel : Nat) {c : DLive} (h : c.Good W cp) : DLive.Fine W cp (DLive.readLoop W now fuel c) := by
  induction fuel generalizing c with
  | zero => unfold DLive.readLoop; split <;> exact ⟨h, Or.inl trivial⟩
  | succ fuel ih =>
    unfold DLive.readLoop
    split
    · have hr := h.consume hP hz hiv nz now
      split
      · rename_i heq; rw [heq] at hr; exact ih hr.1
      · rename_i heq
        rw [heq] at hr
        split
        · exact ⟨hr.1, Or.inl trivial⟩
        · exact ih hr.1
      · exact hr
    · exact ⟨h, Or.inl trivial⟩

omit hP hz hiv nz in
theorem DLive.Good.writeAll (fs : List Bytes) (sent : Nat) {c : DLive} (h : c.Good W cp) : DLive.Fine W cp (c.writeAll fs sent) := by
  induction fs generalizing c sent with
  | nil => exact ⟨h, Or.inl trivial⟩
  | cons f fs ih =>
    unfold DLive.writeAll
    have hr := h.writeRecord 23 f
    split
    · rename_i heq; rw [heq] at hr; exact ih _ hr.1
    · rename_i heq; rw [heq] at hr; exact ⟨hr.1, Or.inl trivial⟩
    all_goals
      rename_i heq
      rw [heq] at hr
      exact ⟨hr.1, Or.inr (hr.2.resolve_left (by simp))⟩

omit hP hz hiv nz in
theorem DLive.Good.checkTimers {c : DLive} (h : c.Good W cp) (expired : Bool) : DLive.Fine W cp (c.checkTimers expired) := by
  unfold DLive.checkTimers
  split
  · exact dInternal_fine (h.sends (op_fine h.out .send trivial))
  · exact ⟨h, Or.inl trivial⟩

theorem DLive.Good.read {c : DLive} (h : c.Good W cp) (now : Int) (expired : Bool) (fuel n : Nat) :
    DLive.Fine W cp (c.read W now expired fuel n) := by
  unfold DLive.read
  split
  · exact ⟨h, Or.inl trivial⟩
  · have ht := h.checkTimers expired
    split <;> (rename_i heq; rw [heq] at ht)
    · have hr := DLive.Good.readLoop hP hz hiv nz now fuel ht.1
      split <;> (rename_i heq; rw [heq] at hr)
      · exact ⟨⟨hr.1.params, hr.1.reader, hr.1.out⟩, Or.inl trivial⟩
      · exact ⟨hr.1, Or.inl trivial⟩
      · exact ⟨hr.1, Or.inr (hr.2.resolve_left (by simp))⟩
      · exact ⟨hr.1, Or.inr (hr.2.resolve_left (by simp))⟩
    · exact ⟨ht.1, Or.inl trivial⟩
    · exact ⟨ht.1, Or.inr (ht.2.resolve_left (by simp))⟩
    · exact ⟨ht.1, Or.inr (ht.2.resolve_left (by simp))⟩


omit hP hz hiv nz in
theorem DLive.reply_fine {r : Res Unit × DLive} (h : DLive.Fine W cp r) : DLive.Fine W cp (dReply r) := by
  unfold dReply
  split
  · exact ⟨h.1, Or.inl trivial⟩
  · exact ⟨h.1, Or.inl trivial⟩
  · exact ⟨h.1, Or.inr (h.2.resolve_left (by simp))⟩
  · exact ⟨h.1, Or.inr (h.2.resolve_left (by simp))⟩

theorem DLive.Good.call {c : DLive} (h : c.Good W cp) (k : DCall) : DLive.Fine W cp (c.call W k) := by
  cases k with
  | read now expired fuel n =>
    simp only [DLive.call]
    have hr := h.read hP hz hiv nz now expired fuel n
    split <;> (rename_i heq; rw [heq] at hr)
    · exact ⟨hr.1, Or.inl trivial⟩
    · exact ⟨hr.1, Or.inl trivial⟩
    · exact ⟨hr.1, Or.inr (hr.2.resolve_left (by simp))⟩
    · exact ⟨hr.1, Or.inr (hr.2.resolve_left (by simp))⟩
  | write b =>
    simp only [DLive.call, DLive.write]
    have hr := h.writeAll (Conn.fragments b.length b) 0
    split <;> (rename_i heq; rw [heq] at hr)
    · exact ⟨hr.1, Or.inl trivial⟩
    · exact ⟨hr.1, Or.inl trivial⟩
    · exact ⟨hr.1, Or.inr (hr.2.resolve_left (by simp))⟩
    · exact ⟨hr.1, Or.inr (hr.2.resolve_left (by simp))⟩
  | update request =>
    refine DLive.reply_fine ?_
    have hs := Connected.keyUpdate_safe (E := W.E) hP (x := c.x) (s := c.st) (r := if request then 1 else 0) (by rw [h.params]; exact hz)
    unfold DLive.update
    split
    · rename_i s acts x heq
      obtain ⟨h1, h2⟩ := keyUpdate_soundAct hP (by rw [h.params]; exact hz) (by rw [h.params]; exact hiv) heq
      exact DLive.orAbort_fine (DLive.Good.actions acts (c := { c with st := s, x := x }) ⟨h1.trans h.params, h.reader, h.out⟩ h2) _
    · exact h.abort _ _
    · exact ⟨h, Or.inl trivial⟩
    · rename_i heq; rw [heq] at hs; exact absurd hs (by simp)
    · rename_i heq; rw [heq] at hs; exact absurd hs (by simp)
  | ticket now l e a nonce tkt =>
    refine DLive.reply_fine ?_
    have hs := newSessionTicket_safe (E := W.E) hP (x := c.x) (s := c.st) (now := now) (l := l) (e := e) (a := a) (n := nonce) (t := tkt)
      (by rw [h.params]; exact hz)
    unfold DLive.ticket
    split
    · rename_i acts x heq
      have hr := DLive.Good.actions acts (c := { c with x := x }) (W := W) (cp := cp) ⟨h.params, h.reader, h.out⟩ (newSessionTicket_soundAct heq)
      split
      · rename_i heq'; rw [heq'] at hr; exact DLive.Good.abort hr.1 _ _
      · exact hr
    · exact ⟨h, Or.inl trivial⟩
    · rename_i heq; rw [heq] at hs; exact absurd hs (by simp)
    · rename_i heq; rw [heq] at hs; exact absurd hs (by simp)
  | close => exact ⟨h.closed, Or.inl trivial⟩

/-- Either all calls return or a counter of records is used up. -/
theorem DLive.Good.calls (ks : List DCall) {c : DLive} (h : c.Good W cp) :
    (DLive.calls W c ks).2.Good W cp ∧ ((DLive.calls W c ks).1.length = ks.length ∨ (DLive.calls W c ks).2.Spent) := by
  induction ks generalizing c with
  | nil => exact ⟨h, Or.inl rfl⟩
  | cons k ks ih =>
    have hr := h.call hP hz hiv nz k
    unfold DLive.calls
    split
    · rename_i heq
      rw [heq] at hr
      obtain ⟨h1, h2⟩ := ih hr.1
      exact ⟨h1, h2.imp (fun e => by simp [e]) id⟩
    · rename_i r c' hno heq
      rw [heq] at hr
      refine ⟨hr.1, Or.inr ?_⟩
      cases r with
      | ok r => exact absurd rfl (hno r)
      | err e => exact absurd heq (by
          intro heq
          have := congrArg Prod.fst heq
          cases k <;> simp only [DLive.call, dReply] at this <;> (repeat' split at this) <;> simp at this)
      | panic => exact hr.2.resolve_left (by simp)
      | diverge => exact hr.2.resolve_left (by simp)

end

end Verif.Conn
