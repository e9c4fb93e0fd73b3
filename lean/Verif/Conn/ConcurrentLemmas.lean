import Verif.Conn.Concurrent
import Verif.Record.RoundTrip

/-
Goroutines that write records, and change keys, only while they hold the lock of the outgoing record layer: no two calls of Seal
share key and nonce.
-/

namespace Verif.Conn

open Verif

/-- Records are written and keys changed under the lock `out` only. `held`: the goroutine holds it. -/
def Prog.Locked : Bool → Prog → Prop
  | held, .done => held = false
  | held, .lock l k => if l = .out then held = false ∧ k.Locked true else k.Locked held
  | held, .unlock l k => if l = .out then held = true ∧ k.Locked false else k.Locked held
  | held, .record _ _ ok fail => held = true ∧ ok.Locked held ∧ fail.Locked held
  | held, .rekey epoch _ _ k => held = true ∧ epoch < 2 ^ 16 ∧ k.Locked held

/-- An AEAD whose output is longer than its input by a fixed amount, at most `o`. -/
def Expands (o : Nat) (a : Record.Aead) : Prop := a.overhead ≤ o ∧ ∀ n p h, (a.sealing n p h).length = p.length + a.overhead

/-- All records fit if sealing adds at most `o` bytes. -/
def Prog.Fits (o : Nat) : Prog → Prop
  | .done => True
  | .lock _ k => k.Fits o
  | .unlock _ k => k.Fits o
  | .record _ f ok fail => f.length + 1 + o ≤ 2 ^ 14 ∧ ok.Fits o ∧ fail.Fits o
  | .rekey _ a _ k => Expands o a ∧ k.Fits o

/-- The nonce is that of the number `n`. -/
def Numbered (k : Record.Keys) (s : Seal) (n : Nat) : Prop :=
  n < 2 ^ 48 ∧ Record.computeNonce (k.heap s.key) (Record.combineSeq { k.heap s.key with seq := n } k.datagram) = .ok s.nonce

/-- Numbers below the current one of each key, none twice. -/
structure Used (k : Record.Keys) (l : List Seal) : Prop where
  distinct : l.Pairwise fun x y => x.key = y.key → x.nonce ≠ y.nonce
  below : ∀ x ∈ l, x.key < k.fresh ∧ ∃ n, n < (k.heap x.key).seq ∧ Numbered k x n

/-- The call of Seal whose number is not yet counted, or whose record is not yet written. -/
def Phase.seal : Phase → Option Seal
  | .ready _ s _ => s
  | .checked _ s _ => s
  | .loaded _ _ s _ => s
  | .counted s _ => s
  | _ => none

/-- The call was made with the current number of the cipher state `i`. -/
def Current (k : Record.Keys) (i : Nat) (s : Option Seal) : Prop :=
  i < k.fresh ∧ ∀ x, s = some x → x.key = i ∧ Numbered k x (k.heap i).seq

def PhaseOk (k : Record.Keys) (l : List Seal) : Phase → Prop
  | .idle => True
  | .picked i => i < k.fresh
  | .numbered i seq => i < k.fresh ∧ seq = Record.combineSeq (k.heap i) k.datagram
  | .ready i s _ => Current k i s
  | .checked i s _ => Current k i s ∧ (k.heap i).seq < 2 ^ 48 - 1
  | .loaded i n s _ => Current k i s ∧ (k.heap i).seq < 2 ^ 48 - 1 ∧ n = (k.heap i).seq
  | .counted s _ => Used k (l ++ s.toList)

structure KeysOk (o : Option Nat) (k : Record.Keys) : Prop where
  epoch : ∀ i, (k.heap i).epoch < 2 ^ 16
  seq : ∀ i, (k.heap i).seq < 2 ^ 48
  cur : k.cur < k.fresh
  expands : ∀ n, o = some n → ∀ i a, (k.heap i).aead = some a → Expands n a

/-- The invariant, for the phase of the goroutine that holds the lock. `o`: all records fit, with that overhead. -/
def Core (o : Option Nat) (s : Shared) (p : Phase) : Prop :=
  KeysOk o s.keys ∧ ∃ l, Used s.keys l ∧ s.sent.Sublist l ∧ (o ≠ none → s.sealed = l ++ p.seal.toList) ∧ PhaseOk s.keys l p

theorem combineSeq_self (c : Record.CipherState) (d : Bool) : Record.combineSeq { c with seq := c.seq } d = Record.combineSeq c d := rfl

/-- Adding a call with the current number. -/
theorem Used.distinct_snoc {k : Record.Keys} {l : List Seal} (h : Used k l) (hep : ∀ i, (k.heap i).epoch < 2 ^ 16) {x : Seal}
    (hx : Numbered k x (k.heap x.key).seq) : (l ++ [x]).Pairwise fun x y => x.key = y.key → x.nonce ≠ y.nonce := by
  rw [List.pairwise_append]
  refine ⟨h.distinct, by simp, fun y hy z hz hk hn => ?_⟩
  simp only [List.mem_singleton] at hz
  subst hz
  obtain ⟨-, n, h1, h2, h3⟩ := h.below y hy
  obtain ⟨g2, g3⟩ := hx
  rw [hk] at h1 h3
  rw [hn] at h3
  have e := Record.computeNonce_inj rfl
    (Record.combineSeq_lt (c := { k.heap z.key with seq := n }) h2 (hep z.key) k.datagram)
    (Record.combineSeq_lt (c := { k.heap z.key with seq := (k.heap z.key).seq }) g2 (hep z.key) k.datagram) h3 g3
  rw [Record.combineSeq_eq (c := { k.heap z.key with seq := n }) h2, Record.combineSeq_eq (c := { k.heap z.key with seq := (k.heap z.key).seq }) g2] at e
  split at e <;> simp only at e <;> omega

/-- The key state after a number was counted. -/
def bump (k : Record.Keys) (i : Nat) : Record.Keys :=
  { k with heap := Record.upd k.heap i { k.heap i with seq := (k.heap i).seq + 1 } }

theorem bump_numbered {k : Record.Keys} {i : Nat} {x : Seal} {n : Nat} (h : Numbered k x n) : Numbered (bump k i) x n := by
  obtain ⟨h1, h2⟩ := h
  refine ⟨h1, ?_⟩
  by_cases hk : x.key = i
  · subst hk
    simp only [bump, Record.upd_same]
    exact h2
  · simp only [bump, Record.upd_ne hk]
    exact h2

theorem bump_seq_le (k : Record.Keys) (i j : Nat) : (k.heap j).seq ≤ ((bump k i).heap j).seq := by
  by_cases hk : j = i
  · subst hk; simp [bump, Record.upd_same]
  · simp [bump, Record.upd_ne hk]

theorem Used.bump {k : Record.Keys} {l : List Seal} {i : Nat} {s : Option Seal} (h : Used k l)
    (hep : ∀ i, (k.heap i).epoch < 2 ^ 16) (hs : Current k i s) : Used (bump k i) (l ++ s.toList) := by
  have old : ∀ x ∈ l, x.key < (Verif.Conn.bump k i).fresh ∧ ∃ n, n < ((Verif.Conn.bump k i).heap x.key).seq ∧ Numbered (Verif.Conn.bump k i) x n := by
    intro x hx
    obtain ⟨h1, n, h2, h3⟩ := h.below x hx
    exact ⟨h1, n, Nat.lt_of_lt_of_le h2 (bump_seq_le k i x.key), bump_numbered h3⟩
  cases s with
  | none => exact ⟨by simpa using h.distinct, by simpa using old⟩
  | some x =>
    obtain ⟨hi, hx⟩ := hs
    obtain ⟨hk, hn⟩ := hx x rfl
    subst hk
    refine ⟨h.distinct_snoc hep hn, fun y hy => ?_⟩
    simp only [Option.toList_some, List.mem_append, List.mem_singleton] at hy
    rcases hy with hy | rfl
    · exact old y hy
    · exact ⟨hi, (k.heap y.key).seq, by simp [Verif.Conn.bump, Record.upd_same], bump_numbered hn⟩

theorem Used.rekey {k : Record.Keys} {l : List Seal} (h : Used k l) (epoch : Nat) (a : Record.Aead) (iv : Bytes) :
    Used (k.rekey epoch a iv) l := by
  refine ⟨h.distinct, fun x hx => ?_⟩
  obtain ⟨h1, n, h2, h3, h4⟩ := h.below x hx
  have hne : x.key ≠ k.fresh := Nat.ne_of_lt h1
  refine ⟨Nat.lt_succ_of_lt h1, n, ?_, h3, ?_⟩
  · simp only [Record.Keys.rekey, Record.upd_ne hne]; exact h2
  · simp only [Record.Keys.rekey, Record.upd_ne hne]; exact h4

/-- What sealing does. -/
theorem encipher_ok {k : Record.Keys} {i : Nat} {ct : UInt8} {f : Bytes} {s : Option Seal} {hd c : Bytes}
    (h : encipher k i (Record.combineSeq (k.heap i) k.datagram) ct f = .ok (s, hd, c)) (hi : i < k.fresh) (hq : (k.heap i).seq < 2 ^ 48) :
    Current k i s ∧ (∀ o, (∀ a, (k.heap i).aead = some a → Expands o a) → f.length + 1 + o ≤ 2 ^ 14 → c.length ≤ 2 ^ 14) := by
  unfold encipher at h
  split at h
  · rename_i a ha
    simp only [Res.bind_eq_ok] at h
    obtain ⟨header, h1, h⟩ := h
    split at h
    · cases h
    · simp only [Res.bind_eq_ok, Res.ok.injEq, Prod.mk.injEq] at h
      obtain ⟨nonce, hn, rfl, rfl, rfl⟩ := h
      refine ⟨⟨hi, fun x hx => ?_⟩, fun o he hf => ?_⟩
      · simp only [Option.some.injEq] at hx
        subst hx
        exact ⟨rfl, hq, hn⟩
      · obtain ⟨h3, h4⟩ := he a ha
        rw [h4]
        simp [Record.innerPlaintext]
        omega
  · simp only [Res.bind_eq_ok, Res.ok.injEq, Prod.mk.injEq] at h
    obtain ⟨header, h1, rfl, rfl, rfl⟩ := h
    exact ⟨⟨hi, fun x hx => by cases hx⟩, fun o _ hf => by omega⟩

/-- A step of the goroutine that holds the lock, within WriteRecord. -/
theorem record_core {o : Option Nat} {s : Shared} {id : Nat} {w : Bool} {ct : UInt8} {f : Bytes} {ok fail : Prog} {p : Phase}
    (h : Core o s p) (hf : ∀ n, o = some n → f.length + 1 + n ≤ 2 ^ 14) :
    let r := Thread.step s id w ⟨.record ct f ok fail, p⟩
    Core o r.1 r.2.phase ∧ r.1.locks = s.locks ∧
      (r.2.prog = .record ct f ok fail ∨ r.2.phase = .idle ∧ (r.2.prog = ok ∨ r.2.prog = fail)) := by
  obtain ⟨hk, l, hu, hsub, hsl, hp⟩ := h
  unfold Thread.step
  dsimp only
  cases p with
  | idle => exact ⟨⟨hk, l, hu, hsub, hsl, hk.cur⟩, rfl, .inl rfl⟩
  | picked i => exact ⟨⟨hk, l, hu, hsub, hsl, hp, rfl⟩, rfl, .inl rfl⟩
  | numbered i seq =>
    obtain ⟨hi, rfl⟩ := hp
    dsimp only
    split
    · rename_i c header ciphertext he
      obtain ⟨hc, hlen⟩ := encipher_ok he hi (hk.seq i)
      split
      · rename_i hbig
        refine ⟨⟨hk, l, hu, hsub, fun hne => ?_, trivial⟩, rfl, .inr ⟨rfl, .inr rfl⟩⟩
        cases ho : o with
        | none => exact absurd ho hne
        | some n =>
          have := hlen n (fun a ha => hk.expands n ho i a ha) (hf n ho)
          omega
      · refine ⟨⟨hk, l, hu, hsub, fun hne => ?_, hc⟩, rfl, .inl rfl⟩
        have := hsl hne
        simp only [Phase.seal, Option.toList_none, List.append_nil] at this
        simp only [Phase.seal, this]
    · exact ⟨⟨hk, l, hu, hsub, hsl, hi, rfl⟩, rfl, .inl rfl⟩
  | ready i c rec =>
    dsimp only
    split
    · exact ⟨⟨hk, l, hu, hsub, hsl, hp⟩, rfl, .inl rfl⟩
    · rename_i hlt
      exact ⟨⟨hk, l, hu, hsub, hsl, hp, Nat.lt_of_not_le hlt⟩, rfl, .inl rfl⟩
  | checked i c rec => exact ⟨⟨hk, l, hu, hsub, hsl, hp.1, hp.2, rfl⟩, rfl, .inl rfl⟩
  | loaded i n c rec =>
    obtain ⟨hc, hlt, rfl⟩ := hp
    have hb := hu.bump hk.epoch hc
    refine ⟨⟨⟨fun j => ?_, fun j => ?_, hk.cur, fun n ho j a ha => ?_⟩, l, ⟨hu.distinct, fun x hx => hb.below x (by simp [hx])⟩, hsub, hsl, hb⟩, rfl, .inl rfl⟩
    · by_cases hj : j = i
      · subst hj; simp only [Record.upd_same]; exact hk.epoch j
      · simp only [Record.upd_ne hj]; exact hk.epoch j
    · by_cases hj : j = i
      · subst hj; simp only [Record.upd_same]; omega
      · simp only [Record.upd_ne hj]; exact hk.seq j
    · by_cases hj : j = i
      · subst hj; simp only [Record.upd_same] at ha; exact hk.expands n ho j a ha
      · simp only [Record.upd_ne hj] at ha; exact hk.expands n ho j a ha
  | counted c rec =>
    dsimp only
    have hsl' : o ≠ none → s.sealed = (l ++ c.toList) ++ (Phase.idle).seal.toList := by
      intro hne
      rw [hsl hne]
      simp [Phase.seal]
    split
    · exact ⟨⟨hk, l ++ c.toList, hp, hsub.append (List.Sublist.refl _), hsl', trivial⟩, rfl, .inr ⟨rfl, .inl rfl⟩⟩
    · exact ⟨⟨hk, l ++ c.toList, hp, hsub.trans (List.sublist_append_left _ _), hsl', trivial⟩, rfl, .inr ⟨rfl, .inr rfl⟩⟩

theorem rekey_core {o : Option Nat} {s : Shared} {epoch : Nat} {a : Record.Aead} {iv : Bytes} (h : Core o s .idle) (he : epoch < 2 ^ 16)
    (ha : ∀ n, o = some n → Expands n a) : Core o { s with keys := s.keys.rekey epoch a iv } .idle := by
  obtain ⟨hk, l, hu, hsub, hsl, hp⟩ := h
  refine ⟨⟨fun j => ?_, fun j => ?_, Nat.lt_succ_self _, fun n ho j b hb => ?_⟩, l, hu.rekey epoch a iv, hsub, hsl, trivial⟩
  · simp only [Record.Keys.rekey, Record.upd]
    split
    · exact he
    · exact hk.epoch j
  · simp only [Record.Keys.rekey, Record.upd]
    split
    · exact Nat.two_pow_pos 48
    · exact hk.seq j
  · simp only [Record.Keys.rekey, Record.upd] at hb
    split at hb
    · simp only [Option.some.injEq] at hb; subst hb; exact ha n ho
    · exact hk.expands n ho j b hb

/-- The phase of the goroutine that holds the lock. -/
def Sys.active (S : Sys) : Phase :=
  match S.sh.locks .out with
  | some id => (S.th id).phase
  | none => .idle

structure Sys.Inv (o : Option Nat) (S : Sys) : Prop where
  locked : ∀ id, (S.th id).prog.Locked (decide (S.sh.locks .out = some id))
  fits : ∀ n, o = some n → ∀ id, (S.th id).prog.Fits n
  idle : ∀ id, S.sh.locks .out ≠ some id → (S.th id).phase = .idle
  inRecord : ∀ id, (S.th id).phase ≠ .idle → ∃ ct f ok fail, (S.th id).prog = .record ct f ok fail
  core : Core o S.sh S.active

theorem core_locks {o : Option Nat} {s : Shared} {p : Phase} (h : Core o s p) (locks : Lock → Option Nat) : Core o { s with locks := locks } p := h

/-- Another goroutine's step leaves everything to a goroutine as it was. -/
theorem Sys.Inv.step {o : Option Nat} {S : Sys} (h : S.Inv o) (c : Nat × Bool) : (S.step c).Inv o := by
  obtain ⟨id, w⟩ := c
  unfold Sys.step
  split
  · exact h
  dsimp only
  have hl := h.locked id
  have hfit := fun n ho => h.fits n ho id
  -- what to show about the goroutine that makes the step
  suffices key : ∀ s' t', (S.th id).step S.sh id w = (s', t') →
      t'.prog.Locked (decide (s'.locks .out = some id)) ∧ (∀ n, o = some n → t'.prog.Fits n) ∧
      (s'.locks .out ≠ some id → t'.phase = .idle) ∧ (t'.phase ≠ .idle → ∃ ct f ok fail, t'.prog = .record ct f ok fail) ∧
      (∀ j, j ≠ id → (s'.locks .out = some j ↔ S.sh.locks .out = some j)) ∧
      Core o s' (if s'.locks .out = some id then t'.phase else S.active) ∧
      (s'.locks .out = some id ∨ S.sh.locks .out ≠ some id ∨ t'.phase = .idle ∧ S.active = .idle) by
    cases hst : (S.th id).step S.sh id w with
    | mk s' t' =>
      obtain ⟨k1, k2, k3, k4, k5, k6, k7⟩ := key s' t' hst
      refine ⟨fun j => ?_, fun n ho j => ?_, fun j hj => ?_, fun j => ?_, ?_⟩
      · by_cases hj : j = id
        · subst hj; simpa using k1
        · simp only [hj, if_false]
          rw [show decide (s'.locks .out = some j) = decide (S.sh.locks .out = some j) from decide_eq_decide.mpr (k5 j hj)]
          exact h.locked j
      · by_cases hj : j = id
        · subst hj; simpa using k2 n ho
        · simp only [hj, if_false]; exact h.fits n ho j
      · by_cases hji : j = id
        · subst hji; simpa using k3 hj
        · simp only [hji, if_false]; exact h.idle j (fun h' => hj ((k5 j hji).mpr h'))
      · by_cases hji : j = id
        · subst hji; simpa using k4
        · simp only [hji, if_false]; exact h.inRecord j
      · unfold Sys.active
        dsimp only
        split
        · rename_i j hj
          by_cases hji : j = id
          · subst hji; rw [if_pos hj] at k6; simpa using k6
          · simp only [hji, if_false]
            rw [if_neg (by rw [hj]; simpa using hji)] at k6
            have := (k5 j hji).mp hj
            unfold Sys.active at k6
            rw [this] at k6
            exact k6
        · rename_i hj
          rw [if_neg (by rw [hj]; simp)] at k6
          have ha : S.active = .idle := by
            unfold Sys.active
            split
            · rename_i j hj'
              by_cases hji : j = id
              · subst hji
                rcases k7 with k7 | k7 | k7
                · rw [hj] at k7; cases k7
                · exact absurd hj' k7
                · have := k7.2
                  unfold Sys.active at this
                  rw [hj'] at this
                  exact this
              · have := (k5 j hji).mpr hj'
                rw [hj] at this; cases this
            · rfl
          rw [ha] at k6
          exact k6
  intro s' t' hst
  unfold Thread.step at hst
  have hcore := h.core
  have stay : ∀ k, (S.th id).prog = k → (∀ ct f ok fail, k ≠ .record ct f ok fail) → (S.th id).phase = .idle := by
    intro k hk hne
    by_cases hp : (S.th id).phase = .idle
    · exact hp
    · obtain ⟨ct, f, ok, fail, hr⟩ := h.inRecord id hp
      exact absurd (hk.symm.trans hr) (hne ct f ok fail)
  have activeIf : (if S.sh.locks .out = some id then (S.th id).phase else S.active) = S.active := by
    split
    · rename_i hid; unfold Sys.active; rw [hid]
    · rfl
  have same : (S.sh, S.th id) = (s', t') → t'.prog.Locked (decide (s'.locks .out = some id)) ∧ (∀ n, o = some n → t'.prog.Fits n) ∧
      (s'.locks .out ≠ some id → t'.phase = .idle) ∧ (t'.phase ≠ .idle → ∃ ct f ok fail, t'.prog = .record ct f ok fail) ∧
      (∀ j, j ≠ id → (s'.locks .out = some j ↔ S.sh.locks .out = some j)) ∧
      Core o s' (if s'.locks .out = some id then t'.phase else S.active) ∧
      (s'.locks .out = some id ∨ S.sh.locks .out ≠ some id ∨ t'.phase = .idle ∧ S.active = .idle) := by
    intro he
    simp only [Prod.mk.injEq] at he
    obtain ⟨rfl, rfl⟩ := he
    refine ⟨hl, hfit, h.idle id, h.inRecord id, fun _ _ => Iff.rfl, by rw [activeIf]; exact hcore, ?_⟩
    by_cases hh : S.sh.locks .out = some id
    · exact .inl hh
    · exact .inr (.inl hh)
  cases hprog : (S.th id).prog with
  | done => rw [hprog] at hst; exact same hst
  | lock l k =>
    have hidle := stay _ hprog (by intros; simp)
    rw [hprog] at hst hl
    simp only [hprog] at hfit
    dsimp only at hst
    split at hst
    · rename_i hfree
      simp only [Prod.mk.injEq] at hst
      obtain ⟨rfl, rfl⟩ := hst
      simp only [Prog.Locked] at hl
      split at hl
      · rename_i hlo
        subst hlo
        have ha : S.active = .idle := by unfold Sys.active; rw [hfree]
        rw [ha] at hcore
        refine ⟨by simpa [setLock] using hl.2, hfit, fun _ => rfl, fun hn => absurd rfl hn, fun j hj => ?_, ?_, .inl (by simp [setLock])⟩
        · simp only [setLock, if_true, hfree, Option.some.injEq]
          constructor
          · intro h'; exact absurd h'.symm hj
          · intro h'; cases h'
        · simp only [setLock, if_true]; exact core_locks hcore _
      · rename_i hlo
        have hlk : setLock S.sh.locks l (some id) .out = S.sh.locks .out := by
          unfold setLock; rw [if_neg (fun h' => hlo h'.symm)]
        refine ⟨by simp only [hlk]; exact hl, hfit, fun _ => rfl, fun hn => absurd rfl hn, fun j hj => by simp only [hlk], ?_, ?_⟩
        · rw [hidle] at activeIf
          simp only [hlk]
          rw [activeIf]; exact core_locks hcore _
        · simp only [hlk]
          by_cases hh : S.sh.locks .out = some id
          · exact .inl hh
          · exact .inr (.inl hh)
    · exact same (by rw [← hst])
  | unlock l k =>
    have hidle := stay _ hprog (by intros; simp)
    rw [hprog] at hst hl
    simp only [hprog] at hfit
    simp only [Prod.mk.injEq] at hst
    obtain ⟨rfl, rfl⟩ := hst
    simp only [Prog.Locked] at hl
    split at hl
    · rename_i hlo
      subst hlo
      obtain ⟨hheld, hl⟩ := hl
      have hheld := of_decide_eq_true hheld
      have ha : S.active = .idle := by unfold Sys.active; rw [hheld]; exact hidle
      rw [ha] at hcore
      refine ⟨by simpa [setLock] using hl, hfit, fun _ => rfl, fun hn => absurd rfl hn, fun j hj => ?_, ?_, .inr (.inr ⟨rfl, ha⟩)⟩
      · simp only [setLock, if_true, hheld, Option.some.injEq]
        constructor
        · intro h'; cases h'
        · intro h'; exact absurd h'.symm hj
      · rw [ha, ite_self]; exact core_locks hcore _
    · rename_i hlo
      have hlk : setLock S.sh.locks l none .out = S.sh.locks .out := by
        unfold setLock; rw [if_neg (fun h' => hlo h'.symm)]
      refine ⟨by simp only [hlk]; exact hl, hfit, fun _ => rfl, fun hn => absurd rfl hn, fun j hj => by simp only [hlk], ?_, ?_⟩
      · rw [hidle] at activeIf
        simp only [hlk]
        rw [activeIf]; exact core_locks hcore _
      · simp only [hlk]
        by_cases hh : S.sh.locks .out = some id
        · exact .inl hh
        · exact .inr (.inl hh)
  | rekey epoch a iv k =>
    have hidle := stay _ hprog (by intros; simp)
    rw [hprog] at hst hl
    simp only [hprog] at hfit
    simp only [Prod.mk.injEq] at hst
    obtain ⟨rfl, rfl⟩ := hst
    obtain ⟨hheld, he, hl⟩ := hl
    have hheld' := of_decide_eq_true hheld
    have ha : S.active = .idle := by unfold Sys.active; rw [hheld']; exact hidle
    rw [ha] at hcore
    refine ⟨hl, fun n ho => (hfit n ho).2, fun _ => rfl, fun hn => absurd rfl hn, fun _ _ => Iff.rfl, ?_, .inl hheld'⟩
    rw [ha, ite_self]
    exact rekey_core hcore he (fun n ho => (hfit n ho).1)
  | record ct f ok fail =>
    rw [hprog] at hl
    simp only [hprog] at hfit
    obtain ⟨hheld, hok, hfail⟩ := hl
    have hheld' := of_decide_eq_true hheld
    have ha : S.active = (S.th id).phase := by unfold Sys.active; rw [hheld']
    rw [ha] at hcore
    have hth : S.th id = ⟨.record ct f ok fail, (S.th id).phase⟩ := by rw [← hprog]
    obtain ⟨g1, g2, g3⟩ := record_core (id := id) (w := w) (ct := ct) (ok := ok) (fail := fail) hcore (fun n ho => (hfit n ho).1)
    have hst' : Thread.step S.sh id w ⟨.record ct f ok fail, (S.th id).phase⟩ = (s', t') := by
      rw [← hth]; exact hst
    rw [hst'] at g1 g2 g3
    dsimp only at g1 g2 g3
    have hlk : s'.locks .out = some id := by rw [g2]; exact hheld'
    refine ⟨?_, fun n ho => ?_, fun hn => absurd hlk hn, fun hn => ?_, fun _ _ => by rw [g2], by rw [if_pos hlk]; exact g1, .inl hlk⟩
    · rw [g2]
      rcases g3 with g3 | ⟨-, g3 | g3⟩
      · rw [g3]; exact ⟨hheld, hok, hfail⟩
      · rw [g3]; exact hok
      · rw [g3]; exact hfail
    · rcases g3 with g3 | ⟨-, g3 | g3⟩
      · rw [g3]; exact hfit n ho
      · rw [g3]; exact (hfit n ho).2.1
      · rw [g3]; exact (hfit n ho).2.2
    · rcases g3 with g3 | ⟨g3, -⟩
      · exact ⟨ct, f, ok, fail, g3⟩
      · exact absurd g3 hn

theorem Sys.Inv.run {o : Option Nat} (sched : List (Nat × Bool)) : ∀ {S : Sys}, S.Inv o → (S.run sched).Inv o := by
  induction sched with
  | nil => intro S h; exact h
  | cons c cs ih => intro S h; exact ih (h.step c)

end Verif.Conn
