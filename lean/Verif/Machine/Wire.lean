import Verif.Machine.Forward

/-
What an end writes, messages and changes of keys in order, and what an end reads, messages and changes of keys in order.
Between two ends that understand each other the two are the same.
-/

namespace Verif.Machine

open Verif Verif.Crypto Verif.Messages Verif.Negotiation Verif.Handshake Verif.Spec

/-- A message, new keys, or the end of encryption. -/
inductive Sym where
  | msg (m : Msg)
  | key (epoch : Nat) (k : Keys)
  | reset (seq : Nat)

/-- What actions write, messages as they arrive. -/
def outs (d : Bool) : List Action → List Sym
  | [] => []
  | .queue m :: l => .msg (arrived d m) :: outs d l
  | .rekeyOut n k :: l => .key n k :: outs d l
  | .resetOut n :: l => .reset n :: outs d l
  | .sendQueued :: l => outs d l
  | .rekeyIn _ _ :: l => outs d l
  | .storePsk _ :: l => outs d l

/-- The keys actions install for reading. -/
def ins : List Action → List Sym
  | [] => []
  | .rekeyIn n k :: l => .key n k :: ins l
  | _ :: l => ins l

/-- What is read. -/
def got : Event → List Sym
  | .msg m => [.msg m]
  | _ => []

/-- What a client has read: messages, and the changes of keys they led to. -/
def CState.heard (E : Env) : Ctx → CState → List (Event × Coins) → List Sym
  | _, _, [] => []
  | x, s, (e, c) :: es =>
    match s.step E x c e with
    | .ok (s', acts, x') => got e ++ ins acts ++ s'.heard E x' es
    | _ => []

/-- What a server has read. -/
def SState.heard (E : Env) : Ctx → SState → List (Event × Coins) → List Sym
  | _, _, [] => []
  | x, s, (e, c) :: es =>
    match s.step E x c e with
    | .ok (s', acts, x') => got e ++ ins acts ++ s'.heard E x' es
    | _ => []

variable {E : Env}

@[simp] theorem outs_append (d : Bool) (a b : List Action) : outs d (a ++ b) = outs d a ++ outs d b := by
  induction a with
  | nil => rfl
  | cons x l ih => cases x <;> simp [outs, ih]

@[simp] theorem ins_append (a b : List Action) : ins (a ++ b) = ins a ++ ins b := by
  induction a with
  | nil => rfl
  | cons x l ih => cases x <;> simp [ins, ih]

theorem CState.heard_cons {x x' : Ctx} {c : Coins} {s s' : CState} {e : Event} {es : List (Event × Coins)} {acts : List Action}
    {l : List Sym} (h : s.step E x c e = .ok (s', acts, x')) (h' : s'.heard E x' es = l) :
    s.heard E x ((e, c) :: es) = got e ++ ins acts ++ l := by
  rw [CState.heard, h]
  exact congrArg _ h'

theorem SState.heard_cons {x x' : Ctx} {c : Coins} {s s' : SState} {e : Event} {es : List (Event × Coins)} {acts : List Action}
    {l : List Sym} (h : s.step E x c e = .ok (s', acts, x')) (h' : s'.heard E x' es = l) :
    s.heard E x ((e, c) :: es) = got e ++ ins acts ++ l := by
  rw [SState.heard, h]
  exact congrArg _ h'

theorem CState.heard_append {x x' : Ctx} {s s' : CState} {es es' : List (Event × Coins)} {acts : List Action}
    (h : s.run E x es = .ok (s', acts, x')) : s.heard E x (es ++ es') = s.heard E x es ++ s'.heard E x' es' := by
  induction es generalizing x s acts with
  | nil =>
    rw [CState.run, Res.ok.injEq, Prod.mk.injEq, Prod.mk.injEq] at h
    obtain ⟨rfl, _, rfl⟩ := h
    rfl
  | cons e es ih =>
    obtain ⟨e, c⟩ := e
    simp only [CState.run, Res.bind_eq_ok, Res.ok.injEq, Prod.mk.injEq] at h
    obtain ⟨⟨s1, a1, x1⟩, h1, ⟨s2, a2, x2⟩, h2, rfl, _, rfl⟩ := h
    rw [List.cons_append, CState.heard_cons h1 (ih h2), CState.heard_cons h1 rfl, List.append_assoc (got e ++ ins a1)]

theorem SState.heard_append {x x' : Ctx} {s s' : SState} {es es' : List (Event × Coins)} {acts : List Action}
    (h : s.run E x es = .ok (s', acts, x')) : s.heard E x (es ++ es') = s.heard E x es ++ s'.heard E x' es' := by
  induction es generalizing x s acts with
  | nil =>
    rw [SState.run, Res.ok.injEq, Prod.mk.injEq, Prod.mk.injEq] at h
    obtain ⟨rfl, _, rfl⟩ := h
    rfl
  | cons e es ih =>
    obtain ⟨e, c⟩ := e
    simp only [SState.run, Res.bind_eq_ok, Res.ok.injEq, Prod.mk.injEq] at h
    obtain ⟨⟨s1, a1, x1⟩, h1, ⟨s2, a2, x2⟩, h2, rfl, _, rfl⟩ := h
    rw [List.cons_append, SState.heard_cons h1 (ih h2), SState.heard_cons h1 rfl, List.append_assoc (got e ++ ins a1)]

theorem CState.step_waitEE {x : Ctx} {c : Coins} {v : CWaitEE} {m : Msg} {r : Res (CState × List Action × Ctx)}
    (h : v.next E x m = r) : CState.step E x c (.waitEE v) (.msg m) = r := h

theorem CState.step_waitCertCR {x : Ctx} {c : Coins} {v : CWaitEE} {m : Msg} {r : Res (CState × List Action × Ctx)}
    (h : v.nextCertCR E x m = r) : CState.step E x c (.waitCertCR v) (.msg m) = r := h

theorem CState.step_waitCert {x : Ctx} {c : Coins} {v : CWaitCert} {m : Msg} {r : Res (CState × List Action × Ctx)}
    (h : v.next E x m = r) : CState.step E x c (.waitCert v) (.msg m) = r := h

theorem CState.step_waitFinished {x : Ctx} {c : Coins} {v : CWaitFinished} {m : Msg} {r : Res (CState × List Action × Ctx)}
    (h : v.next E x m = r) : CState.step E x c (.waitFinished v) (.msg m) = r := h

theorem CState.step_waitCV {x : Ctx} {c : Coins} {v : CWaitCV} {m : Msg} {r : Res (CState × List Action × Ctx)}
    (h : v.next E x c m = r) : CState.step E x c (.waitCV v) (.msg m) = r := h

theorem SState.step_waitCert {x : Ctx} {c : Coins} {v : SWait} {m : Msg} {r : Res (SState × List Action × Ctx)}
    (h : v.nextCert E x m = r) : SState.step E x c (.waitCert v) (.msg m) = r := h

theorem SState.step_waitCV {x : Ctx} {c : Coins} {v : SWaitCV} {m : Msg} {r : Res (SState × List Action × Ctx)}
    (h : v.next E x m = r) : SState.step E x c (.waitCV v) (.msg m) = r := h

theorem SState.step_waitFinished {x : Ctx} {c : Coins} {v : SWaitFinished} {m : Msg} {r : Res (SState × List Action × Ctx)}
    (h : v.next E x m = r) : SState.step E x c (.waitFinished v) (.msg m) = r := h

/-! ### Fit to be written -/

/-- A message as the handshake layer makes it; keys with an IV of twelve bytes for one of the four epochs. -/
def Sym.good (d : Bool) : Sym → Prop
  | .msg m => m.offset = 0 ∧ m.length = m.body.length % 2 ^ 32 ∧ (d = false → m.seq = 0)
  | .key n k => n ≤ 3 ∧ k.2.length = 12
  | .reset _ => False

theorem good_made {x x' : Ctx} {b : Body} {m : Msg} (d : Bool) (h : mkMsg x b = .ok (m, x')) : (Sym.msg (arrived d m)).good d := by
  obtain ⟨data, _, rfl, _⟩ := mkMsg_ok h
  cases d <;> simp [Sym.good, arrived]

theorem suiteParams_iv {s : Nat} {p : Params} (h : suiteParams s = some p) : p.ivLen = 12 := by
  simp only [suiteParams] at h
  split at h
  · cases h; rfl
  · split at h
    · cases h; rfl
    · cases h

theorem good_keys (hP : E.P.Sized) (d : Bool) {s : Nat} {p : Params} (hp : suiteParams s = some p) {secret : Bytes} {k : Keys}
    (h : makeTrafficKeys E.P p secret = .ok k) {n : Nat} (hn : n ≤ 3) : (Sym.key n k).good d := by
  rw [makeTrafficKeys_eq E.P hP _ (suiteParams_size hp), Res.ok.injEq] at h
  subst h
  refine ⟨hn, ?_⟩
  simp only [trafficKeys, expandLabel, expand_length E.P hP _ (suiteParams_size hp), suiteParams_iv hp]

/-- Once connected, a client stays so. -/
theorem CState.connected_stays {x x' : Ctx} {s : Connected} {s' : CState} {es : List (Event × Coins)} {acts : List Action}
    (h : CState.run E x (.connected s) es = .ok (s', acts, x')) : ∃ s'', s' = .connected s'' := by
  induction es generalizing x s acts with
  | nil =>
    rw [CState.run, Res.ok.injEq, Prod.mk.injEq] at h
    exact ⟨s, h.1.symm⟩
  | cons e es ih =>
    obtain ⟨e, c⟩ := e
    simp only [CState.run, Res.bind_eq_ok, Res.ok.injEq, Prod.mk.injEq] at h
    obtain ⟨⟨s1, a1, x1⟩, h1, ⟨s2, a2, x2⟩, h2, rfl, _, rfl⟩ := h
    cases e with
    | msg m =>
      simp only [CState.step, Res.bind_eq_ok, Res.ok.injEq, Prod.mk.injEq] at h1
      obtain ⟨⟨s3, a3, x3⟩, _, rfl, _, rfl⟩ := h1
      exact ih h2
    | appData b =>
      simp only [CState.step, Res.ok.injEq, Prod.mk.injEq] at h1
      obtain ⟨rfl, _, rfl⟩ := h1
      exact ih h2
    | bad => simp [CState.step, alert] at h1

/-- Once connected, a server stays so. -/
theorem SState.connected_stays {x x' : Ctx} {s : Connected} {s' : SState} {es : List (Event × Coins)} {acts : List Action}
    (h : SState.run E x (.connected s) es = .ok (s', acts, x')) : ∃ s'', s' = .connected s'' := by
  induction es generalizing x s acts with
  | nil =>
    rw [SState.run, Res.ok.injEq, Prod.mk.injEq] at h
    exact ⟨s, h.1.symm⟩
  | cons e es ih =>
    obtain ⟨e, c⟩ := e
    simp only [SState.run, Res.bind_eq_ok, Res.ok.injEq, Prod.mk.injEq] at h
    obtain ⟨⟨s1, a1, x1⟩, h1, ⟨s2, a2, x2⟩, h2, rfl, _, rfl⟩ := h
    cases e with
    | msg m =>
      simp only [SState.step, Res.bind_eq_ok, Res.ok.injEq, Prod.mk.injEq] at h1
      obtain ⟨⟨s3, a3, x3⟩, _, rfl, _, rfl⟩ := h1
      exact ih h2
    | appData b =>
      simp only [SState.step, Res.ok.injEq, Prod.mk.injEq] at h1
      obtain ⟨rfl, _, rfl⟩ := h1
      exact ih h2
    | bad => simp [SState.step, alert] at h1

end Verif.Machine
