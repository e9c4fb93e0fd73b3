import Verif.Basic

/-
Model of timer.go. Go slices share arrays, and `check` depends on that, so arrays are explicit.

Times are numbers (any unit). Callbacks are arbitrary: what the `k`-th callback invocation does (which timers it starts,
with which deadlines, which labels it cancels, whether it returns an error) is given by a function of `k`.
-/

namespace Verif.Timer

open Verif

/-- `timer`, timer.go:13-18. `armed` is `cb != nil`; the label 0 is the empty string. Deadlines never change. -/
structure Timer where
  label : Nat
  armed : Bool
  deadline : Nat
  deriving DecidableEq

/-- What a callback, or the owner, does to the set besides checking it. -/
inductive Act where
  | start (label deadline : Nat)
  | cancel (label : Nat)
  deriving DecidableEq

/-- The surroundings: effects of callback invocations (and whether they fail), and the spare capacity that `append`
gives a new array of a given length. -/
structure Env where
  callback : Nat → List Act × Bool
  spare : Nat → Nat

/-- `timerSet`, timer.go:20-22, and memory. Timers are pointers, here indices into `heap`. `mem` are the arrays,
their lists being as long as the capacity (`none` is a nil element); `ts.ts` is the first `len` elements of
array `arr`. `calls` counts callback invocations; `fired` records them with the time given to `check`. -/
structure State where
  heap : List Timer
  mem : List (List (Option Nat))
  arr : Nat
  len : Nat
  calls : Nat
  fired : List (Nat × Nat)
  deriving DecidableEq

/-- `newTimerSet`, timer.go:24-26: a nil slice. -/
def State.new : State := ⟨[], [[]], 0, 0, 0, []⟩

/-- The elements of array `a`. -/
def State.array (s : State) (a : Nat) : List (Option Nat) := s.mem.getD a []

/-- The elements of `ts.ts`. -/
def State.list (s : State) : List (Option Nat) := (s.array s.arr).take s.len

/-- The deadline of a timer. -/
def State.deadline (s : State) (t : Nat) : Nat := ((s.heap[t]?).map Timer.deadline).getD 0

/-- `cb != nil`. -/
def State.armed (s : State) (t : Nat) : Bool := ((s.heap[t]?).map Timer.armed).getD false

def State.label (s : State) (t : Nat) : Nat := ((s.heap[t]?).map Timer.label).getD 0

/-- The position found at timer.go:38-45: before the first timer with a later deadline. -/
def insertPos (s : State) (deadline : Nat) : List (Option Nat) → Nat
  | [] => 0
  | some t :: ts => if deadline < s.deadline t then 0 else insertPos s deadline ts + 1
  | none :: _ => 0

/-- `start`, timer.go:28-53. The new array has no spare capacity (`make` with capacity ntimers+1). -/
def State.start (s : State) (label deadline : Nat) : State :=
  let i := insertPos s deadline s.list
  { s with
    heap := s.heap ++ [⟨label, true, deadline⟩]
    mem := s.mem ++ [s.list.take i ++ some s.heap.length :: s.list.drop i]
    arr := s.mem.length
    len := s.list.length + 1 }

/-- `timer.cancel`, timer.go:118-122, for a set of timers. -/
def disarm (p : Nat → Timer → Bool) (heap : List Timer) : List Timer :=
  heap.mapIdx fun i t => if p i t then { t with armed := false, label := 0 } else t

/-- `cancel`, timer.go:89-95: all listed timers with this label. -/
def State.cancel (s : State) (label : Nat) : State :=
  { s with heap := disarm (fun i t => some i ∈ s.list ∧ t.label = label) s.heap }

def State.act (s : State) : Act → State
  | .start l d => s.start l d
  | .cancel l => s.cancel l

/-- Line 61 of timer.go: `ts.ts = append(ts.ts[:i], ts.ts[:i+1]...)`. In place if the capacity allows. -/
def State.squeeze (s : State) (env : Env) (i : Nat) : Res State :=
  let a := s.array s.arr
  if i + 1 > a.length then .panic
  else
    let new := a.take i ++ a.take (i + 1)
    if new.length ≤ a.length then
      .ok { s with mem := s.mem.set s.arr (new ++ a.drop new.length), len := new.length }
    else
      .ok { s with
        mem := s.mem ++ [new ++ List.replicate (env.spare new.length) none]
        arr := s.mem.length
        len := new.length }

/-- `cb := t.cb; t.cb = nil; cb()`, timer.go:64-66. The flag is the error. -/
def State.fire (s : State) (env : Env) (now t : Nat) : State × Bool :=
  let s1 := { s with heap := s.heap.mapIdx (fun i x => if i = t then { x with armed := false } else x)
                     calls := s.calls + 1, fired := s.fired ++ [(t, now)] }
  ((env.callback s.calls).1.foldl State.act s1, (env.callback s.calls).2)

/-- The loop of `check`, timer.go:59-74, from index `i` on, `k` elements to go. `range` evaluated `ts.ts` once: array
`a`. Its elements are read when their turn comes. -/
def checkLoop (env : Env) (now a : Nat) : Nat → Nat → State → Res State
  | 0, _, s => .ok s
  | k + 1, i, s =>
    match (s.array a)[i]? with
    | some (some t) =>
      if now > s.deadline t then
        (s.squeeze env i).bind fun s1 =>
        if s1.armed t then
          let (s2, failed) := s1.fire env now t
          if failed then .ok s2 else checkLoop env now a k (i + 1) s2
        else checkLoop env now a k (i + 1) s1
      else .ok s
    | _ => .panic

/-- `check`, timer.go:58-76. The error of a callback is passed on; the state is what matters here. -/
def State.check (s : State) (env : Env) (now : Nat) : Res State := checkLoop env now s.arr s.len 0 s

/-- `remaining`, timer.go:79-87: the deadline of the first listed timer that is armed (Go returns the time left until
then). -/
def State.remaining (s : State) : Option Nat :=
  (s.list.findSome? fun x => match x with
    | some t => if s.armed t then some t else none
    | none => none).map s.deadline

/-- What the owner of the set does. -/
inductive Op where
  | act (a : Act)
  | check (now : Nat)
  deriving DecidableEq

def State.op (s : State) (env : Env) : Op → Res State
  | .act a => .ok (s.act a)
  | .check now => s.check env now

def State.run (s : State) (env : Env) : List Op → Res State
  | [] => .ok s
  | o :: os => (s.op env o).bind fun s' => s'.run env os

end Verif.Timer
