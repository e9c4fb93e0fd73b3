/-
Common vocabulary of the model: byte strings, outcomes of Go calls, big-endian integers.
-/

namespace Verif

/-- A Go `byte`. -/
abbrev Byte := UInt8

/-- A Go `[]byte`. nil and empty are identified. -/
abbrev Bytes := List UInt8

/-- What a Go call may return as a failure. `msg` stands for any `error` value whose text is
not modelled; `alert` is a TLS alert (alert.go:9-47) used as an error value. -/
inductive Err where
  | msg
  | alert (code : Nat)
  | wouldBlock
  | eof
  deriving DecidableEq, Repr

/-- Outcome of a Go call: normal return, returned error, escaping runtime panic, or a loop that
never terminates. -/
inductive Res (α : Type u) where
  | ok (a : α)
  | err (e : Err)
  | panic
  | diverge
  deriving DecidableEq, Repr

namespace Res

variable {α : Type u} {β : Type v}

/-- Sequencing: anything but `ok` ends the computation. -/
def bind (x : Res α) (f : α → Res β) : Res β :=
  match x with
  | ok a => f a
  | err e => err e
  | panic => panic
  | diverge => diverge

instance : Monad Res where
  pure := Res.ok
  bind := Res.bind

def map' (f : α → β) (x : Res α) : Res β := x.bind (fun a => ok (f a))

/-- Neither a crash nor a hang. -/
def Safe : Res α → Prop
  | ok _ => True
  | err _ => True
  | panic => False
  | diverge => False

/-- Returned normally. -/
def isOk : Res α → Bool
  | ok _ => true
  | _ => false

@[simp] theorem bind_ok (a : α) (f : α → Res β) : (ok a).bind f = f a := rfl
@[simp] theorem bind_err (e : Err) (f : α → Res β) : (err e : Res α).bind f = err e := rfl
@[simp] theorem bind_panic (f : α → Res β) : (panic : Res α).bind f = panic := rfl
@[simp] theorem bind_diverge (f : α → Res β) : (diverge : Res α).bind f = diverge := rfl

theorem monad_bind_eq {α β : Type u} (x : Res α) (f : α → Res β) : (x >>= f) = x.bind f := rfl
theorem monad_pure_eq {α : Type u} (a : α) : (pure a : Res α) = ok a := rfl

theorem bind_eq_ok {x : Res α} {f : α → Res β} {b : β} :
    x.bind f = ok b ↔ ∃ a, x = ok a ∧ f a = ok b := by
  cases x <;> simp [bind]

theorem bind_assoc {γ : Type w} (x : Res α) (f : α → Res β) (g : β → Res γ) :
    (x.bind f).bind g = x.bind (fun a => (f a).bind g) := by
  cases x <;> rfl

theorem safe_bind {x : Res α} {f : α → Res β} (hx : x.Safe) (hf : ∀ a, x = ok a → (f a).Safe) :
    (x.bind f).Safe := by
  cases x with
  | ok a => exact hf a rfl
  | err e => trivial
  | panic => exact hx.elim
  | diverge => exact hx.elim

@[simp] theorem safe_ok (a : α) : (ok a).Safe := trivial
@[simp] theorem safe_err (e : Err) : (err e : Res α).Safe := trivial
@[simp] theorem not_safe_panic : ¬ (panic : Res α).Safe := fun h => h
@[simp] theorem not_safe_diverge : ¬ (diverge : Res α).Safe := fun h => h

end Res

/-! ### Big-endian integers -/

/-- `n` big-endian bytes of `u` (syntax/encode.go:191-197 `writeUint`; handshake-layer.go:538-544
`encodeUint`): byte `i` is `byte(u >> (8*(len-i-1)))`. -/
def beBytes : Nat → Nat → Bytes
  | 0, _ => []
  | n + 1, u => UInt8.ofNat (u >>> (8 * n)) :: beBytes n u

/-- Big-endian value of a byte string without truncation. -/
def beNat (bs : Bytes) : Nat := bs.foldl (fun v b => v * 256 + b.toNat) 0

@[simp] theorem beBytes_length (n u : Nat) : (beBytes n u).length = n := by
  induction n with
  | zero => rfl
  | succ n ih => simp [beBytes, ih]

theorem beNat_foldl (bs : Bytes) (v : Nat) :
    bs.foldl (fun v b => v * 256 + b.toNat) v = v * 256 ^ bs.length + beNat bs := by
  induction bs generalizing v with
  | nil => simp [beNat]
  | cons b bs ih =>
    simp only [List.foldl_cons, List.length_cons, beNat]
    rw [ih, ih (0 * 256 + b.toNat)]
    simp only [Nat.zero_mul, Nat.zero_add, Nat.pow_succ, Nat.add_mul, Nat.mul_assoc]
    rw [Nat.mul_comm 256, Nat.add_assoc]

@[simp] theorem beNat_nil : beNat [] = 0 := rfl

theorem beNat_cons (b : UInt8) (bs : Bytes) :
    beNat (b :: bs) = b.toNat * 256 ^ bs.length + beNat bs := by
  show List.foldl _ _ _ = _
  rw [List.foldl_cons, beNat_foldl]; simp

theorem beNat_append (xs ys : Bytes) :
    beNat (xs ++ ys) = beNat xs * 256 ^ ys.length + beNat ys := by
  induction xs with
  | nil => simp
  | cons b xs ih =>
    rw [List.cons_append, beNat_cons, beNat_cons, ih, List.length_append, Nat.pow_add,
      Nat.add_mul, Nat.mul_assoc, Nat.add_assoc]

theorem beNat_lt (bs : Bytes) : beNat bs < 256 ^ bs.length := by
  induction bs with
  | nil => simp
  | cons b bs ih =>
    rw [beNat_cons, List.length_cons, Nat.pow_succ]
    have hb : b.toNat < 256 := b.toNat_lt
    have : b.toNat * 256 ^ bs.length + 256 ^ bs.length ≤ 256 ^ bs.length * 256 := by
      rw [← Nat.succ_mul, Nat.mul_comm]
      exact Nat.mul_le_mul_left _ hb
    omega

theorem beNat_beBytes (n u : Nat) : beNat (beBytes n u) = u % 256 ^ n := by
  induction n with
  | zero => simp [beBytes, Nat.mod_one]
  | succ n ih =>
    rw [beBytes, beNat_cons, ih, beBytes_length]
    have h2 : (UInt8.ofNat (u >>> (8 * n))).toNat = (u / 256 ^ n) % 256 := by
      rw [UInt8.toNat_ofNat', Nat.shiftRight_eq_div_pow, Nat.pow_mul]
    rw [h2, Nat.pow_succ, Nat.mod_mul, Nat.mul_comm (u / 256 ^ n % 256), Nat.add_comm]

theorem beNat_beBytes_of_lt {n u : Nat} (h : u < 256 ^ n) : beNat (beBytes n u) = u := by
  rw [beNat_beBytes, Nat.mod_eq_of_lt h]

theorem beBytes_beNat (bs : Bytes) : beBytes bs.length (beNat bs) = bs := by
  have inj : ∀ (xs ys : Bytes), xs.length = ys.length → beNat xs = beNat ys → xs = ys := by
    intro xs
    induction xs with
    | nil => intro ys h _; simpa using h.symm
    | cons x xs ih =>
      intro ys h hn
      cases ys with
      | nil => simp at h
      | cons y ys =>
        simp only [List.length_cons, Nat.add_right_cancel_iff] at h
        rw [beNat_cons, beNat_cons, h] at hn
        have h1 := beNat_lt xs
        have h2 := beNat_lt ys
        rw [h] at h1
        have hp : 0 < 256 ^ ys.length := Nat.pow_pos (by decide)
        have hxy : x.toNat = y.toNat := by
          have e1 : (x.toNat * 256 ^ ys.length + beNat xs) / 256 ^ ys.length = x.toNat := by
            rw [Nat.mul_comm, Nat.mul_add_div hp, Nat.div_eq_of_lt h1]; rfl
          have e2 : (y.toNat * 256 ^ ys.length + beNat ys) / 256 ^ ys.length = y.toNat := by
            rw [Nat.mul_comm, Nat.mul_add_div hp, Nat.div_eq_of_lt h2]; rfl
          rw [← e1, ← e2, hn]
        have : x = y := UInt8.toNat_inj.mp hxy
        subst this
        have : beNat xs = beNat ys := by omega
        rw [ih ys h this]
  apply inj
  · simp
  · rw [beNat_beBytes_of_lt (beNat_lt bs)]

theorem beBytes_inj {n u v : Nat} (hu : u < 256 ^ n) (hv : v < 256 ^ n)
    (h : beBytes n u = beBytes n v) : u = v := by
  have := congrArg beNat h
  rwa [beNat_beBytes_of_lt hu, beNat_beBytes_of_lt hv] at this

end Verif
