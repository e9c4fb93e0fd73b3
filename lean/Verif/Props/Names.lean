import Verif.Conn.Names
import Mathlib.Data.List.Nodup

/-
C95: alerts, cipher suites and states can be told apart by their texts.
-/

namespace Verif.Props

open Verif Verif.Names

/-- The number a digit stands for. -/
def digitValue (c : Char) : Nat := if c.toNat < 58 then c.toNat - 48 else c.toNat - 87

/-- The number written by a list of digits in a base. -/
def readNumber (base : Nat) (cs : List Char) : Nat := cs.foldl (fun a c => a * base + digitValue c) 0

theorem digitValue_digit : ∀ n, n < 16 → digitValue (digit n) = n := by decide

theorem readNumber_format {base : Nat} (h2 : 2 ≤ base) (h16 : base ≤ 16) : ∀ fuel n, n ≤ fuel → readNumber base (format base fuel n) = n
  | 0, n, h => by
    obtain rfl : n = 0 := by omega
    simp [format, readNumber, digitValue_digit 0 (by omega)]
  | fuel + 1, n, h => by
    rw [format]
    split
    · simp [readNumber, digitValue_digit n (by omega)]
    · have hd : n / base < n := Nat.div_lt_self (by omega) (by omega)
      have ih := readNumber_format h2 h16 fuel (n / base) (by omega)
      have hm : n % base < base := Nat.mod_lt _ (by omega)
      simp only [readNumber, List.foldl_append, List.foldl_cons, List.foldl_nil] at ih ⊢
      rw [ih, digitValue_digit _ (by omega)]
      exact Nat.div_add_mod' n base

theorem lookup_mem' {table : List (Nat × String)} {n : Nat} {s : String} (h : table.lookup n = some s) : (n, s) ∈ table := by
  induction table with
  | nil => cases h
  | cons e t ih =>
    rw [List.lookup_cons] at h
    split at h
    · rename_i he
      have : n = e.1 := by simpa using he
      simp only [Option.some.injEq] at h
      simp [this, ← h]
    · exact List.mem_cons_of_mem _ (ih h)

/-- Texts in a table without repetitions, none of which begins like the text for other numbers. -/
theorem text_inj {table : List (Nat × String)} {before after : String} {base : Nat} (h2 : 2 ≤ base) (h16 : base ≤ 16)
    (hn : (table.map fun e => e.2.toList).Nodup) (hp : ∀ e ∈ table, ¬ before.toList <+: e.2.toList) {m n : Nat}
    (h : text table before base after m = text table before base after n) : m = n := by
  have clash : ∀ {n : Nat} {s : String} (k : Nat), table.lookup n = some s →
      s.toList ≠ before.toList ++ format base k k ++ after.toList := by
    intro n s k hs he
    refine hp _ (lookup_mem' hs) ?_
    show before.toList <+: s.toList
    rw [he, List.append_assoc]
    exact List.prefix_append _ _
  unfold text at h
  cases hm : table.lookup m with
  | some s =>
    cases hk : table.lookup n with
    | some t =>
      rw [hm, hk] at h
      have := List.inj_on_of_nodup_map hn (lookup_mem' hm) (lookup_mem' hk) h
      exact congrArg Prod.fst this
    | none =>
      rw [hm, hk] at h
      exact absurd h (clash n hm)
  | none =>
    cases hk : table.lookup n with
    | some t =>
      rw [hm, hk] at h
      exact absurd h.symm (clash m hk)
    | none =>
      rw [hm, hk] at h
      have := List.append_cancel_left (List.append_cancel_right (by simpa only [List.append_assoc] using h))
      rw [← readNumber_format h2 h16 m m (Nat.le_refl _), this, readNumber_format h2 h16 n n (Nat.le_refl _)]

/-- Two alerts with the same text are the same. -/
theorem C95_alerts (a b : UInt8) (h : alertString a = alertString b) : a = b :=
  UInt8.toNat_inj.1 (text_inj (by decide) (by decide) (by decide +kernel) (by decide +kernel) h)

/-- Two cipher suites with the same text are the same. -/
theorem C95_suites (a b : UInt16) (h : suiteString a = suiteString b) : a = b :=
  UInt16.toNat_inj.1 (text_inj (by decide) (by decide) (by decide +kernel) (by decide +kernel) h)

/-- Two states with the same text are the same. -/
theorem C95_states (a b : UInt8) (h : stateString a = stateString b) : a = b :=
  UInt8.toNat_inj.1 (text_inj (by decide) (by decide) (by decide +kernel) (by decide +kernel) h)

theorem text_unnamed {table : List (Nat × String)} {before after : String} {base : Nat} (h2 : 2 ≤ base) (h16 : base ≤ 16) {n : Nat}
    (h : n ∉ table.map (·.1)) :
    ∃ ds, text table before base after n = before.toList ++ ds ++ after.toList ∧ readNumber base ds = n := by
  refine ⟨format base n n, ?_, readNumber_format h2 h16 n n (Nat.le_refl _)⟩
  unfold text
  split
  · rename_i s hs
    exact absurd (List.mem_map_of_mem (f := (·.1)) (lookup_mem' hs)) h
  · rfl

/-- A number without a name is shown as a number: alerts and states in decimal, cipher suites in hexadecimal. -/
theorem C95_unnamed (a : UInt8) (c : UInt16) (s : UInt8) :
    (a.toNat ∉ [0, 10, 20, 21, 22, 30, 40, 42, 43, 44, 45, 46, 47, 48, 49, 50, 51, 70, 71, 80, 86, 90, 100, 109, 110, 111, 112, 113,
        114, 115, 120, 253, 254, 255] → ∃ ds, alertString a = "alert(".toList ++ ds ++ ")".toList ∧ readNumber 10 ds = a.toNat) ∧
    (c.toNat ∉ [0, 0x1301, 0x1302, 0x1303, 0x1304, 0x1305] →
      ∃ ds, suiteString c = "invalid CipherSuite value: 0x".toList ++ ds ∧ readNumber 16 ds = c.toNat) ∧
    (s.toNat = 0 ∨ 18 < s.toNat → ∃ ds, stateString s = "unknown state: ".toList ++ ds ∧ readNumber 10 ds = s.toNat) := by
  refine ⟨fun h => text_unnamed (by decide) (by decide) fun h' => h ?_, fun h => ?_, fun h => ?_⟩
  · have hs : ∀ k ∈ alertTexts.map (·.1), k ∈ [0, 10, 20, 21, 22, 30, 40, 42, 43, 44, 45, 46, 47, 48, 49, 50, 51, 70, 71, 80, 86, 90,
        100, 109, 110, 111, 112, 113, 114, 115, 120, 253, 254, 255] := by decide +kernel
    exact hs _ h'
  · obtain ⟨ds, h1, h3⟩ := text_unnamed (table := suiteTexts) (before := "invalid CipherSuite value: 0x") (base := 16) (after := "")
      (by decide) (by decide) (n := c.toNat) h
    exact ⟨ds, by simpa [suiteString] using h1, h3⟩
  · obtain ⟨ds, h1, h3⟩ := text_unnamed (table := stateTexts) (before := "unknown state: ") (base := 10) (after := "")
      (by decide) (by decide) (n := s.toNat) (by simp [stateTexts]; omega)
    exact ⟨ds, by simpa [stateString] using h1, h3⟩

example : String.ofList (alertString 47) = "illegal parameter" ∧ String.ofList (alertString 200) = "alert(200)" ∧
    String.ofList (suiteString 0x1301) = "TLS_AES_128_GCM_SHA256" ∧
    String.ofList (suiteString 0xc02f) = "invalid CipherSuite value: 0xc02f" ∧
    String.ofList (stateString 0) = "unknown state: 0" := by decide +kernel

end Verif.Props
