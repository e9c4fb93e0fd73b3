import Verif.Conn.Log
import Verif.Spec.Log

/-
C96: what is logged is what the environment asks for.
-/

namespace Verif.Props

open Verif Verif.Log Verif.Spec Verif.Syntax

theorem splitC_head {c : Char} : ∀ {v p : List Char} {ps : List (List Char)}, splitC c v = p :: ps →
    c ∉ p ∧ ∃ after, v = p ++ after ∧ (after = [] ∨ ∃ a, after = c :: a)
  | [], p, ps, h => by
    simp only [splitC, List.cons.injEq] at h
    exact ⟨by simp [← h.1], [], by simp [← h.1], Or.inl rfl⟩
  | x :: xs, p, ps, h => by
    rw [splitC] at h
    split at h
    · rename_i hx
      simp only [List.cons.injEq] at h
      exact ⟨by simp [← h.1], x :: xs, by simp [← h.1], Or.inr ⟨xs, by rw [hx]⟩⟩
    · rename_i hx
      split at h
      · rename_i q qs hq
        simp only [List.cons.injEq] at h
        obtain ⟨h1, after, h2, h3⟩ := splitC_head hq
        refine ⟨?_, after, by rw [← h.1, h2]; rfl, h3⟩
        rw [← h.1]
        simp only [List.mem_cons, not_or]
        exact ⟨fun hc => hx hc.symm, h1⟩
      · rename_i hq
        exact absurd hq (splitC_ne_nil c xs)

theorem splitC_tail {c : Char} : ∀ {v p t : List Char} {ps : List (List Char)}, splitC c v = p :: ps → t ∈ ps →
    c ∉ t ∧ ∃ before after, v = before ++ [c] ++ t ++ after ∧ (after = [] ∨ ∃ a, after = c :: a)
  | [], p, t, ps, h, ht => by
    simp only [splitC, List.cons.injEq] at h
    rw [← h.2] at ht
    cases ht
  | x :: xs, p, t, ps, h, ht => by
    rw [splitC] at h
    split at h
    · rename_i hx
      simp only [List.cons.injEq] at h
      cases hq : splitC c xs with
      | nil => exact absurd hq (splitC_ne_nil c xs)
      | cons q qs =>
        rw [← h.2, hq] at ht
        rcases List.mem_cons.1 ht with rfl | ht
        · obtain ⟨h1, after, h2, h3⟩ := splitC_head hq
          exact ⟨h1, [], after, by simp [hx, h2], h3⟩
        · obtain ⟨h1, before, after, h2, h3⟩ := splitC_tail hq ht
          exact ⟨h1, x :: before, after, by simp [h2], h3⟩
    · split at h
      · rename_i q qs hq
        simp only [List.cons.injEq] at h
        rw [← h.2] at ht
        obtain ⟨h1, before, after, h2, h3⟩ := splitC_tail hq ht
        exact ⟨h1, x :: before, after, by simp [h2], h3⟩
      · rename_i hq
        exact absurd hq (splitC_ne_nil c xs)

theorem splitC_suffix {c : Char} {t : List Char} (s : List Char) : ∀ b : List Char, t ∈ splitC c s → t ∈ splitC c (b ++ [c] ++ s)
  | [], h => by simp [splitC, h]
  | x :: b, h => by
    have ih := splitC_suffix s b h
    rw [List.cons_append, List.cons_append, splitC]
    split
    · exact List.mem_cons_of_mem _ ih
    · rename_i hx
      cases b with
      | nil =>
        simp only [List.nil_append, List.singleton_append, splitC, if_true]
        exact List.mem_cons_of_mem _ h
      | cons y b =>
        -- the part in question is not the first one, or the first one has a separator before it
        have key : ∀ b : List Char, ∃ q qs, splitC c (b ++ [c] ++ s) = q :: qs ∧ t ∈ qs := by
          intro b
          induction b with
          | nil => exact ⟨[], splitC c s, by simp [splitC], h⟩
          | cons z b ihb =>
            obtain ⟨q, qs, h1, h2⟩ := ihb
            rw [List.cons_append, List.cons_append, splitC, h1]
            split
            · exact ⟨_, _, rfl, List.mem_cons_of_mem _ h2⟩
            · exact ⟨_, _, rfl, h2⟩
        obtain ⟨q, qs, h1, h2⟩ := key (y :: b)
        rw [h1]
        exact List.mem_cons_of_mem _ h2

theorem listed_iff (tag v : List Char) : tag ∈ splitC ',' v ↔ Listed tag v := by
  constructor
  · intro h
    cases hs : splitC ',' v with
    | nil => exact absurd hs (splitC_ne_nil _ _)
    | cons p ps =>
      rw [hs] at h
      rcases List.mem_cons.1 h with rfl | h
      · obtain ⟨h1, after, h2, h3⟩ := splitC_head hs
        exact ⟨h1, [], after, by simpa using h2, Or.inl rfl, h3⟩
      · obtain ⟨h1, before, after, h2, h3⟩ := splitC_tail hs h
        exact ⟨h1, before ++ [','], after, h2, Or.inr ⟨before, rfl⟩, h3⟩
  · rintro ⟨h1, before, after, rfl, hb, ha⟩
    have hta : tag ∈ splitC ',' (tag ++ after) := by
      rcases ha with rfl | ⟨a, rfl⟩
      · rw [List.append_nil, splitC_no_sep h1]
        simp
      · rw [splitC_append h1]
        simp
    rcases hb with rfl | ⟨b, rfl⟩
    · simpa using hta
    · rw [List.append_assoc]
      exact splitC_suffix _ b hta

theorem parseLogEnv_iff (tag : List Char) : ∀ (env : List (List Char)) (s : Settings),
    ((parseLogEnv s env).all || (parseLogEnv s env).tags.contains tag) = true ↔
      (s.all || s.tags.contains tag) = true ∨ Asked env tag
  | [], s => by simp [parseLogEnv, Asked]
  | stmt :: env, s => by
    have ih := parseLogEnv_iff tag env (parseStmt s stmt)
    have hsplit : Asked (stmt :: env) tag ↔
        (∃ value, "MINT_LOG=".toList ++ value = stmt ∧ (value = ['*'] ∨ Listed tag value)) ∨ Asked env tag := by
      simp only [Asked, List.mem_cons, or_and_right, exists_or]
    have hstep : ((parseStmt s stmt).all || (parseStmt s stmt).tags.contains tag) = true ↔
        (s.all || s.tags.contains tag) = true ∨
          ∃ value, "MINT_LOG=".toList ++ value = stmt ∧ (value = ['*'] ∨ Listed tag value) := by
      unfold parseStmt
      split
      · rename_i hp
        obtain ⟨v, rfl⟩ := List.isPrefixOf_iff_prefix.1 hp
        have hv : ∀ value, "MINT_LOG=".toList ++ value = logPrefix ++ v ↔ value = v := fun value =>
          ⟨fun h => List.append_cancel_left (as := logPrefix) h, fun h => by rw [h]; rfl⟩
        simp only [List.drop_left, hv, exists_eq_left, ← listed_iff]
        split
        · rename_i hs
          simp [hs]
        · rename_i hs
          simp [hs, or_assoc]
      · rename_i hp
        have : ¬ ∃ value, "MINT_LOG=".toList ++ value = stmt ∧ (value = ['*'] ∨ Listed tag value) := by
          rintro ⟨v, rfl, _⟩
          exact hp (List.isPrefixOf_iff_prefix.2 ⟨v, rfl⟩)
        exact ⟨Or.inl, fun h => h.resolve_right this⟩
    rw [hsplit, ← or_assoc, ← hstep]
    exact ih

/-- A line is logged exactly if some setting of MINT_LOG in the environment is a star or lists its tag, and then it begins with
the tag in brackets. -/
theorem C96_logged (env : List (List Char)) (tag format : List Char) :
    (Asked env tag → logf (parseLogEnv {} env) tag format = some ("[".toList ++ tag ++ "] ".toList ++ format)) ∧
    (¬ Asked env tag → logf (parseLogEnv {} env) tag format = none) := by
  have h := parseLogEnv_iff tag env {}
  simp only [Bool.false_or, List.contains_nil, Bool.false_eq_true, false_or] at h
  constructor
  · intro ha
    rw [logf, if_pos (h.2 ha)]
  · intro ha
    rw [logf, if_neg (fun hc => ha (h.1 hc))]

/-- Without a setting of MINT_LOG nothing is logged: in particular no secrets, which are logged with the tag `crypto`. -/
theorem C96_silent (env : List (List Char)) (h : ∀ stmt ∈ env, ¬ "MINT_LOG=".toList <+: stmt) (tag format : List Char) :
    logf (parseLogEnv {} env) tag format = none := by
  refine (C96_logged env tag format).2 ?_
  rintro ⟨v, hv, _⟩
  exact h _ hv ⟨v, rfl⟩

/-- A star among other tags is no wildcard; a name that only begins like a tag is not the tag. -/
example : let s := parseLogEnv {} ["PATH=/bin".toList, "MINT_LOG=io,*,crypt".toList, "MINT_LOGS=crypto".toList]
    logf s "io".toList "x".toList = some "[io] x".toList ∧ logf s "crypto".toList "x".toList = none ∧
    logf (parseLogEnv {} ["MINT_LOG=*".toList]) "crypto".toList "x".toList = some "[crypto] x".toList := by decide

example : Asked ["MINT_LOG=io,crypto".toList] "crypto".toList :=
  ⟨"io,crypto".toList, by decide, Or.inr ⟨by decide, "io,".toList, [], by decide, Or.inr ⟨"io".toList, by decide⟩, Or.inl rfl⟩⟩

end Verif.Props
