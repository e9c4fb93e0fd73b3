import Verif.Timer.Model

/- Invariants of the timer set. -/

namespace Verif.Timer

open Verif

/-! ### Heaps only grow, deadlines stay, disarmed timers stay disarmed -/

/-- `s'` is a later state than `s`. -/
structure Later (s s' : State) : Prop where
  size : s.heap.length ≤ s'.heap.length
  deadline : ∀ t, t < s.heap.length → s'.deadline t = s.deadline t
  armed : ∀ t, t < s.heap.length → s'.armed t = true → s.armed t = true

theorem Later.refl (s : State) : Later s s := ⟨Nat.le_refl _, fun _ _ => rfl, fun _ _ h => h⟩

theorem Later.trans {a b c : State} (h1 : Later a b) (h2 : Later b c) : Later a c :=
  ⟨Nat.le_trans h1.size h2.size,
   fun t ht => (h2.deadline t (Nat.lt_of_lt_of_le ht h1.size)).trans (h1.deadline t ht),
   fun t ht h => h1.armed t ht (h2.armed t (Nat.lt_of_lt_of_le ht h1.size) h)⟩

theorem later_start (s : State) (l d : Nat) : Later s (s.start l d) := by
  refine ⟨by simp [State.start], fun t ht => ?_, fun t ht => ?_⟩
  · simp [State.start, State.deadline, List.getElem?_append_left ht]
  · simp [State.start, State.armed, List.getElem?_append_left ht]

theorem later_cancel (s : State) (l : Nat) : Later s (s.cancel l) := by
  refine ⟨by simp [State.cancel, disarm], fun t ht => ?_, fun t ht => ?_⟩
  · simp only [State.cancel, disarm, State.deadline, List.getElem?_mapIdx, List.getElem?_eq_getElem ht]
    simp only [Option.map_some, Option.getD_some]
    split <;> rfl
  · simp only [State.cancel, disarm, State.armed, List.getElem?_mapIdx, List.getElem?_eq_getElem ht]
    simp only [Option.map_some, Option.getD_some]
    split <;> simp

theorem later_act (s : State) (a : Act) : Later s (s.act a) := by
  cases a with
  | start l d => exact later_start s l d
  | cancel l => exact later_cancel s l

theorem later_acts (acts : List Act) (s : State) : Later s (acts.foldl State.act s) := by
  induction acts generalizing s with
  | nil => exact Later.refl s
  | cons a acts ih => exact (later_act s a).trans (ih _)

@[simp] theorem fired_act (s : State) (a : Act) : (s.act a).fired = s.fired := by cases a <;> rfl

@[simp] theorem fired_acts (acts : List Act) (s : State) : (acts.foldl State.act s).fired = s.fired := by
  induction acts generalizing s with
  | nil => rfl
  | cons a acts ih => rw [List.foldl_cons, ih, fired_act]

theorem squeeze_heap {s s' : State} {env : Env} {i : Nat} (h : s.squeeze env i = .ok s') :
    s'.heap = s.heap ∧ s'.fired = s.fired ∧ s'.calls = s.calls := by
  simp only [State.squeeze] at h
  split at h
  · exact absurd h (by simp)
  · split at h
    · cases h; exact ⟨rfl, rfl, rfl⟩
    · cases h; exact ⟨rfl, rfl, rfl⟩

theorem later_of_heap {s s' : State} (h : s'.heap = s.heap) : Later s s' :=
  ⟨by rw [h]; exact Nat.le_refl _, fun t _ => by simp [State.deadline, h], fun t _ => by simp [State.armed, h]⟩

/-- The state just before the callback runs. -/
def State.mark (s : State) (now t : Nat) : State :=
  { s with heap := s.heap.mapIdx (fun i x => if i = t then { x with armed := false } else x)
           calls := s.calls + 1, fired := s.fired ++ [(t, now)] }

theorem fire_eq (s : State) (env : Env) (now t : Nat) :
    s.fire env now t = ((env.callback s.calls).1.foldl State.act (s.mark now t), (env.callback s.calls).2) := rfl

theorem later_mark (s : State) (now t : Nat) : Later s (s.mark now t) := by
  refine ⟨by simp [State.mark], fun x hx => ?_, fun x hx => ?_⟩
  · simp only [State.mark, State.deadline, List.getElem?_mapIdx, List.getElem?_eq_getElem hx]
    simp only [Option.map_some, Option.getD_some]
    split <;> rfl
  · simp only [State.mark, State.armed, List.getElem?_mapIdx, List.getElem?_eq_getElem hx]
    simp only [Option.map_some, Option.getD_some]
    split <;> simp

theorem mark_armed (s : State) (now t : Nat) : (s.mark now t).armed t = false := by
  by_cases ht : t < s.heap.length
  · simp [State.mark, State.armed, List.getElem?_mapIdx, List.getElem?_eq_getElem ht]
  · simp [State.mark, State.armed, List.getElem?_mapIdx, List.getElem?_eq_none (Nat.le_of_not_lt ht)]

theorem armed_lt {s : State} {t : Nat} (h : s.armed t = true) : t < s.heap.length := by
  by_cases ht : t < s.heap.length
  · exact ht
  · simp [State.armed, List.getElem?_eq_none (Nat.le_of_not_lt ht)] at h

/-- A property kept by every single step of any history is an invariant. -/
theorem checkLoop_inv (P : State → Prop) (env : Env) (now a : Nat)
    (hsq : ∀ s s' i, P s → s.squeeze env i = .ok s' → P s')
    (hfire : ∀ s t, P s → s.armed t = true → now > s.deadline t → P (s.fire env now t).1) :
    ∀ (k i : Nat) (s s' : State), P s → checkLoop env now a k i s = .ok s' → P s' := by
  intro k
  induction k with
  | zero => intro i s s' hp h; cases h; exact hp
  | succ k ih =>
    intro i s s' hp h
    simp only [checkLoop] at h
    split at h
    · rename_i t ht
      split at h
      · rename_i hnow
        rw [Res.bind_eq_ok] at h
        obtain ⟨s1, h1, h⟩ := h
        have hp1 := hsq _ _ _ hp h1
        split at h
        · rename_i harm
          have hd : now > s1.deadline t := by
            rw [show s1.deadline t = s.deadline t by simp [State.deadline, (squeeze_heap h1).1]]; exact hnow
          have hp2 := hfire s1 t hp1 harm hd
          split at h
          · cases h; exact hp2
          · exact ih _ _ _ hp2 h
        · exact ih _ _ _ hp1 h
      · cases h; exact hp
    · exact absurd h (by simp)

theorem run_inv (P : State → Prop) (env : Env)
    (hact : ∀ s a, P s → P (s.act a))
    (hcheck : ∀ s s' now, P s → s.check env now = .ok s' → P s') :
    ∀ (ops : List Op) (s s' : State), P s → s.run env ops = .ok s' → P s' := by
  intro ops
  induction ops with
  | nil => intro s s' hp h; cases h; exact hp
  | cons o ops ih =>
    intro s s' hp h
    simp only [State.run] at h
    rw [Res.bind_eq_ok] at h
    obtain ⟨s1, h1, h⟩ := h
    refine ih _ _ ?_ h
    cases o with
    | act a => cases h1; exact hact _ _ hp
    | check now => exact hcheck _ _ _ hp h1

/-! ### Fired timers -/

/-- What is known of the record of firings. -/
structure Sound (s : State) : Prop where
  nodup : (s.fired.map Prod.fst).Nodup
  known : ∀ p ∈ s.fired, p.1 < s.heap.length
  spent : ∀ p ∈ s.fired, s.armed p.1 = false
  late : ∀ p ∈ s.fired, s.deadline p.1 < p.2

theorem Sound.later {s s' : State} (h : Sound s) (hl : Later s s') (hf : s'.fired = s.fired) : Sound s' := by
  refine ⟨by rw [hf]; exact h.nodup, fun p hp => ?_, fun p hp => ?_, fun p hp => ?_⟩ <;> rw [hf] at hp
  · exact Nat.lt_of_lt_of_le (h.known p hp) hl.size
  · rw [Bool.eq_false_iff]
    intro ha
    have := hl.armed p.1 (h.known p hp) ha
    rw [h.spent p hp] at this
    exact absurd this (by simp)
  · rw [hl.deadline p.1 (h.known p hp)]; exact h.late p hp

theorem sound_mark {s : State} {now t : Nat} (h : Sound s) (ha : s.armed t = true) (hd : now > s.deadline t) :
    Sound (s.mark now t) := by
  have hl := later_mark s now t
  have ht := armed_lt ha
  have hfired : (s.mark now t).fired = s.fired ++ [(t, now)] := rfl
  refine ⟨?_, fun p hp => ?_, fun p hp => ?_, fun p hp => ?_⟩
  · rw [hfired, List.map_append, List.nodup_append]
    refine ⟨h.nodup, by simp, fun x hx y hy hxy => ?_⟩
    rw [List.mem_map] at hx
    obtain ⟨p, hp, rfl⟩ := hx
    simp only [List.map_cons, List.map_nil, List.mem_singleton] at hy
    have hs := h.spent p hp
    rw [hxy, hy, ha] at hs
    exact absurd hs (by simp)
  all_goals
    rw [hfired, List.mem_append, List.mem_singleton] at hp
  · rcases hp with hp | rfl
    · exact Nat.lt_of_lt_of_le (h.known p hp) hl.size
    · exact Nat.lt_of_lt_of_le ht hl.size
  · rcases hp with hp | rfl
    · rw [Bool.eq_false_iff]
      intro ha'
      have := hl.armed p.1 (h.known p hp) ha'
      rw [h.spent p hp] at this
      exact absurd this (by simp)
    · exact mark_armed s now t
  · rcases hp with hp | rfl
    · rw [hl.deadline p.1 (h.known p hp)]; exact h.late p hp
    · rw [hl.deadline t ht]; exact hd

theorem sound_check {env : Env} (s s' : State) (now : Nat) (h : Sound s) (hc : s.check env now = .ok s') : Sound s' :=
  checkLoop_inv Sound env now s.arr
    (fun a b i ha hb => ha.later (later_of_heap (squeeze_heap hb).1) (squeeze_heap hb).2.1)
    (fun a t ha harm hd => by
      rw [fire_eq]
      exact (sound_mark ha harm hd).later (later_acts _ _) (fired_acts _ _))
    _ _ _ _ h hc

theorem sound_run {env : Env} {ops : List Op} {s s' : State} (h : Sound s) (hr : s.run env ops = .ok s') : Sound s' :=
  run_inv Sound env (fun s a hs => hs.later (later_act s a) (fired_act s a)) sound_check _ _ _ h hr

theorem sound_new : Sound State.new := ⟨by simp [State.new], by simp [State.new], by simp [State.new], by simp [State.new]⟩

/-- A check, and a history, only make the state later. -/
theorem later_check {env : Env} (s s' : State) (now : Nat) (hc : s.check env now = .ok s') : Later s s' :=
  checkLoop_inv (Later s) env now s.arr
    (fun _ _ _ ha hb => ha.trans (later_of_heap (squeeze_heap hb).1))
    (fun a t ha _ _ => by rw [fire_eq]; exact ha.trans ((later_mark _ _ _).trans (later_acts _ _)))
    _ _ _ _ (Later.refl s) hc

theorem later_run {env : Env} {ops : List Op} {s s' : State} (hr : s.run env ops = .ok s') : Later s s' :=
  run_inv (Later s) env (fun _ a hs => hs.trans (later_act _ a))
    (fun _ _ _ ha hc => ha.trans (later_check _ _ _ hc)) _ _ _ (Later.refl s) hr

/-! ### What the arrays hold -/

/-- All of the first `n` elements of `xs` exist and are timers satisfying `G`. -/
def Holds (G : Nat → Prop) (xs : List (Option Nat)) (n : Nat) : Prop :=
  ∀ i, i < n → ∃ t, xs[i]? = some (some t) ∧ G t

theorem Holds.mono {G : Nat → Prop} {xs : List (Option Nat)} {m n : Nat} (h : Holds G xs n) (hmn : m ≤ n) : Holds G xs m :=
  fun i hi => h i (Nat.lt_of_lt_of_le hi hmn)

theorem Holds.le {G : Nat → Prop} {xs : List (Option Nat)} {n : Nat} (h : Holds G xs n) : n ≤ xs.length := by
  cases n with
  | zero => exact Nat.zero_le _
  | succ n =>
    obtain ⟨t, ht, -⟩ := h n (Nat.lt_succ_self n)
    exact (List.getElem?_eq_some_iff.mp ht).1

theorem Holds.iff {G : Nat → Prop} {xs : List (Option Nat)} {n : Nat} (hn : n ≤ xs.length) :
    Holds G xs n ↔ ∀ x ∈ xs.take n, ∃ t, x = some t ∧ G t := by
  constructor
  · intro h x hx
    rw [List.mem_iff_getElem?] at hx
    obtain ⟨i, hi⟩ := hx
    rw [List.getElem?_take] at hi
    split at hi
    · rename_i hlt
      obtain ⟨t, ht, hg⟩ := h i hlt
      rw [ht] at hi
      cases hi
      exact ⟨t, rfl, hg⟩
    · exact absurd hi (by simp)
  · intro h i hi
    have hlt : i < xs.length := Nat.lt_of_lt_of_le hi hn
    obtain ⟨t, ht, hg⟩ := h xs[i] (by
      rw [List.mem_iff_getElem?]
      exact ⟨i, by rw [List.getElem?_take, if_pos hi, List.getElem?_eq_getElem hlt]⟩)
    exact ⟨t, by rw [List.getElem?_eq_getElem hlt, ht], hg⟩

/-- `Holds` for the current slice. -/
def State.Wf (s : State) (G : Nat → Prop) : Prop := s.arr < s.mem.length ∧ Holds G (s.array s.arr) s.len

theorem State.Wf.list_length {s : State} {G : Nat → Prop} (h : s.Wf G) : s.list.length = s.len := by
  have := h.2.le
  simp only [State.list, List.length_take]
  omega

theorem State.Wf.mem_list {s : State} {G : Nat → Prop} (h : s.Wf G) : ∀ x ∈ s.list, ∃ t, x = some t ∧ G t :=
  (Holds.iff h.2.le).mp h.2

theorem array_append_left {s : State} {a : Nat} (x : List (List (Option Nat))) (h : a < s.mem.length) :
    (s.mem ++ x).getD a [] = s.array a := by
  simp [State.array, List.getD_eq_getElem?_getD, List.getElem?_append_left h]

theorem start_array (s : State) (l d : Nat) :
    (s.start l d).array (s.start l d).arr =
      s.list.take (insertPos s d s.list) ++ some s.heap.length :: s.list.drop (insertPos s d s.list) := by
  simp [State.start, State.array, List.getD_eq_getElem?_getD]

theorem start_wf {s : State} {G : Nat → Prop} (h : s.Wf G) (hnew : G s.heap.length) (l d : Nat) : (s.start l d).Wf G := by
  refine ⟨by simp [State.start], ?_⟩
  rw [start_array]
  have hlen : (s.list.take (insertPos s d s.list) ++ some s.heap.length :: s.list.drop (insertPos s d s.list)).length
      = (s.start l d).len := by
    simp only [List.length_append, List.length_cons, List.length_take, List.length_drop, State.start]
    omega
  rw [Holds.iff (Nat.le_of_eq hlen.symm)]
  intro x hx
  have hx := List.mem_of_mem_take hx
  rw [List.mem_append, List.mem_cons] at hx
  rcases hx with hx | rfl | hx
  · exact h.mem_list x (List.mem_of_mem_take hx)
  · exact ⟨_, rfl, hnew⟩
  · exact h.mem_list x (List.mem_of_mem_drop hx)

/-- The invariant of the loop of `check` over `n` elements of array `a`, before element `i`: the array scanned is sound,
and the current array is long enough for the reslicing of line 61. -/
structure Scan (G : Nat → Prop) (a n i : Nat) (s : State) : Prop where
  range : a < s.mem.length
  scanned : Holds G (s.array a) n
  wf : s.Wf G
  first : i = 0 → s.arr = a
  reach : i < n → i ≤ s.len ∧ (s.arr = a ∨ i + 1 ≤ s.len)

theorem act_wf {s : State} {G : Nat → Prop} (h : s.Wf G) (hnew : ∀ t, s.heap.length ≤ t → G t) (act : Act) :
    (s.act act).Wf G := by
  cases act with
  | start l d => exact start_wf h (hnew _ (Nat.le_refl _)) l d
  | cancel l => exact h

theorem act_scan {G : Nat → Prop} {a n i : Nat} {s : State} (h : Scan G a n (i + 1) s)
    (hnew : ∀ t, s.heap.length ≤ t → G t) (act : Act) : Scan G a n (i + 1) (s.act act) := by
  cases act with
  | cancel l => exact ⟨h.range, h.scanned, h.wf, h.first, h.reach⟩
  | start l d =>
    refine ⟨by simp only [State.act, State.start, List.length_append]; have := h.range; omega, ?_,
      start_wf h.wf (hnew _ (Nat.le_refl _)) l d, by omega, ?_⟩
    · have : ((s.start l d).array a) = s.array a := array_append_left _ h.range
      rw [State.act, this]; exact h.scanned
    · intro hi
      have hl := h.wf.list_length
      have := (h.reach hi).1
      simp only [State.act, State.start]
      omega

theorem acts_scan {G : Nat → Prop} {a n i : Nat} (acts : List Act) : ∀ {s : State}, Scan G a n (i + 1) s →
    (∀ t, s.heap.length ≤ t → G t) → Scan G a n (i + 1) (acts.foldl State.act s) := by
  induction acts with
  | nil => intro s h _; exact h
  | cons x acts ih =>
    intro s h hnew
    exact ih (act_scan h hnew x) (fun t ht => hnew t (Nat.le_trans (later_act s x).size ht))

theorem mark_scan {G : Nat → Prop} {a n i : Nat} {s : State} (h : Scan G a n i s) (now t : Nat) :
    Scan G a n i (s.mark now t) := ⟨h.range, h.scanned, h.wf, h.first, h.reach⟩

/-- Line 61 cannot panic, and brings in no new elements. -/
theorem squeeze_scan {G : Nat → Prop} {a n i : Nat} {s : State} (env : Env) (h : Scan G a n i s) (hi : i < n) :
    ∃ s', s.squeeze env i = .ok s' ∧ Scan G a n (i + 1) s' := by
  have hpre : Holds G (s.array s.arr) (i + 1) := by
    rcases (h.reach hi).2 with hr | hr
    · rw [hr]; exact h.scanned.mono hi
    · exact h.wf.2.mono hr
  have hcap := hpre.le
  have hall : ∀ x ∈ (s.array s.arr).take i ++ (s.array s.arr).take (i + 1), ∃ t, x = some t ∧ G t := by
    intro x hx
    rw [List.mem_append] at hx
    rcases hx with hx | hx
    · exact (Holds.iff (by omega)).mp (hpre.mono (Nat.le_succ i)) x hx
    · exact (Holds.iff hcap).mp hpre x hx
  have hlen : ((s.array s.arr).take i ++ (s.array s.arr).take (i + 1)).length = 2 * i + 1 := by
    simp only [List.length_append, List.length_take]
    omega
  generalize hnew : (s.array s.arr).take i ++ (s.array s.arr).take (i + 1) = new at hall hlen
  have hhold : ∀ tail, Holds G (new ++ tail) (2 * i + 1) := by
    intro tail
    rw [Holds.iff (by simp [hlen])]
    rw [← hlen, List.take_left']
    · exact hall
    · rfl
  simp only [State.squeeze, hnew, hlen, if_neg (show ¬ i + 1 > (s.array s.arr).length by omega)]
  split
  · rename_i hfit
    refine ⟨_, rfl, ?_⟩
    have harr : ({ s with mem := s.mem.set s.arr (new ++ (s.array s.arr).drop (2 * i + 1)), len := 2 * i + 1 } : State).array s.arr
        = new ++ (s.array s.arr).drop (2 * i + 1) := by
      simp [State.array, List.getD_eq_getElem?_getD, List.getElem?_set_self h.wf.1]
    refine ⟨by simp only [List.length_set]; exact h.range, ?_, ⟨by simp only [List.length_set]; exact h.wf.1, ?_⟩, by omega, ?_⟩
    · by_cases ha : s.arr = a
      · subst ha
        rw [harr]
        intro j hj
        by_cases hj2 : j < 2 * i + 1
        · exact hhold _ j hj2
        · rw [List.getElem?_append_right (by omega), List.getElem?_drop, hlen]
          have := h.scanned j hj
          rwa [show 2 * i + 1 + (j - (2 * i + 1)) = j by omega]
      · have : ({ s with mem := s.mem.set s.arr (new ++ (s.array s.arr).drop (2 * i + 1)), len := 2 * i + 1 } : State).array a
            = s.array a := by
          simp [State.array, List.getD_eq_getElem?_getD, List.getElem?_set_ne ha]
        rw [this]; exact h.scanned
    · show Holds G (State.array _ s.arr) (2 * i + 1)
      rw [harr]; exact hhold _
    · intro _
      dsimp only
      refine ⟨by omega, ?_⟩
      by_cases h0 : i = 0
      · exact .inl (h.first h0)
      · right; omega
  · rename_i hfit
    refine ⟨_, rfl, ?_⟩
    have harr : ({ s with mem := s.mem ++ [new ++ List.replicate (env.spare (2 * i + 1)) none], arr := s.mem.length, len := 2 * i + 1 } : State).array s.mem.length = new ++ List.replicate (env.spare (2 * i + 1)) none := by
      simp [State.array, List.getD_eq_getElem?_getD]
    refine ⟨by simp only [List.length_append]; have := h.range; omega, ?_, ⟨by simp, ?_⟩, by omega, ?_⟩
    · have : ({ s with mem := s.mem ++ [new ++ List.replicate (env.spare (2 * i + 1)) none], arr := s.mem.length, len := 2 * i + 1 } : State).array a = s.array a := array_append_left _ h.range
      rw [this]; exact h.scanned
    · show Holds G (State.array _ s.mem.length) (2 * i + 1)
      rw [harr]; exact hhold _
    · intro _
      dsimp only
      omega

/-- The loop of `check`: it does not panic, and every timer it fires satisfies `G`. -/
theorem checkLoop_scan {G : Nat → Prop} {env : Env} {now a n : Nat} : ∀ (k i : Nat) (s : State), k + i = n →
    Scan G a n i s → (∀ t, s.heap.length ≤ t → G t) →
    ∃ s', checkLoop env now a k i s = .ok s' ∧ s'.Wf G ∧
      (∃ more, s'.fired = s.fired ++ more ∧ ∀ p ∈ more, G p.1 ∧ p.2 = now) := by
  intro k
  induction k with
  | zero => intro i s _ h _; exact ⟨s, rfl, h.wf, [], by simp, by simp⟩
  | succ k ih =>
    intro i s hk h hnew
    have hi : i < n := by omega
    obtain ⟨t, ht, hG⟩ := h.scanned i hi
    obtain ⟨s1, hs1, h1⟩ := squeeze_scan env h hi
    have hh1 := squeeze_heap hs1
    simp only [checkLoop, ht]
    split
    · simp only [hs1, Res.bind]
      split
      · rename_i harm
        have h2 : Scan G a n (i + 1) (s1.fire env now t).1 := by
          rw [fire_eq]
          exact acts_scan _ (mark_scan h1 now t)
            (fun x hx => hnew x (by simpa [State.mark, hh1.1] using hx))
        have hf2 : (s1.fire env now t).1.fired = s.fired ++ [(t, now)] := by
          rw [fire_eq, fired_acts]
          simp [State.mark, hh1.2.1]
        split
        · exact ⟨_, rfl, h2.wf, [(t, now)], hf2, by simpa using hG⟩
        · have hnew2 : ∀ x, (s1.fire env now t).1.heap.length ≤ x → G x := by
            intro x hx
            refine hnew x (Nat.le_trans ?_ hx)
            rw [fire_eq, ← hh1.1]
            exact ((later_mark s1 now t).trans (later_acts _ _)).size
          obtain ⟨s', e, w, more, hm, hall⟩ := ih (i + 1) _ (by omega) h2 hnew2
          refine ⟨s', e, w, (t, now) :: more, by rw [hm, hf2]; simp, ?_⟩
          intro p hp
          rw [List.mem_cons] at hp
          rcases hp with rfl | hp
          · exact ⟨hG, rfl⟩
          · exact hall p hp
      · obtain ⟨s', e, w, more, hm, hall⟩ := ih (i + 1) s1 (by omega) h1 (by rw [hh1.1]; exact hnew)
        exact ⟨s', e, w, more, by rw [hm, hh1.2.1], hall⟩
    · exact ⟨s, rfl, h.wf, [], by simp, by simp⟩

theorem check_scan {G : Nat → Prop} (env : Env) (now : Nat) {s : State} (h : s.Wf G) (hnew : ∀ t, s.heap.length ≤ t → G t) :
    ∃ s', s.check env now = .ok s' ∧ s'.Wf G ∧
      (∃ more, s'.fired = s.fired ++ more ∧ ∀ p ∈ more, G p.1 ∧ p.2 = now) :=
  checkLoop_scan _ _ _ (by omega) ⟨h.1, h.2, h, fun _ => rfl, fun hi => ⟨by omega, .inl rfl⟩⟩ hnew

theorem run_scan {G : Nat → Prop} (env : Env) : ∀ (ops : List Op) {s : State}, s.Wf G → (∀ t, s.heap.length ≤ t → G t) →
    ∃ s', s.run env ops = .ok s' ∧ s'.Wf G ∧ (∃ more, s'.fired = s.fired ++ more ∧ ∀ p ∈ more, G p.1) := by
  intro ops
  induction ops with
  | nil => intro s h _; exact ⟨s, rfl, h, [], by simp, by simp⟩
  | cons o ops ih =>
    intro s h hnew
    cases o with
    | act a =>
      obtain ⟨s', e, w, more, hm, hall⟩ := ih (act_wf h hnew a)
        (fun t ht => hnew t (Nat.le_trans (later_act s a).size ht))
      exact ⟨s', e, w, more, by rw [hm, fired_act], hall⟩
    | check now =>
      obtain ⟨s1, e1, w1, m1, hm1, ha1⟩ := check_scan env now h hnew
      obtain ⟨s', e, w, more, hm, hall⟩ := ih w1
        (fun t ht => hnew t (Nat.le_trans (later_check _ _ _ e1).size ht))
      refine ⟨s', ?_, w, m1 ++ more, by rw [hm, hm1, List.append_assoc], ?_⟩
      · simp only [State.run, State.op, e1, Res.bind]; exact e
      · intro p hp
        rw [List.mem_append] at hp
        rcases hp with hp | hp
        · exact (ha1 p hp).1
        · exact hall p hp

theorem new_wf (G : Nat → Prop) : State.new.Wf G := ⟨by simp [State.new], fun i hi => by simp [State.new] at hi⟩

end Verif.Timer
