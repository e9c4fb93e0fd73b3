import Verif.Timer.Lemmas

/-
C24: timers. Histories are lists of operations on a timer set: starting a timer (with the deadline it gets), cancelling a
label, checking at a time. Timers are numbered in the order they are started, by the owner or by callbacks. `fired` lists
the callbacks invoked: which timer, and the time given to `check`.
-/

namespace Verif.Timer

open Verif

/-! ### What holds in every history -/

/-- Whatever callbacks do, no operation on the set panics, no timer fires twice, and a timer fires only in a check at a
time after its deadline. -/
theorem C24_safe_once_not_early (env : Env) (ops : List Op) :
    ∃ s, State.new.run env ops = .ok s ∧ (s.fired.map Prod.fst).Nodup ∧
      ∀ p ∈ s.fired, p.1 < s.heap.length ∧ s.deadline p.1 < p.2 := by
  obtain ⟨s, e, -⟩ := run_scan (G := fun _ => True) env ops (new_wf _) (fun _ _ => trivial)
  have h := sound_run sound_new e
  exact ⟨s, e, h.nodup, fun p hp => ⟨h.known p hp, h.late p hp⟩⟩

/-- The timers fired by a check are fired at its time, and fires are never undone. -/
theorem C24_fires_only_in_check (env : Env) (ops : List Op) (now : Nat) (s : State) (h : State.new.run env ops = .ok s) :
    (∀ a, (s.act a).fired = s.fired) ∧
    ∃ s' more, s.check env now = .ok s' ∧ s'.fired = s.fired ++ more ∧ ∀ p ∈ more, p.2 = now := by
  refine ⟨fun a => fired_act s a, ?_⟩
  obtain ⟨s1, e, w, -⟩ := run_scan (G := fun _ => True) env ops (new_wf _) (fun _ _ => trivial)
  rw [h] at e
  cases e
  obtain ⟨s', e, -, more, hm, hall⟩ := check_scan env now w (fun _ _ => trivial)
  exact ⟨s', more, e, hm, fun p hp => (hall p hp).2⟩

/-- A timer cancelled by the owner of the set (not by a callback) never fires afterwards: any timer started before, with
that label when `cancel` was called. What is missing: cancellation by a callback, see `C24_cancel_in_callback_fails`. -/
theorem C24_cancelled_never_fires_partial (env : Env) (before after : List Op) (label : Nat) (s s' : State)
    (hs : State.new.run env before = .ok s)
    (hs' : (s.cancel label).run env after = .ok s') (t : Nat) (ht : t < s.heap.length) (hl : s.label t = label) :
    ∀ now, (t, now) ∈ s'.fired → (t, now) ∈ s.fired := by
  intro now hf
  obtain ⟨s1, e, w, -⟩ := run_scan (G := fun _ => True) env before (new_wf _) (fun _ _ => trivial)
  rw [hs] at e
  cases e
  -- every timer that is not listed stays so
  let G : Nat → Prop := fun x => some x ∈ s.list ∨ s.heap.length ≤ x
  have w' : (s.cancel label).Wf G := by
    refine ⟨w.1, ?_⟩
    show Holds G (s.array s.arr) s.len
    rw [Holds.iff w.2.le]
    intro x hx
    obtain ⟨y, rfl, -⟩ := w.mem_list x hx
    exact ⟨y, rfl, .inl hx⟩
  have hsize : (s.cancel label).heap.length = s.heap.length := by simp [State.cancel, disarm]
  obtain ⟨s2, e2, -, more, hm, hall⟩ := run_scan env after w' (fun x hx => .inr (by rw [hsize] at hx; exact hx))
  rw [hs'] at e2
  cases e2
  have hsound : Sound s' := sound_run (Sound.later (sound_run sound_new hs) (later_cancel s label) rfl) hs'
  rw [hm, List.mem_append] at hf
  rcases hf with hf | hf
  · exact hf
  · exfalso
    have hlist : some t ∈ s.list := by
      rcases hall _ hf with h | h
      · exact h
      · exact absurd ht (by dsimp only at h; omega)
    have hoff : (s.cancel label).armed t = false := by
      rw [State.label, List.getElem?_eq_getElem ht] at hl
      simp only [Option.map_some, Option.getD_some] at hl
      simp [State.cancel, disarm, State.armed, List.getElem?_mapIdx, List.getElem?_eq_getElem ht, hlist, hl]
    -- a disarmed timer is never fired
    have inv : Later (s.cancel label) s' ∧ ∀ p ∈ s'.fired, p.1 = t → p ∈ s.fired := by
      refine run_inv (fun v : State => Later (s.cancel label) v ∧ ∀ p ∈ v.fired, p.1 = t → p ∈ s.fired) env
        ?_ ?_ after _ _ ⟨Later.refl _, fun p hp _ => hp⟩ hs'
      · intro v a hv
        exact ⟨hv.1.trans (later_act v a), fun p hp => hv.2 p (by rwa [fired_act] at hp)⟩
      · intro v v' now' hv hc
        refine checkLoop_inv (fun v : State => Later (s.cancel label) v ∧ ∀ p ∈ v.fired, p.1 = t → p ∈ s.fired) env now' v.arr
          ?_ ?_ _ _ _ _ hv hc
        · intro a b i ha hb
          exact ⟨ha.1.trans (later_of_heap (squeeze_heap hb).1), by rw [(squeeze_heap hb).2.1]; exact ha.2⟩
        · intro a x ha harm hd
          rw [fire_eq]
          refine ⟨ha.1.trans ((later_mark _ _ _).trans (later_acts _ _)), ?_⟩
          intro p hp hpt
          rw [fired_acts] at hp
          simp only [State.mark, List.mem_append, List.mem_singleton] at hp
          rcases hp with hp | rfl
          · exact ha.2 p hp hpt
          · simp only at hpt
            subst hpt
            have := ha.1.armed x (by rw [hsize]; exact ht) harm
            rw [hoff] at this
            exact absurd this (by simp)
    have h1 := inv.2 _ (by rw [hm, List.mem_append]; exact .inr hf) rfl
    have hnd := hsound.nodup
    rw [hm, List.map_append, List.nodup_append] at hnd
    exact hnd.2.2 t (List.mem_map.mpr ⟨(t, now), h1, rfl⟩) t (List.mem_map.mpr ⟨(t, now), hf, rfl⟩) rfl

/-- Surroundings in which callbacks do nothing. -/
def idle : Env := ⟨fun _ => ([], false), fun _ => 0⟩

/-- Non-trivial case: two timers, one is cancelled, both deadlines pass, one fires. -/
example : ((State.new.run idle [.act (.start 1 100), .act (.start 2 200), .act (.cancel 1), .check 300]).bind
    fun s => .ok s.fired) = .ok [(1, 300)] := by decide

/-! ### What fails -/

/-- Surroundings in which the first callback starts timer 1 (label 7, deadline 300), as retransmission does. -/
def restarting : Env := ⟨fun k => if k = 0 then ([.start 7 300], false) else ([], false), fun _ => 0⟩

/-- The state reached below. -/
def stuck : State :=
  ⟨[⟨7, false, 100⟩, ⟨7, true, 300⟩], [[], [some 0], [some 0, some 1]], 2, 1, 1, [(0, 150)]⟩

/-- A started, never cancelled timer whose deadline has passed need not fire: a retransmission timer (label 7, deadline
100) fires and is started again (deadline 300), as `handshakeRetransmit` does; the set is checked once more before the new
deadline, and from then on the new timer never fires, however many and however late the checks. -/
theorem C24_pending_timer_lost_fails (late : List Nat) :
    ∃ s, State.new.run restarting ([.act (.start 7 100), .check 150, .check 200] ++ late.map .check) = .ok s ∧
      s.fired = [(0, 150)] ∧ s.armed 1 = true ∧ s.deadline 1 = 300 := by
  have hc : ∀ now, stuck.check restarting now = .ok stuck := by
    intro now
    simp only [stuck, State.check, checkLoop, State.array, List.getD_eq_getElem?_getD, State.deadline]
    by_cases hn : now > 100
    · simp [State.squeeze, State.array, Res.bind, State.armed, hn]
    · simp [hn]
  have hr : ∀ late : List Nat, stuck.run restarting (late.map .check) = .ok stuck := by
    intro late
    induction late with
    | nil => rfl
    | cons now late ih => simp only [List.map_cons, State.run, State.op, hc, Res.bind]; exact ih
  refine ⟨stuck, ?_, rfl, rfl, rfl⟩
  have h1 : (State.new.act (.start 7 100)).check restarting 150 =
      .ok ⟨[⟨7, false, 100⟩, ⟨7, true, 300⟩], [[], [some 0], [some 0, some 1]], 2, 2, 1, [(0, 150)]⟩ := by decide
  have h2 : State.check ⟨[⟨7, false, 100⟩, ⟨7, true, 300⟩], [[], [some 0], [some 0, some 1]], 2, 2, 1, [(0, 150)]⟩ restarting 200
      = .ok stuck := by decide
  simp only [List.cons_append, List.nil_append, State.run, State.op, Res.bind, h1, h2]
  exact hr late

/-- Surroundings in which the first callback cancels label 2. -/
def cancelling : Env := ⟨fun k => if k = 0 then ([.cancel 2], false) else ([], false), fun _ => 0⟩

/-- A timer cancelled by a callback may fire afterwards, in the same check. -/
theorem C24_cancel_in_callback_fails :
    (State.new.run cancelling [.act (.start 1 100), .act (.start 2 110), .check 300]).bind (fun s => .ok s.fired)
      = .ok [(0, 300), (1, 300)] := by decide

/-! ### What holds until the first timer expires -/

/-- A history in which no check finds an expired deadline (not even of a cancelled timer). -/
def Quiet (s : State) : List Op → Prop
  | [] => True
  | .act a :: ops => Quiet (s.act a) ops
  | .check now :: ops => (∀ t, t < s.heap.length → now ≤ s.deadline t) ∧ Quiet s ops

/-- All timers are listed once, in the order of their deadlines. -/
def Full (s : State) : Prop :=
  s.arr < s.mem.length ∧ s.len = (s.array s.arr).length ∧
  ∃ ids : List Nat, s.list = ids.map some ∧ (∀ t, t ∈ ids ↔ t < s.heap.length) ∧ ids.Pairwise (fun a b => s.deadline a ≤ s.deadline b)

theorem insertPos_split (s : State) (d : Nat) (ids : List Nat) :
    ∃ l r, ids = l ++ r ∧ insertPos s d (ids.map some) = l.length ∧ (∀ t ∈ l, s.deadline t ≤ d) ∧
      (∀ t ∈ r.head?, d < s.deadline t) := by
  induction ids with
  | nil => exact ⟨[], [], rfl, rfl, by simp, by simp⟩
  | cons t ids ih =>
    by_cases h : d < s.deadline t
    · exact ⟨[], t :: ids, rfl, by simp [insertPos, h], by simp, by simpa using h⟩
    · obtain ⟨l, r, e, hp, hl, hr⟩ := ih
      refine ⟨t :: l, r, by simp [e], by simp [insertPos, h, hp], ?_, hr⟩
      intro x hx
      rw [List.mem_cons] at hx
      rcases hx with rfl | hx
      · omega
      · exact hl x hx

theorem full_act {s : State} (h : Full s) (a : Act) : Full (s.act a) := by
  obtain ⟨h1, h2, ids, hlist, hall, hsort⟩ := h
  cases a with
  | cancel l =>
    refine ⟨h1, h2, ids, hlist, ?_, ?_⟩
    · intro t; rw [hall]; simp [State.act, State.cancel, disarm]
    · refine List.Pairwise.imp_of_mem ?_ hsort
      intro x y hx hy hxy
      have hl := later_cancel s l
      rw [State.act, hl.deadline x ((hall x).mp hx), hl.deadline y ((hall y).mp hy)]
      exact hxy
  | start l d =>
    obtain ⟨lo, hi, he, hpos, hlo, hhi⟩ := insertPos_split s d ids
    have hlater := later_start s l d
    have harr : (s.start l d).array (s.start l d).arr = (lo ++ s.heap.length :: hi).map some := by
      rw [start_array, hlist, hpos, he]
      simp
    have hlen : (s.start l d).len = (lo ++ s.heap.length :: hi).length := by
      simp only [State.start, hlist, he]
      simp
      omega
    refine ⟨by simp [State.act, State.start], by rw [State.act, harr, List.length_map, hlen], lo ++ s.heap.length :: hi, ?_, ?_, ?_⟩
    · rw [State.act, State.list, harr, hlen, List.take_of_length_le (by simp)]
    · intro t
      have := hall t
      rw [he, List.mem_append] at this
      rw [List.mem_append, List.mem_cons]
      have hsz : ((s.act (.start l d)).heap).length = s.heap.length + 1 := by simp [State.act, State.start]
      rw [hsz]
      constructor
      · rintro (h | h | h)
        · have := this.mp (.inl h); omega
        · omega
        · have := this.mp (.inr h); omega
      · intro h
        by_cases ht : t = s.heap.length
        · exact .inr (.inl ht)
        · rcases this.mpr (by omega) with h | h
          · exact .inl h
          · exact .inr (.inr h)
    · have hnewd : (s.start l d).deadline s.heap.length = d := by simp [State.start, State.deadline]
      have hold : ∀ t ∈ ids, (s.start l d).deadline t = s.deadline t := fun t ht => hlater.deadline t ((hall t).mp ht)
      have hlo' : ∀ t ∈ lo, t ∈ ids := fun t ht => by rw [he]; exact List.mem_append_left _ ht
      have hhi' : ∀ t ∈ hi, t ∈ ids := fun t ht => by rw [he]; exact List.mem_append_right _ ht
      rw [he, List.pairwise_append] at hsort
      have hgt : ∀ t ∈ hi, d ≤ s.deadline t := by
        cases hi with
        | nil => simp
        | cons x xs =>
          have hx : d < s.deadline x := hhi x (by simp)
          intro t ht
          rw [List.mem_cons] at ht
          rcases ht with rfl | ht
          · omega
          · have := (List.pairwise_cons.mp hsort.2.1).1 t ht; omega
      show (lo ++ s.heap.length :: hi).Pairwise (fun a b => (s.start l d).deadline a ≤ (s.start l d).deadline b)
      rw [List.pairwise_append, List.pairwise_cons]
      refine ⟨?_, ⟨?_, ?_⟩, ?_⟩
      · exact hsort.1.imp_of_mem fun {x y} hx hy hxy => by rw [hold x (hlo' x hx), hold y (hlo' y hy)]; exact hxy
      · intro t ht
        rw [hnewd, hold t (hhi' t ht)]
        exact hgt t ht
      · exact hsort.2.1.imp_of_mem fun {x y} hx hy hxy => by rw [hold x (hhi' x hx), hold y (hhi' y hy)]; exact hxy
      · intro x hx y hy
        rw [hold x (hlo' x hx)]
        rw [List.mem_cons] at hy
        rcases hy with rfl | hy
        · rw [hnewd]; exact hlo x hx
        · rw [hold y (hhi' y hy)]; exact hsort.2.2 x hx y hy

theorem full_new : Full State.new := ⟨by simp [State.new], by simp [State.new, State.array], [], by simp [State.new, State.list, State.array], by simp [State.new], .nil⟩

theorem full_check {s : State} {env : Env} {now : Nat} (h : Full s) (hq : ∀ t, t < s.heap.length → now ≤ s.deadline t) :
    s.check env now = .ok s := by
  obtain ⟨h1, h2, ids, hlist, hall, -⟩ := h
  rw [State.list, h2, List.take_length] at hlist
  rw [State.check]
  cases hl : s.len with
  | zero => rfl
  | succ n =>
    cases ids with
    | nil => rw [hlist] at h2; simp at h2; omega
    | cons t ids =>
      have := hq t ((hall t).mp (by simp))
      simp only [checkLoop, hlist]
      simp
      omega

theorem full_run {env : Env} : ∀ (ops : List Op) (s : State), Full s → Quiet s ops →
    ∃ s', s.run env ops = .ok s' ∧ Full s' := by
  intro ops
  induction ops with
  | nil => intro s h _; exact ⟨s, rfl, h⟩
  | cons o ops ih =>
    intro s h hq
    cases o with
    | act a => exact ih _ (full_act h a) hq
    | check now =>
      have hc := full_check (env := env) h hq.1
      obtain ⟨s', e, hf⟩ := ih s h hq.2
      exact ⟨s', by simp only [State.run, State.op, hc, Res.bind]; exact e, hf⟩

/-- Until the first check that finds an expired deadline, the time reported by `remaining` is the earliest deadline of the
timers pending (started, not cancelled), and none is reported only if none is pending. What is missing: later, see
`C24_pending_timer_lost_fails`. -/
theorem C24_remaining_partial (env : Env) (ops : List Op) (hq : Quiet State.new ops) :
    ∃ s, State.new.run env ops = .ok s ∧
      (∀ d, s.remaining = some d → (∃ t, s.armed t = true ∧ s.deadline t = d) ∧ ∀ t, s.armed t = true → d ≤ s.deadline t) ∧
      (s.remaining = none → ∀ t, s.armed t = false) := by
  obtain ⟨s, e, -, -, ids, hlist, hall, hsort⟩ := full_run (env := env) ops _ full_new hq
  refine ⟨s, e, ?_⟩
  have hrem : s.remaining = (ids.find? s.armed).map s.deadline := by
    rw [State.remaining, hlist]
    congr 1
    clear hlist hall hsort
    induction ids with
    | nil => rfl
    | cons t ids ih =>
      simp only [List.map_cons, List.findSome?_cons, List.find?_cons]
      cases s.armed t with
      | true => rfl
      | false => simpa using ih
  rw [hrem]
  constructor
  · intro d hd
    rw [Option.map_eq_some_iff] at hd
    obtain ⟨t, ht, rfl⟩ := hd
    rw [List.find?_eq_some_iff_append] at ht
    obtain ⟨ha, l, r, he, hno⟩ := ht
    refine ⟨⟨t, ha, rfl⟩, fun x hx => ?_⟩
    have hmem := (hall x).mpr (armed_lt hx)
    rw [he, List.mem_append, List.mem_cons] at hmem
    rcases hmem with h | rfl | h
    · have := hno x h; simp [hx] at this
    · exact Nat.le_refl _
    · rw [he, List.pairwise_append] at hsort
      exact (List.pairwise_cons.mp hsort.2.1).1 x h
  · intro hn t
    rw [Option.map_eq_none_iff, List.find?_eq_none] at hn
    rw [Bool.eq_false_iff]
    intro ha
    exact hn t ((hall t).mpr (armed_lt ha)) ha

/-- Until the first check that finds an expired deadline, nothing fires, and in that check the timer with the earliest
deadline fires if it is pending. What is missing: the others whose deadlines have passed (after the first two), and all
later checks. -/
theorem C24_first_expiry_partial (env : Env) (ops : List Op) (hq : Quiet State.new ops) :
    ∃ s, State.new.run env ops = .ok s ∧ s.fired = [] ∧
      ∀ now t, s.armed t = true → s.deadline t < now → (∀ t', t' < s.heap.length → t' ≠ t → s.deadline t < s.deadline t') →
        ∃ s', s.check env now = .ok s' ∧ (t, now) ∈ s'.fired := by
  obtain ⟨s, e, hfull⟩ := full_run (env := env) ops _ full_new hq
  refine ⟨s, e, ?_, ?_⟩
  · have : ∀ (ops : List Op) (s s' : State), Full s → Quiet s ops → s.run env ops = .ok s' → s'.fired = s.fired := by
      intro ops
      induction ops with
      | nil => intro s s' _ _ h; cases h; rfl
      | cons o ops ih =>
        intro s s' hf hq hr
        cases o with
        | act a => exact (ih _ _ (full_act hf a) hq hr).trans (fired_act s a)
        | check now =>
          simp only [State.run, State.op, full_check (env := env) hf hq.1, Res.bind] at hr
          exact ih _ _ hf hq.2 hr
    exact this ops _ _ full_new hq e
  · intro now t harm hd hmin
    obtain ⟨h1, h2, ids, hlist, hall, hsort⟩ := hfull
    have hlist' := hlist
    rw [State.list, h2, List.take_length] at hlist
    have ht := (hall t).mpr (armed_lt harm)
    cases ids with
    | nil => simp at ht
    | cons x xs =>
      have hx : x = t := by
        rw [List.mem_cons] at ht
        rcases ht with ht | ht
        · exact ht.symm
        · apply Classical.byContradiction
          intro hne
          have h3 := hmin x ((hall x).mp (by simp)) hne
          have h4 := (List.pairwise_cons.mp hsort).1 t ht
          omega
      subst hx
      have hlen : s.len = xs.length + 1 := by rw [h2, hlist]; simp
      have hwf : s.Wf (fun _ => True) := by
        refine ⟨h1, ?_⟩
        rw [Holds.iff (by omega), h2, List.take_length, hlist]
        intro y hy
        rw [List.mem_map] at hy
        obtain ⟨z, -, rfl⟩ := hy
        exact ⟨z, rfl, trivial⟩
      have hscan : Scan (fun _ => True) s.arr s.len 0 s :=
        ⟨h1, hwf.2, hwf, fun _ => rfl, fun hi => ⟨by omega, .inl rfl⟩⟩
      obtain ⟨s1, hs1, hsc1⟩ := squeeze_scan env hscan (by omega)
      have hh := squeeze_heap hs1
      have ha1 : s1.armed x = true := by rw [← harm]; simp [State.armed, hh.1]
      have hfired : (s1.fire env now x).1.fired = s.fired ++ [(x, now)] := by
        rw [fire_eq, fired_acts]; simp [State.mark, hh.2.1]
      have hsc2 : Scan (fun _ => True) s.arr s.len 1 (s1.fire env now x).1 := by
        rw [fire_eq]; exact acts_scan _ (mark_scan hsc1 now x) (fun _ _ => trivial)
      rw [State.check, hlen]
      simp only [checkLoop, hlist]
      simp only [List.map_cons, List.getElem?_cons_zero, gt_iff_lt, hd, if_true, hs1, Res.bind, ha1]
      split
      · exact ⟨_, rfl, by rw [hfired]; simp⟩
      · obtain ⟨s', e', -, more, hm, -⟩ := checkLoop_scan (env := env) (now := now) xs.length 1 _ (by omega) hsc2
          (fun _ _ => trivial)
        exact ⟨s', e', by rw [hm, hfired]; simp⟩

/-- Non-trivial case: timers started out of order, one cancelled, a check before all deadlines, then the first expiry. -/
example : Quiet State.new [.act (.start 1 300), .act (.start 2 200), .check 150, .act (.cancel 1), .act (.start 3 250)] := by
  refine ⟨?_, trivial⟩
  intro t ht
  simp [State.act, State.start, State.new, State.list, State.array, insertPos] at ht
  have : t = 0 ∨ t = 1 := by omega
  rcases this with rfl | rfl <;> decide

end Verif.Timer
