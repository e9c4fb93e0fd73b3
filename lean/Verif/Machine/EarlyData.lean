import Verif.Machine.ServerView

/-
Where the early data of a server comes from.
-/

namespace Verif.Spec

open Verif Verif.Machine

/-- The application data among the events. -/
def dataRead (es : List (Event × Coins)) : Bytes :=
  (es.map fun e => match e.1 with | .appData d => d | _ => []).flatten

end Verif.Spec

namespace Verif.Machine

open Verif Verif.Crypto Verif.Messages Verif.Negotiation Verif.Handshake Verif.Spec

theorem mkMsg_early {x x' : Ctx} {b : Body} {m : Msg} (h : mkMsg x b = .ok (m, x')) : x'.earlyData = x.earlyData := by
  obtain ⟨d, _, _, rfl⟩ := mkMsg_ok h; rfl

theorem makeRetry_early {x x' : Ctx} {suite : UInt16} {sid cookie : Bytes} {m : Msg}
    (h : makeRetry x suite sid cookie = .ok (m, x')) : x'.earlyData = x.earlyData := by
  obtain ⟨_, _, h⟩ := makeRetry_ok h; exact mkMsg_early h

theorem SStart.next_early {E : Env} {x x' : Ctx} {c : Coins} {s : SStart} {m : Msg} {r : SStartResult}
    (h : s.next E x c m = .ok (r, x')) : x'.earlyData = x.earlyData := by
  obtain ⟨f, rfl, _⟩ := SStart.next_ok h
  refine Eq.trans (?_ : _ = f.x1.earlyData) ?_
  · rcases chooseRetry_ok f.retryOk with ⟨_, _, h, _⟩ | ⟨_, _, _, _, _, h1⟩ | ⟨_, _, _, _, _, _, _, _, _, _, _, _, _, _, _, h1⟩
    · rw [h]
    · exact makeRetry_early h1
    · exact makeRetry_early h1
  · rcases choosePsk_ok f.psk with ⟨_, _, h⟩ | ⟨_, _, _, ⟨_, _, h⟩ | ⟨_, _, _, _, h1, _⟩, _, _⟩
    · rw [h]
    · rw [h]
    · exact makeRetry_early h1

theorem serverAuth_early {E : Env} {x x' : Ctx} {s : SNegotiated} {hid : HashId} {t t' : Bytes} {acts : List Action}
    (h : serverAuth E x s hid t = .ok (acts, t', x')) : x'.earlyData = x.earlyData := by
  rcases serverAuth_ok h with ⟨_, _, _, rfl⟩ | ⟨_, _, _, _, _, _, _, _, _, h1, _, h2, _, h3, _⟩
  · rfl
  · refine (mkMsg_early h3).trans ((mkMsg_early h2).trans ?_)
    rcases serverRequest_ok h1 with ⟨_, _, _, rfl⟩ | ⟨_, _, _, _, h1, _⟩
    · rfl
    · exact mkMsg_early h1

theorem process_early {E : Env} {x x' : Ctx} {s s' : Connected} {now : Int} {m : Msg} {acts : List Action}
    (h : s.process E x now m = .ok (s', acts, x')) : x'.earlyData = x.earlyData := by
  rcases Connected.process_ok h with ⟨_, _, _, _, _, _, _, _, _, ⟨_, _, h1, _⟩ | ⟨_, _, _, rfl⟩⟩ | ⟨_, _, _, _, _, _, _, _, rfl⟩
  · obtain ⟨_, _, _, _, _, _, h1, _⟩ := Connected.keyUpdate_ok h1; exact mkMsg_early h1
  · rfl
  · rfl

theorem NegFacts.early {E : Env} {x : Ctx} {c : Coins} {s : SNegotiated} (f : NegFacts E x c s) : f.x4.earlyData = x.earlyData :=
  (mkMsg_early f.finOk).trans ((serverAuth_early f.authOk).trans ((mkMsg_early f.eeOk).trans (mkMsg_early f.shOk)))

/-- The early traffic secret of a server that accepts early data. -/
theorem AfterHello.early_traffic {E : Env} (hP : E.P.Sized) {x : Ctx} {cfg : Config} {es : List (Event × Coins)}
    {acts : List Action} (a : AfterHello E x cfg es acts) (hu : a.n.params.usingEarlyData = true) :
    a.n.earlyTraffic = clientEarlyTraffic E.P a.f.p.hash a.F.early (wire x.datagram [a.m]) := by
  obtain ⟨f, hx2, ⟨_, _, _, h⟩ | ⟨hsend, n, hn, hfin⟩⟩ := SStart.next_ok a.next
  · cases h
  cases hn
  obtain ⟨hmt, hbody, hver, found, hparse, ho, vs, hvs, hv⟩ := readHello_ok f.hello
  obtain ⟨hdp, cert, psk, et, proto, hcert, hpsk, het, halpn, hneq⟩ := SStart.finish_ok hfin
  have hsuite : a.n.params.suite = UInt16.ofNat f.suite := by rw [hneq]
  have hus : a.n.params.usingEarlyData =
      (Negotiation.earlyData (pskMode f.dhc.isSome f.pskc.isSome f.o.modes).2 f.o.earlyData cfg.allowEarlyData).1 := by rw [hneq]
  have hup : a.n.params.usingPSK = (pskMode f.dhc.isSome f.pskc.isSome f.o.modes).2 := by rw [hneq]
  have het' : a.n.earlyTraffic = et := by rw [hneq]
  have het2 : serverEarly E a.x0 a.m
      (Negotiation.earlyData (pskMode f.dhc.isSome f.pskc.isSome f.o.modes).2 f.o.earlyData cfg.allowEarlyData).1
      a.n.pskSecret f.pskc = .ok et := by
    rw [congrArg SNegotiated.pskSecret hneq]
    clear hneq halpn hpsk
    cases psk <;> exact het
  clear het
  have hmode : (pskMode f.dhc.isSome f.pskc.isSome f.o.modes).2 = true := by
    rw [hu] at hus
    revert hus
    cases (pskMode f.dhc.isSome f.pskc.isSome f.o.modes).2 <;> simp [Negotiation.earlyData]
  rw [hu] at hus
  rw [← hus] at het2
  have het := het2
  cases hpc : f.pskc with
  | none => rw [hpc] at het; simp [serverEarly] at het
  | some t =>
    obtain ⟨i, k, p⟩ := t
    rw [hpc] at het
    simp only [serverEarly, if_true] at het
    have hpskOk := f.psk
    rw [hpc] at hpskOk
    rcases choosePsk_ok hpskOk with ⟨_, h1, _⟩ | ⟨h1, base, trunc, h2, h3, h4⟩
    · cases h1
    · obtain ⟨hcar, hlen⟩ := psk_carried hparse (ho ▸ h1)
      rw [← ho] at hcar hlen
      obtain ⟨id, b, h5, h6, h7, h8, h9, _⟩ := C27_selected_proves_possession E.P hP a.ce.now _ _ _ _ (by simpa using hlen) _ _ _ h4
      have hoff : f.suite ∈ f.ch.suites.map (·.toNat) ∧ f.suite = k.suite := by
        have h10 := f.suiteOk
        rw [hpc] at h10
        have := ((C28_suite_with_psk_partial k _ _).1 _).1 h10
        exact ⟨this.2, this.1⟩
      have hks : k.suite = a.n.params.suite.toNat := by
        rw [hsuite, (ofNat_mem hoff.1).2, hoff.2]
      have hpp : p = a.f.p := by
        have := a.f.suiteOk
        rw [← hks, h8] at this
        simpa using this
      have hz : 0 < p.hash.size := suiteParams_size h8
      rw [Machine.earlyTraffic_eq E.P hP _ hz] at het
      simp only [Res.ok.injEq] at het
      rw [het', ← het, hpp]
      have : a.F.early = hkdfExtract E.P a.f.p.hash (some (zeros a.f.p.hash)) a.n.pskSecret := by
        show serverEarlySecret E.P a.f.p.hash a.n = _
        rw [serverEarlySecret, hup, hmode]; rfl
      rw [this]
      simp [wire, Ctx.bytes, a.datagram.1]

/-- The keys for early data were put in place. -/
def EarlyKeys (E : Env) {x : Ctx} {cfg : Config} {es : List (Event × Coins)} {acts : List Action}
    (a : AfterHello E x cfg es acts) (acts' : List Action) : Prop :=
  ∃ keys, makeTrafficKeys E.P a.f.p a.n.earlyTraffic = .ok keys ∧ Action.rekeyIn epochEarlyData keys ∈ acts'

/-- The early data a server has in each state. -/
def EarlyAt (E : Env) (x : Ctx) (cfg : Config) (es : List (Event × Coins)) (acts : List Action) (x' : Ctx) : SState → Prop
  | .start _ | .readPast | .negotiated _ | .waitFlight2 _ => x'.earlyData = x.earlyData
  | .waitEOED _ => ∃ a : AfterHello E x cfg es acts, a.n.params.usingEarlyData = true ∧ EarlyKeys E a acts ∧
      (∀ e ∈ a.rest, ∃ d, e.1 = .appData d) ∧ x'.earlyData = x.earlyData ++ dataRead a.rest
  | _ => x'.earlyData = x.earlyData ∨ ∃ a : AfterHello E x cfg es acts, a.n.params.usingEarlyData = true ∧ EarlyKeys E a acts ∧
      ∃ mid m c r, a.rest = mid ++ (.msg m, c) :: r ∧ m.msgType = 5 ∧ (∀ e ∈ mid, ∃ d, e.1 = .appData d) ∧
        x'.earlyData = x.earlyData ++ dataRead mid

theorem earlyAt {E : Env} {x : Ctx} {cfg : Config} {es : List (Event × Coins)} {s : SState}
    {acts : List Action} {x' : Ctx} (h : serverRun E x cfg es = .ok (s, acts, x')) : EarlyAt E x cfg es acts x' s := by
  have := serverRun_induct (cfg := cfg)
    (fun es s acts x' => serverRun E x cfg es = .ok (s, acts, x') ∧ EarlyAt E x cfg es acts x' s) ?_ ?_ h
  · exact this.2
  · exact ⟨rfl, rfl⟩
  · rintro es s acts x1 e ce s' acts' x2 ⟨hrun, ih⟩ hst
    have hrun' := SState.run_ok_snoc hrun hst.step
    refine ⟨hrun', ?_⟩
    -- later states keep what they have
    have later : (x1.earlyData = x.earlyData ∨ ∃ a : AfterHello E x cfg es acts, a.n.params.usingEarlyData = true ∧ EarlyKeys E a acts ∧
        ∃ mid m c r, a.rest = mid ++ (.msg m, c) :: r ∧ m.msgType = 5 ∧ (∀ e ∈ mid, ∃ d, e.1 = .appData d) ∧
          x1.earlyData = x.earlyData ++ dataRead mid) → x2.earlyData = x1.earlyData →
        (x2.earlyData = x.earlyData ∨ ∃ a : AfterHello E x cfg (es ++ [(e, ce)]) (acts ++ acts'),
          a.n.params.usingEarlyData = true ∧ EarlyKeys E a (acts ++ acts') ∧ ∃ mid m c r, a.rest = mid ++ (.msg m, c) :: r ∧ m.msgType = 5 ∧
            (∀ e ∈ mid, ∃ d, e.1 = .appData d) ∧ x2.earlyData = x.earlyData ++ dataRead mid) := by
      intro h hx
      rcases h with h | ⟨a, h1, ⟨keys, hk, hkm⟩, mid, m, c, r, h2, h3, h4, h5⟩
      · exact .inl (hx.trans h)
      · refine .inr ⟨a.extend (e, ce) acts', h1, ⟨keys, hk, List.mem_append.2 (.inl hkm)⟩, mid, m, c, r ++ [(e, ce)], ?_, h3, h4, hx.trans h5⟩
        show a.rest ++ [(e, ce)] = _
        rw [h2]; simp
    have settled : ∀ w : SWait, (x2.earlyData = x.earlyData ∨ ∃ a : AfterHello E x cfg (es ++ [(e, ce)]) (acts ++ acts'),
          a.n.params.usingEarlyData = true ∧ EarlyKeys E a (acts ++ acts') ∧ ∃ mid m c r, a.rest = mid ++ (.msg m, c) :: r ∧ m.msgType = 5 ∧
            (∀ e ∈ mid, ∃ d, e.1 = .appData d) ∧ x2.earlyData = x.earlyData ++ dataRead mid) →
        EarlyAt E x cfg (es ++ [(e, ce)]) (acts ++ acts') x2 (SState.waitFlight2 w).settle := by
      intro w hw
      rcases settle_wait w with ⟨_, h2⟩ | ⟨_, h2⟩ <;> rw [h2] <;> exact hw
    cases hst with
    | skip => exact ih
    | early s d =>
      obtain ⟨a, h1, ⟨keys, hk, hkm⟩, h2, h3⟩ := ih
      refine ⟨a.extend (.appData d, ce) [], h1, ⟨keys, hk, List.mem_append.2 (.inl hkm)⟩, ?_, ?_⟩
      · intro e he
        have he : e ∈ a.rest ++ [(.appData d, ce)] := he
        rcases List.mem_append.1 he with he | he
        · exact h2 e he
        · rw [List.mem_singleton] at he; subst he; exact ⟨d, rfl⟩
      · show x1.earlyData ++ d = x.earlyData ++ dataRead (a.rest ++ [(.appData d, ce)])
        rw [h3]; simp [dataRead]
    | retry s m hrr x2 next => exact (SStart.next_early next).trans ih
    | hello s m n x1' s'' _ x2' next neg =>
      obtain ⟨f, rfl, hf⟩ := SNegotiated.next_ok neg
      have hx : f.x4.earlyData = x.earlyData := f.early.trans ((SStart.next_early next).trans ih)
      rcases hf with ⟨h4, keys, hk, rfl, rfl⟩ | ⟨h4, h5, rfl, rfl⟩ | ⟨h4, h5, rfl, rfl⟩
      · obtain ⟨a, _, h2, h3, _⟩ := serverKnows hrun'
        obtain ⟨_, hall, _⟩ := serverKnows hrun
        have hrest : a.rest = [] := by
          have hmem : ∀ e ∈ a.rest, ∃ m, e.1 = .msg m := by
            intro e he
            have : e ∈ es ++ [(.msg m, ce)] := by rw [a.es_eq]; simp [he]
            rcases List.mem_append.1 this with h | h
            · obtain ⟨m, h, _⟩ := hall e h; exact ⟨m, h⟩
            · rw [List.mem_singleton] at h; subst h; exact ⟨m, rfl⟩
          cases hr : a.rest with
          | nil => rfl
          | cons e r =>
            rw [hr] at h2 hmem
            obtain ⟨m, hm⟩ := hmem e (by simp)
            obtain ⟨e1, e2⟩ := e
            simp only at hm
            subst hm
            simp [received] at h2
        have hes := a.es_eq
        rw [hrest, List.append_nil] at hes
        obtain ⟨hes0, hlast⟩ := List.append_inj' hes rfl
        simp only [List.cons.injEq, Prod.mk.injEq, Event.msg.injEq, and_true] at hlast
        have hr0 := a.run0
        rw [← hes0, hrun] at hr0
        simp only [Res.ok.injEq, Prod.mk.injEq, SState.start.injEq] at hr0
        obtain ⟨rfl, _, hx0⟩ := hr0
        have hnext := a.next
        rw [← hlast.1, ← hlast.2, ← hx0, next] at hnext
        simp only [Res.ok.injEq, Prod.mk.injEq, SStartResult.negotiated.injEq] at hnext
        have hp : a.f.p = f.p := by
          have h6 := a.f.suiteOk
          have h7 : suiteParams a.n.params.suite.toNat = some f.p := by rw [← hnext.1]; exact f.suiteOk
          rw [h6] at h7
          simpa using h7
        refine ⟨a, h3, ⟨keys, ?_, by simp⟩, ?_, ?_⟩
        · have h8 : makeTrafficKeys E.P f.p a.n.earlyTraffic = .ok keys := by rw [← hnext.1]; exact hk
          rw [hp]; exact h8
        · rw [hrest]; simp
        · rw [hrest]; simpa [dataRead] using hx
      · exact hx
      · exact settled _ (.inl hx)
    | eoed s m s'' acts' x2' next =>
      obtain ⟨a, h1, ⟨keys0, hk, hkm⟩, h2, h3⟩ := ih
      obtain ⟨ht, hb, rfl, keys, _, rfl, rfl⟩ := SWait.nextEOED_ok next
      exact settled _ (.inr ⟨a.extend _ _, h1, ⟨keys0, hk, List.mem_append.2 (.inl hkm)⟩, a.rest, m, ce, [], rfl, ht, h2, h3⟩)
    | cert s m s'' acts' x2' next =>
      obtain ⟨_, _, rfl, _, _, ⟨_, rfl⟩ | ⟨_, rfl⟩⟩ := SWait.nextCert_ok next
      · exact later ih rfl
      · exact later ih rfl
    | cv s m s'' acts' x2' next =>
      obtain ⟨_, _, rfl, _, _, _, _, _, _, rfl⟩ := SWaitCV.next_ok next
      exact later ih rfl
    | finished s m s'' acts' x2' next =>
      obtain ⟨_, rfl, _, _, _, _, _, _, _, _, _, rfl, _⟩ := SWaitFinished.next_ok next
      exact later ih rfl
    | post s0 m s1 _ _ next => exact later ih (process_early next)
    | data s0 d => exact later ih rfl

end Verif.Machine
