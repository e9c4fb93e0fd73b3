import Verif.Conn.Config
import Verif.Machine.ServerView
import Verif.Machine.Toy

/-
C54: configurations. C55: the PSK cache.
-/

namespace Verif.Conn

open Verif Verif.Negotiation

/-! ### C55 -/

theorem lookup_assign (key k : Bytes) (psk : Psk) (es : List (Bytes × Psk)) :
    (assign key psk es).lookup k = if k = key then some psk else es.lookup k := by
  have lk : ∀ (a : Bytes) (v : Psk) (l : List (Bytes × Psk)), List.lookup k ((a, v) :: l) = if k = a then some v else l.lookup k := by
    intro a v l
    rw [List.lookup_cons]
    by_cases h : k = a
    · simp [h]
    · simp [h, beq_eq_false_iff_ne.mpr h]
  induction es with
  | nil => simp only [assign, lk]
  | cons e es ih =>
    obtain ⟨a, b⟩ := e
    rw [assign]
    split
    · rename_i h
      rw [lk, lk]
      have h : a = key := h
      subst h
      split <;> rfl
    · rename_i h
      have h : a ≠ key := h
      rw [lk, lk, ih]
      by_cases hk : k = key
      · rw [if_pos hk, if_pos hk, if_neg (by rw [hk]; exact Ne.symm h)]
      · rw [if_neg hk, if_neg hk]

theorem mem_keys_assign (key k : Bytes) (psk : Psk) (es : List (Bytes × Psk)) :
    k ∈ (assign key psk es).map (·.1) ↔ k = key ∨ k ∈ es.map (·.1) := by
  induction es with
  | nil => simp [assign]
  | cons e es ih =>
    simp only [assign]
    split
    · rename_i h
      simp only [List.map_cons, List.mem_cons, h]
      constructor
      · rintro (h | h)
        · exact .inl h
        · exact .inr (.inr h)
      · rintro (h | h | h)
        · exact .inl h
        · exact .inl h
        · exact .inr h
    · simp only [List.map_cons, List.mem_cons, ih]
      constructor
      · rintro (h | h | h) <;> simp [h]
      · rintro (h | h | h) <;> simp [h]

theorem nodup_assign (key : Bytes) (psk : Psk) (es : List (Bytes × Psk)) (h : (es.map (·.1)).Nodup) :
    ((assign key psk es).map (·.1)).Nodup := by
  induction es with
  | nil => simp [assign]
  | cons e es ih =>
    simp only [List.map_cons, List.nodup_cons] at h
    simp only [assign]
    split
    · rename_i hk
      simp only [List.map_cons, List.nodup_cons]
      exact ⟨hk ▸ h.1, h.2⟩
    · rename_i hk
      simp only [List.map_cons, List.nodup_cons]
      refine ⟨?_, ih h.2⟩
      rw [mem_keys_assign]
      rintro (h' | h')
      · exact hk h'
      · exact h.1 h'

theorem putAll_some (es puts : List (Bytes × Psk)) (hn : (es.map (·.1)).Nodup) :
    ∃ es', Cache.putAll (some es) puts = .ok (some es') ∧ (es'.map (·.1)).Nodup ∧
      (∀ k, k ∈ es'.map (·.1) ↔ k ∈ puts.map (·.1) ∨ k ∈ es.map (·.1)) ∧
      (∀ k, es'.lookup k = ((puts.reverse.lookup k).or (es.lookup k))) := by
  induction puts generalizing es with
  | nil => exact ⟨es, rfl, hn, by simp, by simp⟩
  | cons e puts ih =>
    obtain ⟨es', h1, h2, h3, h4⟩ := ih (assign e.1 e.2 es) (nodup_assign _ _ _ hn)
    refine ⟨es', ?_, h2, ?_, ?_⟩
    · simp only [Cache.putAll, Cache.put, Res.bind]; exact h1
    · intro k
      rw [h3, mem_keys_assign]
      simp only [List.map_cons, List.mem_cons]
      constructor
      · rintro (h | h | h) <;> simp [h]
      · rintro ((h | h) | h) <;> simp [h]
    · intro k
      rw [h4, lookup_assign, List.reverse_cons, List.lookup_append, List.lookup_cons, List.lookup_nil]
      cases (puts.reverse).lookup k with
      | some v => simp
      | none =>
        by_cases hk : k = e.1
        · simp [hk]
        · simp [hk, beq_eq_false_iff_ne.mpr hk]

/-- C55. However PSKs are stored in a cache, new from `&PSKMapCache{}`: every Put succeeds; Get of a key gives what the last
Put under that key stored, and nothing if there was none; Size is the number of different keys used. -/
theorem C55_map (puts : List (Bytes × Psk)) :
    ∃ c : Cache, Cache.putAll (some []) puts = .ok c ∧
      (∀ k, c.get k = puts.reverse.lookup k) ∧
      ∃ keys : List Bytes, keys.Nodup ∧ (∀ k, k ∈ keys ↔ k ∈ puts.map (·.1)) ∧ c.size = keys.length := by
  obtain ⟨es, h1, h2, h3, h4⟩ := putAll_some [] puts (by simp)
  refine ⟨some es, h1, ?_, es.map (·.1), h2, ?_, ?_⟩
  · intro k; simp [Cache.get, h4]
  · intro k; simp [h3]
  · simp [Cache.size]

/-- One Put on a cache in any state: the key has the new value, other keys are unaffected. -/
theorem C55_put (c c' : Cache) (key : Bytes) (psk : Psk) (h : c.put key psk = .ok c') (k : Bytes) :
    c'.get k = if k = key then some psk else c.get k := by
  cases c with
  | none => cases h
  | some es =>
    cases h
    simp [Cache.get, lookup_assign]

/-- Put fails on the nil map only (the zero value of `PSKMapCache`, not what `Init` makes), by panicking. -/
theorem C55_nil (c : Cache) (key : Bytes) (psk : Psk) : ¬ (c.put key psk).Safe ↔ c = none := by
  cases c <;> simp [Cache.put]

example (p q : Psk) : ∃ c : Cache, Cache.putAll (some []) [([1], p), ([2], q), ([1], q)] = .ok c ∧
    c.get [1] = some q ∧ c.get [2] = some q ∧ c.get [3] = none ∧ c.size = 2 :=
  ⟨some [([1], q), ([2], q)], rfl, rfl, rfl, rfl, rfl⟩

/-! ### C54 -/

/-- Clone gives a new configuration with the value of every field but `RecordLayer`, and changes nothing else. -/
theorem C54_clone_partial (m : Mem) (a : Nat) (ha : a < m.freeConfig) :
    (m.clone a).1 ≠ a ∧
    (m.clone a).2.configs (m.clone a).1 = { m.configs a with recordLayer := none } ∧
    (∀ b < m.freeConfig, (m.clone a).2.configs b = m.configs b) ∧ (m.clone a).2.caches = m.caches := by
  refine ⟨?_, ?_, ?_, rfl⟩
  · simp only [Mem.clone]; omega
  · simp only [Mem.clone, Mem.setConfig, if_true]
  · intro b hb
    simp only [Mem.clone, Mem.setConfig]
    rw [if_neg (by omega)]

/-- So a configuration that names no record layer is copied faithfully. -/
theorem C54_clone_same_partial (m : Mem) (a : Nat) (ha : a < m.freeConfig) (hr : (m.configs a).recordLayer = none) :
    (m.clone a).2.configs (m.clone a).1 = m.configs a := by
  rw [(C54_clone_partial m a ha).2.1, ← hr]

/-- The clone of a configuration that names a record layer does not have it: connections that use the clone (`Dial` does)
use the default one. -/
theorem C54_clone_fails (m : Mem) (a n : Nat) (ha : a < m.freeConfig) (hr : (m.configs a).recordLayer = some n) :
    ((m.clone a).2.configs (m.clone a).1).recordLayer = none ∧ (m.clone a).2.configs (m.clone a).1 ≠ m.configs a := by
  have h := (C54_clone_partial m a ha).2.1
  refine ⟨by rw [h], fun e => ?_⟩
  have : (none : Option Nat) = some n := by
    rw [← hr, ← e, h]
  cases this

/-- Whatever is assigned to fields of the clone, the original keeps its fields; and the other way round. -/
theorem C54_clone_independent_partial (m : Mem) (a : Nat) (ha : a < m.freeConfig) (c : Config) :
    ((m.clone a).2.setConfig (m.clone a).1 c).configs a = m.configs a ∧
    ((m.clone a).2.setConfig a c).configs (m.clone a).1 = (m.clone a).2.configs (m.clone a).1 := by
  have h := C54_clone_partial m a ha
  constructor
  · simp only [Mem.setConfig, if_neg (Ne.symm h.1)]; exact h.2.2.1 a ha
  · simp only [Mem.setConfig, if_neg h.1]

/-- But the PSK cache is shared: what is stored through the clone is found through the original, which had nothing there. -/
theorem C54_shared_cache_fails (psk : Psk) : ∃ (m : Mem) (a p : Nat) (c' : Cache), a < m.freeConfig ∧
    (m.configs a).psks = some p ∧ (m.caches p).get [1] = none ∧
    ((m.clone a).2.configs (m.clone a).1).psks = some p ∧ ((m.clone a).2.caches p).put [1] psk = .ok c' ∧
    ((m.clone a).2.setCache p c').configs a = m.configs a ∧
    (((m.clone a).2.setCache p c').caches p).get [1] = some psk :=
  ⟨⟨fun _ => { psks := some 0 }, fun _ => some [], 1, 1⟩, 0, 0, some [([1], psk)], by decide, rfl, rfl, rfl, rfl, rfl, rfl⟩

/-- What a field has after Init: what it had if it was set, else the default. -/
def filled {α : Type} (default l : List α) : List α := if l = [] then default else l

/-- Init sets the cipher suites, groups, signature schemes, ticket length and PSK modes that were empty or zero to defaults,
and gives a configuration without PSK cache an empty one of its own; no other field, no other configuration and no other
cache changes. -/
theorem C54_init_fills (m : Mem) (a : Nat) :
    (m.init a).configs a =
      { m.configs a with
        cipherSuites := filled [0x1301, 0x1302] (m.configs a).cipherSuites
        groups := filled [23, 24, 256, 29] (m.configs a).groups
        signatureSchemes := filled [0x0804, 0x0805, 0x0806, 0x0403, 0x0503, 0x0603] (m.configs a).signatureSchemes
        ticketLen := if (m.configs a).ticketLen = 0 then 16 else (m.configs a).ticketLen
        psks := some ((m.configs a).psks.getD m.freeCache)
        pskModes := filled [0, 1] (m.configs a).pskModes } ∧
    (∀ b, b ≠ a → (m.init a).configs b = m.configs b) ∧
    (∀ p < m.freeCache, (m.init a).caches p = m.caches p) ∧
    ((m.configs a).psks = none → (m.init a).caches m.freeCache = some []) := by
  generalize hc : m.configs a = c
  obtain ⟨f1, f2, f3, f4, f5, f6, f7, f8, f9, f10, f11, f12, f13, f14, f15, f16, f17, f18, f19, f20, f21, f22, f23, f24, f25⟩ := c
  simp only [Mem.init, hc, filled, List.length_eq_zero_iff]
  refine ⟨?_, ?_, ?_, ?_⟩
  · by_cases h1 : f17 = [] <;> by_cases h2 : f18 = [] <;> by_cases h3 : f19 = [] <;> by_cases h4 : f4 = 0 <;> cases f21 <;>
      by_cases h6 : f22 = [] <;> simp [h1, h2, h3, h4, h6, Mem.setConfig]
  · intro b hb
    by_cases h1 : f17 = [] <;> by_cases h2 : f18 = [] <;> by_cases h3 : f19 = [] <;> by_cases h4 : f4 = 0 <;> cases f21 <;>
      by_cases h6 : f22 = [] <;> simp [h1, h2, h3, h4, h6, Mem.setConfig, Mem.setCache, hb]
  · intro p hp
    have hp' : p ≠ m.freeCache := by omega
    by_cases h1 : f17 = [] <;> by_cases h2 : f18 = [] <;> by_cases h3 : f19 = [] <;> by_cases h4 : f4 = 0 <;> cases f21 <;>
      by_cases h6 : f22 = [] <;> simp [h1, h2, h3, h4, h6, Mem.setConfig, Mem.setCache, hp']
  · intro h; cases h
    by_cases h1 : f17 = [] <;> by_cases h2 : f18 = [] <;> by_cases h3 : f19 = [] <;> by_cases h4 : f4 = 0 <;>
      by_cases h6 : f22 = [] <;> simp [h1, h2, h3, h4, h6, Mem.setConfig, Mem.setCache]

/-- A second Init changes nothing. -/
theorem C54_init_idempotent (m : Mem) (a : Nat) :
    ((m.init a).init a).configs = (m.init a).configs ∧ (∀ p < (m.init a).freeCache, ((m.init a).init a).caches p = (m.init a).caches p) := by
  obtain ⟨h1, h2, h3, -⟩ := C54_init_fills (m.init a) a
  obtain ⟨g1, g2, -, -⟩ := C54_init_fills m a
  refine ⟨?_, h3⟩
  funext b
  by_cases hb : b = a
  · subst hb
    rw [h1, g1]
    simp only [Option.getD_some, filled]
    congr 1
    · split <;> simp_all
    · split <;> simp_all
    · split <;> simp_all
    · split <;> simp_all
    · split <;> simp_all
  · rw [h2 b hb]

/-- What a server needs: a PSK, or a certificate with a chain and a key. -/
def HasMaterial (m : Mem) (a : Nat) : Prop :=
  (∃ p, (m.configs a).psks = some p ∧ 0 < (m.caches p).size) ∨
  (∃ cert, some cert ∈ (m.configs a).certificates ∧ cert.chain ≠ [] ∧ cert.key ≠ none)

/-- Whatever ValidForServer accepts has what a server needs. The converse holds for configurations with at most one
certificate, none of them nil. -/
theorem C54_valid_server_partial (m : Mem) (a : Nat) :
    (m.validForServer a = .ok true → HasMaterial m a) ∧
    ((∀ c ∈ (m.configs a).certificates, c ≠ none) → (m.configs a).certificates.length ≤ 1 →
      (m.validForServer a = .ok true ↔ HasMaterial m a) ∧ (m.validForServer a).isOk = true) := by
  unfold Mem.validForServer HasMaterial
  generalize m.configs a = c
  obtain ⟨f1, f2, f3, f4, f5, f6, f7, f8, f9, f10, f11, f12, f13, f14, f15, f16, f17, f18, f19, f20, f21, f22, f23, f24, f25⟩ := c
  dsimp only
  by_cases hp : ∃ p, f21 = some p ∧ 0 < (m.caches p).size
  · obtain ⟨p, rfl, hp⟩ := hp
    simp [hp, Res.isOk, Mem.hasPsk]
  · have : m.hasPsk f21 = false := by
      cases f21 with
      | none => rfl
      | some p => simpa [Mem.hasPsk] using hp
    rw [this]
    simp only [Bool.false_eq_true, if_false, hp, false_or]
    match f15 with
    | [] => simp [Res.isOk]
    | none :: cs => simp
    | some cert :: cs =>
      have e : (Res.ok (decide (cert.chain.length > 0) && cert.key.isSome) = Res.ok true) ↔ (cert.chain ≠ [] ∧ cert.key ≠ none) := by
        simp [List.length_pos_iff, Option.isSome_iff_ne_none]
      refine ⟨fun h => ⟨cert, by simp, e.mp h⟩, fun _ hl => ⟨?_, rfl⟩⟩
      rw [e]
      have : cs = [] := by simpa using hl
      subst this
      constructor
      · rintro h; exact ⟨cert, by simp, h⟩
      · rintro ⟨cert', hm, h⟩
        simp only [List.mem_singleton, Option.some.injEq] at hm
        subst hm; exact h

/-- Only the first certificate counts: with a usable one in second place ValidForServer says no, and with a nil pointer
first it panics. -/
theorem C54_valid_server_fails :
    (∃ (m : Mem) (a : Nat), HasMaterial m a ∧ m.validForServer a = .ok false) ∧
    (∃ (m : Mem) (a : Nat), HasMaterial m a ∧ m.validForServer a = .panic) :=
  ⟨⟨⟨fun _ => { certificates := [some ⟨[], none⟩, some ⟨[1], some 1⟩] }, fun _ => none, 1, 1⟩, 0,
      .inr ⟨⟨[1], some 1⟩, by simp, by simp, by simp⟩, rfl⟩,
    ⟨⟨fun _ => { certificates := [none, some ⟨[1], some 1⟩] }, fun _ => none, 1, 1⟩, 0,
      .inr ⟨⟨[1], some 1⟩, by simp, by simp, by simp⟩, rfl⟩⟩

/-- ValidForClient says whether there is a server name. -/
theorem C54_valid_client (m : Mem) (a : Nat) : m.validForClient a = true ↔ (m.configs a).serverName ≠ [] := by
  simp [Mem.validForClient, List.length_pos_iff]

example : ∃ (m : Mem), (m.init 0).configs 0 =
      { serverName := [97]
        groups := [29]
        cipherSuites := [0x1301, 0x1302]
        signatureSchemes := [0x0804, 0x0805, 0x0806, 0x0403, 0x0503, 0x0603]
        ticketLen := 16
        psks := some 5
        pskModes := [0, 1] } ∧
    (m.init 0).validForClient 0 = true ∧ (m.init 0).validForServer 0 = .ok false :=
  ⟨⟨fun _ => { serverName := [97], groups := [29] }, fun _ => none, 1, 5⟩, rfl, rfl, rfl⟩

end Verif.Conn

namespace Verif.Props

open Verif Verif.Crypto Verif.Messages Verif.Negotiation Verif.Handshake Verif.Machine Verif.Spec

/-- The material is needed: a server that has answered a ClientHello other than by a retry holds a PSK for some identity or
has a certificate. -/
theorem C54_material_needed (E : Env) (hP : E.P.Sized) (x x' : Ctx) (cfg : Config) (es : List (Event × Coins)) (s : SState)
    (acts : List Action) (h : serverRun E x cfg es = .ok (s, acts, x')) (hs : ∀ s0, s ≠ .start s0) :
    (∃ id k, cfg.psks id = some k) ∨ cfg.certificates ≠ [] := by
  rcases serverFlight hP h with ⟨s0, rfl⟩ | ⟨⟨w⟩⟩
  · exact absurd rfl (hs s0)
  · cases w.auth with
    | psk sel _ =>
      have := w.pskOk
      revert this
      generalize w.psk = o at sel
      intro h
      cases h with
      | none => cases sel
      | selected i ids binders id b k p base trunc _ _ _ hk => exact .inl ⟨_, k, hk⟩
    | cert _ c own =>
      refine .inr fun e => ?_
      rw [e] at own; cases own

example : ∃ s acts x', serverRun Toy.env Toy.tls Toy.serverCfg (Toy.exchange Toy.tls Toy.clientCfg Toy.serverCfg 2).2 =
    .ok (.connected s, acts, x') :=
  Toy.serverDone_ok (by decide +kernel)

end Verif.Props
