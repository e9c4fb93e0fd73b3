import Verif.Conn.Receiving
import Verif.Machine.Toy

/-
The toy world with connections: an AEAD whose tag is the key and the nonce, and a check that none of some frames is a
forgery in this world. Used for examples, and as the witness where the code does not have a property.
-/

namespace Verif.Toy

open Verif Verif.Crypto Verif.Messages Verif.Negotiation Verif.Handshake Verif.Machine Verif.Spec Verif.Conn Verif.Record

/-- The tag: key and nonce, if they have the usual lengths. -/
def tag (key nonce : Bytes) : Bytes :=
  if nonce.length = 12 then (key ++ nonce ++ List.replicate 28 0).take 28 else List.replicate 28 255

theorem tag_length (key nonce : Bytes) : (tag key nonce).length = 28 := by
  unfold tag; split
  · simp; omega
  · simp

def aead (key : Bytes) : Aead where
  overhead := 28
  sealing n p _ := p ++ tag key n
  opening n c _ := if 28 ≤ c.length ∧ c.drop (c.length - 28) = tag key n then some (c.take (c.length - 28)) else none

theorem aead_lawful (key : Bytes) : (aead key).Lawful := by
  refine ⟨fun n p h => by simp [aead, tag_length], fun n p h => ?_, fun n c h p hp => ?_⟩
  · simp only [aead, List.length_append, tag_length, Nat.add_sub_cancel]
    rw [if_pos ⟨by omega, by simp⟩]
    simp
  · simp only [aead] at hp ⊢
    split at hp
    · rename_i hl
      simp only [Option.some.injEq] at hp
      subst hp
      rw [List.length_take]
      omega
    · simp at hp

def world : World := ⟨env, fun _ k => aead k⟩

theorem world_lawful : world.Lawful := fun _ k => aead_lawful k

/-! ### Checking for forgeries -/

/-- Whether something was sealed under the keys of generation `g` with a nonce. -/
def sealedAt (iv : Bytes) (g : Nat) (nonce p : Bytes) : List Item → Nat × Nat → Bool
  | [], _ => false
  | .record ct f pad :: is, (g', j) =>
    (g' == g && (match computeNonce ⟨0, 0, iv, none⟩ j with | .ok n => n == nonce | _ => false) && p == innerPlaintext ct f pad) ||
      sealedAt iv g nonce p is (g', j + 1)
  | .rekey _ _ _ :: is, (g', _) => sealedAt iv g nonce p is (g' + 1, 0)

theorem sealedAt_sound {iv : Bytes} {g : Nat} {nonce p : Bytes} (is : List Item) (pos : Nat × Nat) (h : sealedAt iv g nonce p is pos = true) :
    ∃ pre ct f pad post j, is = pre ++ .record ct f pad :: post ∧ position pre pos = (g, j) ∧
      computeNonce ⟨0, 0, iv, none⟩ j = .ok nonce ∧ p = innerPlaintext ct f pad := by
  induction is generalizing pos with
  | nil => simp [sealedAt] at h
  | cons i is ih =>
    obtain ⟨g', j⟩ := pos
    cases i with
    | record ct f pad =>
      simp only [sealedAt, Bool.or_eq_true, Bool.and_eq_true, beq_iff_eq] at h
      rcases h with ⟨⟨rfl, h2⟩, h3⟩ | h
      · split at h2
        · rename_i n hn
          simp only [beq_iff_eq] at h2
          subst h2
          exact ⟨[], ct, f, pad, is, j, rfl, rfl, hn, h3⟩
        · cases h2
      · obtain ⟨pre, ct', f', pad', post, j', h1, h2, h3⟩ := ih _ h
        exact ⟨.record ct f pad :: pre, ct', f', pad', post, j', by rw [h1]; rfl, h2, h3⟩
    | rekey e a iv' =>
      simp only [sealedAt] at h
      obtain ⟨pre, ct', f', pad', post, j', h1, h2, h3⟩ := ih _ h
      exact ⟨.rekey e a iv' :: pre, ct', f', pad', post, j', by rw [h1]; rfl, h2, h3⟩

/-- Whether a frame is genuine for a generation of keys. -/
def genuine (k : Machine.Keys) (g : Nat) (log : List Item) : FrameEvent → Bool
  | .ok (_, body) =>
    let t := body.drop (body.length - 28)
    k.1.length == 16 && t != List.replicate 28 255 &&
      (t.take 16 != k.1 || sealedAt k.2 g (t.drop 16) (body.take (body.length - 28)) log (0, 0))
  | _ => true

def noForgery (cp : Params) (fromClient : Bool) (s : Bytes) (log : List Item) (frames : List FrameEvent) : Bool :=
  (List.range ((position log (0, 0)).1 + 1)).all fun g => frames.all (genuine (generation world cp fromClient s g) g log)

theorem noForgery_ok {cp : Params} {b : Bool} {s : Bytes} {log : List Item} {frames : List FrameEvent}
    (h : noForgery cp b s log frames = true) : NoForgery world cp b s log frames := by
  intro g nonce header body p hg hm ho
  simp only [noForgery, List.all_eq_true, List.mem_range] at h
  have h := h g (by omega) _ hm
  simp only [genuine, Bool.and_eq_true, Bool.or_eq_true, beq_iff_eq, bne_iff_ne, ne_eq] at h
  obtain ⟨⟨h1, h2⟩, h3⟩ := h
  simp only [world, aead] at ho
  split at ho
  · rename_i hc
    obtain ⟨-, ht⟩ := hc
    simp only [Option.some.injEq] at ho
    subst ho
    unfold tag at ht
    split at ht
    · rename_i hn
      have ht' : (generation world cp b s g).1 ++ nonce = body.drop (body.length - 28) := by
        rw [ht]
        exact (List.take_left' (by rw [List.length_append, h1, hn])).symm
      rw [← ht'] at h3
      rcases h3 with h3 | h3
      · exact absurd (by rw [← h1, List.take_left]) h3
      · rw [← h1, List.drop_left] at h3
        exact sealedAt_sound _ _ h3
    · exact absurd ht h2
  · cases ho

def ordinary (fromClient : Bool) (log : List Item) : Bool :=
  log.all fun i => match i with
    | .record ct f _ => ct != 21 && (!fromClient || ct != 22 || f.head? == some 24)
    | _ => true

theorem ordinary_ok {b : Bool} {log : List Item} (h : ordinary b log = true) : Ordinary b log := by
  intro ct f pad hm
  simp only [ordinary, List.all_eq_true] at h
  have := h _ hm
  simp only [Bool.and_eq_true, Bool.or_eq_true, bne_iff_ne, ne_eq, Bool.not_eq_true', beq_iff_eq] at this
  refine ⟨this.1, fun hb hc => ?_⟩
  rcases this.2 with (h1 | h1) | h1
  · rw [hb] at h1; cases h1
  · exact absurd hc h1
  · exact h1

/-! ### A connection -/

/-- Whether both ends are connected, and the keys they installed and their states have a property. -/
def linked (f : Connected → Ctx → Machine.Keys → Machine.Keys → Connected → Ctx → Machine.Keys → Machine.Keys → Bool)
    (r : Res (CState × List Action × Ctx)) (r' : Res (SState × List Action × Ctx)) : Bool :=
  match r, r' with
  | .ok (.connected c, ca, x), .ok (.connected s, sa, x') =>
    match lastOut ca, lastIn ca, lastOut sa, lastIn sa with
    | some co, some ci, some so, some si => f c x co ci s x' so si
    | _, _, _, _ => false
  | _, _ => false

theorem linked_ok {f : Connected → Ctx → Machine.Keys → Machine.Keys → Connected → Ctx → Machine.Keys → Machine.Keys → Bool}
    {r : Res (CState × List Action × Ctx)} {r' : Res (SState × List Action × Ctx)} (h : linked f r r' = true) :
    ∃ c x co ci s x' so si ca sa, r = .ok (.connected c, ca, x) ∧ r' = .ok (.connected s, sa, x') ∧
      lastOut ca = some co ∧ lastIn ca = some ci ∧ lastOut sa = some so ∧ lastIn sa = some si ∧ f c x co ci s x' so si = true := by
  unfold linked at h
  split at h
  · split at h
    · exact ⟨_, _, _, _, _, _, _, _, _, _, rfl, rfl, ‹_›, ‹_›, ‹_›, ‹_›, h⟩
    · cases h
  · cases h

end Verif.Toy
