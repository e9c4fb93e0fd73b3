import Verif.Spec.Compatible
import Verif.Messages.Fits
import Verif.Machine.Hello
import Verif.Machine.ServerView

/-
Steps that succeed: making messages, and reading those the other end made.
-/

namespace Verif.Machine

open Verif Verif.Crypto Verif.Messages Verif.Negotiation Verif.Handshake Verif.Spec

@[simp] theorem arrived_type (d : Bool) (m : Msg) : (arrived d m).msgType = m.msgType := by cases d <;> rfl
@[simp] theorem arrived_body (d : Bool) (m : Msg) : (arrived d m).body = m.body := by cases d <;> rfl
@[simp] theorem arrived_length (d : Bool) (m : Msg) : (arrived d m).length = m.length := by cases d <;> rfl

theorem bytes_arrived {x : Ctx} {d : Bool} (h : x.datagram = d) (m : Msg) : x.bytes (arrived d m) = x.bytes m := by
  subst h
  cases hd : x.datagram <;> simp [arrived, Ctx.bytes, Msg.marshal, hd]

theorem bytes_same {x y : Ctx} {d : Bool} (hx : x.datagram = d) (hy : y.datagram = d) (m : Msg) :
    y.bytes (arrived d m) = x.bytes m := by
  rw [bytes_arrived hy, bytes_congr (hy.trans hx.symm)]

theorem mkMsg_fits {b : Body} {d : Bytes} (x : Ctx) (h : b.marshal = .ok d) : ∃ m x', mkMsg x b = .ok (m, x') := by
  exact ⟨_, _, by rw [mkMsg, h, Res.bind_ok]⟩

theorem addAll_fits : ∀ (el : List Ext) (bs : List ExtBody), (∀ b ∈ bs, ∃ d, b.marshal = .ok d) → ∃ r, addAll el bs = .ok r
  | el, [], _ => ⟨el, rfl⟩
  | el, b :: bs, h => by
    obtain ⟨d, hd⟩ := h b (by simp)
    obtain ⟨r, hr⟩ := addAll_fits (setExt b.kind.type d el) bs fun b' hb' => h b' (List.mem_cons_of_mem _ hb')
    exact ⟨r, by rw [addAll, addExt, hd, Res.bind_ok, Res.bind_ok]; exact hr⟩

theorem extsSize_bodies (bs : List ExtBody) (f : ExtBody → Nat) (h : ∀ b ∈ bs, (bodyData b).length ≤ f b) :
    extsSize (bs.map bodyExt) ≤ Syntax.sumBy (fun b => 4 + f b) bs := by
  induction bs with
  | nil => simp [extsSize]
  | cons b bs ih =>
    have := ih fun b' hb' => h b' (List.mem_cons_of_mem _ hb')
    have := h b (by simp)
    simp only [extsSize, List.map_cons, Syntax.sumBy_cons, bodyExt] at *
    omega

/-- Reading a list of extensions made by adding extensions of different types. -/
theorem parse_bodies {bs : List ExtBody} {ks : List ExtKind} (hn : (bs.map fun b => b.kind.type).Nodup)
    (hm : ∀ b ∈ bs, b.marshal = .ok (bodyData b)) (he : ∀ b ∈ bs, expressible b) (hks : (ks.map ExtKind.type).Nodup)
    (hk : ∀ b ∈ bs, ∀ k ∈ ks, b.kind.type = k.type → b.kind = k) :
    ∃ found, parseExts (bs.map bodyExt) ks = .ok found ∧
      ∀ {α : Type} (f : ExtBody → Option α) (k : ExtKind), k ∈ ks → (∀ b, (f b).isSome → b.kind.type = k.type) →
        found.findSome? f = (bs.find? fun b => b.kind.type == k.type).bind fun b => f (contents b) := by
  have hdata : ∀ k ∈ ks, (dataOf k.type (bs.map bodyExt) = [] ∧ (bs.find? fun b => b.kind.type == k.type) = none) ∨
      ∃ b ∈ bs, b.kind = k ∧ (bs.find? fun b => b.kind.type == k.type) = some b ∧
        dataOf k.type (bs.map bodyExt) = [bodyData b] := by
    intro k hkk
    cases hf : bs.find? fun b => b.kind.type == k.type with
    | none =>
      refine Or.inl ⟨?_, rfl⟩
      rw [List.find?_eq_none] at hf
      simp only [dataOf, List.map_eq_nil_iff, List.filter_eq_nil_iff, List.mem_map, forall_exists_index, and_imp]
      rintro e b hb rfl
      simpa [bodyExt] using hf b hb
    | some b =>
      have hb := List.mem_of_find?_eq_some hf
      have ht := List.find?_some hf
      have ht' : b.kind.type = k.type := by simpa using ht
      refine Or.inr ⟨b, hb, hk b hb k hkk ht', rfl, ?_⟩
      rw [← ht']
      exact dataOf_bodies hn hb
  have hread : ∀ b ∈ bs, safeUnmarshal b.kind.unmarshal (bodyData b) = .ok (contents b) := fun b hb =>
    C31_extension_roundtrip_partial b _ (he b hb) (hm b hb)
  obtain ⟨found, hfound⟩ := C30_parse_accepts (bs.map bodyExt) ks hks
    (fun k hkk => by
      rcases hdata k hkk with ⟨h, _⟩ | ⟨b, _, _, _, h⟩ <;> rw [h] <;> simp)
    (fun k hkk d hd => by
      rcases hdata k hkk with ⟨h, _⟩ | ⟨b, hb, rfl, _, h⟩
      · rw [h] at hd; cases hd
      · rw [h, List.mem_singleton] at hd
        subst hd
        exact ⟨_, hread b hb⟩)
  refine ⟨found, hfound, fun f k hkk hf => ?_⟩
  rcases parsed_findSome f hks hfound hkk hf with ⟨h1, h2⟩ | ⟨d, b, h1, h2, h3, h4⟩
  · rcases hdata k hkk with ⟨_, h⟩ | ⟨b, _, _, _, h⟩
    · rw [h, h2]; rfl
    · rw [h] at h1; cases h1
  · rcases hdata k hkk with ⟨h, _⟩ | ⟨b', hb', rfl, hfind, h⟩
    · rw [h] at h1; cases h1
    · rw [h, List.cons.injEq] at h1
      rw [← h1.1, hread b' hb', Res.ok.injEq] at h2
      rw [h4, hfind, ← h2]; rfl

/-! ### What each accessor looks for -/

theorem isSome_shares (b : ExtBody) : (asShares b).isSome → b.kind.type = (51 : UInt16) := by
  cases b <;> simp [asShares, ExtBody.kind, ExtKind.type]
theorem isSome_psk (b : ExtBody) : (asPsk b).isSome → b.kind.type = (41 : UInt16) := by
  cases b <;> simp [asPsk, ExtBody.kind, ExtKind.type]
theorem isSome_alpn (b : ExtBody) : (asAlpn b).isSome → b.kind.type = (16 : UInt16) := by
  cases b <;> simp [asAlpn, ExtBody.kind, ExtKind.type]
theorem isSome_early (b : ExtBody) : (asEarlyData b).isSome → b.kind.type = (42 : UInt16) := by
  cases b <;> simp [asEarlyData, ExtBody.kind, ExtKind.type]
theorem isSome_versions (b : ExtBody) : (asVersions b).isSome → b.kind.type = (43 : UInt16) := by
  cases b <;> simp [asVersions, ExtBody.kind, ExtKind.type]
theorem isSome_serverName (b : ExtBody) : (asServerName b).isSome → b.kind.type = (0 : UInt16) := by
  cases b <;> simp [asServerName, ExtBody.kind, ExtKind.type]
theorem isSome_groups (b : ExtBody) : (asGroups b).isSome → b.kind.type = (10 : UInt16) := by
  cases b <;> simp [asGroups, ExtBody.kind, ExtKind.type]
theorem isSome_sigAlgs (b : ExtBody) : (asSigAlgs b).isSome → b.kind.type = (13 : UInt16) := by
  cases b <;> simp [asSigAlgs, ExtBody.kind, ExtKind.type]
theorem isSome_modes (b : ExtBody) : (asModes b).isSome → b.kind.type = (45 : UInt16) := by
  cases b <;> simp [asModes, ExtBody.kind, ExtKind.type]
theorem isSome_cookie (b : ExtBody) : (asCookie b).isSome → b.kind.type = (44 : UInt16) := by
  cases b <;> simp [asCookie, ExtBody.kind, ExtKind.type]

/-! ### Key agreement -/

theorem dhWorks_size {D : Dh} {g : UInt16} (h : DhWorks D g) {n : Nat} {pub priv : Bytes}
    (hk : newKeyShare D n g.toNat = .ok (pub, priv)) : pub.length = keyExchangeSize g.toNat ∧ 0 < pub.length := by
  obtain ⟨z, hz, _⟩ := h.agree _ _ _ _ _ _ hk hk
  have hl : pub.length = keyExchangeSize g.toNat := by
    simp only [keyAgreement] at hz
    repeat' split at hz
    all_goals first | cases hz; done | (rename_i h; simpa using h) | skip
    all_goals (rename_i h _; simpa using h)
  refine ⟨hl, ?_⟩
  rw [hl]
  simp only [newKeyShare] at hk
  split at hk
  · rename_i hc
    simp only [isCurve, isFfdhe, Bool.or_eq_true, beq_iff_eq, Bool.and_eq_true, decide_eq_true_eq] at hc
    unfold keyExchangeSize
    repeat' split
    all_goals omega
  · cases hk

end Verif.Machine
