import Verif.Basic

/-
Vocabulary for stating which element of a preference list is chosen.
-/

namespace Verif.Spec

/-- `a` is the first element of `l` that satisfies `p`. -/
def IsFirst {α : Type} (p : α → Prop) (l : List α) (a : α) : Prop :=
  ∃ pre post, l = pre ++ a :: post ∧ p a ∧ ∀ x ∈ pre, ¬ p x

theorem isFirst_cons_self {α : Type} {p : α → Prop} {a : α} (l : List α) (h : p a) : IsFirst p (a :: l) a :=
  ⟨[], l, rfl, h, by simp⟩

theorem isFirst_cons {α : Type} {p : α → Prop} {x a : α} {l : List α} (hx : ¬ p x) (h : IsFirst p l a) :
    IsFirst p (x :: l) a := by
  obtain ⟨pre, post, rfl, ha, hpre⟩ := h
  refine ⟨x :: pre, post, rfl, ha, ?_⟩
  intro y hy
  rcases List.mem_cons.mp hy with rfl | hy
  · exact hx
  · exact hpre y hy

theorem isFirst_cons_iff {α : Type} {p : α → Prop} {x a : α} {l : List α} :
    IsFirst p (x :: l) a ↔ (p x ∧ a = x) ∨ (¬ p x ∧ IsFirst p l a) := by
  constructor
  · rintro ⟨pre, post, he, ha, hpre⟩
    cases pre with
    | nil =>
      simp only [List.nil_append, List.cons.injEq] at he
      exact .inl ⟨he.1 ▸ ha, he.1.symm⟩
    | cons y pre =>
      simp only [List.cons_append, List.cons.injEq] at he
      obtain ⟨rfl, rfl⟩ := he
      exact .inr ⟨hpre x (by simp), pre, post, rfl, ha, fun z hz => hpre z (by simp [hz])⟩
  · rintro (⟨h, rfl⟩ | ⟨h, h'⟩)
    · exact isFirst_cons_self l h
    · exact isFirst_cons h h'

theorem not_isFirst_nil {α : Type} {p : α → Prop} {a : α} : ¬ IsFirst p [] a := by
  rintro ⟨pre, post, he, _⟩
  simp at he

theorem IsFirst.mem {α : Type} {p : α → Prop} {a : α} {l : List α} (h : IsFirst p l a) : a ∈ l := by
  obtain ⟨pre, post, rfl, _⟩ := h; simp

theorem IsFirst.prop {α : Type} {p : α → Prop} {a : α} {l : List α} (h : IsFirst p l a) : p a := h.choose_spec.choose_spec.2.1

end Verif.Spec
