/-
The environment variable for logging (C96): a list of tags separated by commas, or a star.
-/

namespace Verif.Spec

/-- A tag stands between commas, or the ends, of a list. -/
def Listed (tag list : List Char) : Prop :=
  ',' ∉ tag ∧ ∃ before after, list = before ++ tag ++ after ∧
    (before = [] ∨ ∃ b, before = b ++ [',']) ∧ (after = [] ∨ ∃ a, after = ',' :: a)

/-- Some setting of MINT_LOG among the environment asks for the tag. -/
def Asked (env : List (List Char)) (tag : List Char) : Prop :=
  ∃ value, "MINT_LOG=".toList ++ value ∈ env ∧ (value = ['*'] ∨ Listed tag value)

end Verif.Spec
