import Verif.Syntax.Tags

/-
Logging (log.go). Strings are lists of characters. What a line looks like after formatting its arguments is not modelled.
-/

namespace Verif.Log

open Verif.Syntax

/-- `logAll` and `logSettings` (log.go:26-27); the map by the list of tags put in. -/
structure Settings where
  all : Bool := false
  tags : List (List Char) := []
  deriving DecidableEq

/-- `logConfigVar + "="` (log.go:12, 36). -/
def logPrefix : List Char := "MINT_LOG=".toList

/-- The body of the loop of `parseLogEnv`, log.go:36-46. -/
def parseStmt (s : Settings) (stmt : List Char) : Settings :=
  if logPrefix.isPrefixOf stmt then
    let val := stmt.drop logPrefix.length
    if val = ['*'] then { s with all := true } else { s with tags := s.tags ++ splitC ',' val }
  else s

/-- `parseLogEnv`, log.go:34-48. -/
def parseLogEnv (s : Settings) (env : List (List Char)) : Settings := env.foldl parseStmt s

/-- `logf`, log.go:50-55: the format given to the log function, `none` if it is not called. -/
def logf (s : Settings) (tag format : List Char) : Option (List Char) :=
  if s.all || s.tags.contains tag then some ("[".toList ++ tag ++ "] ".toList ++ format) else none

end Verif.Log
