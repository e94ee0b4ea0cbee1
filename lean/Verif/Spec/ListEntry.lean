/-
What a list entry means (specification, independent of the cache code).
-/
import Verif.Spec.Domain
import Verif.Model.StringCache

namespace Verif.Spec
open StringCache (RegexEngine)

/-- Written between slashes: a regular expression. -/
def IsRegexEntry (e : Str) : Prop := ∃ body, e = '/' :: body ++ ['/']

/-- A regex entry matches when its (trimmed) body compiles and matches the name. -/
def RegexEntryMatches (E : RegexEngine) (e s : Str) : Prop :=
  ∃ body r, e = '/' :: body ++ ['/'] ∧ E.compile (trimSpace body) = some r ∧ E.isMatch r s = true

/-- A wildcard entry `*.dom` (with no other star and at least one label) matches the names that
are `dom` (in lower case) or lie below it. -/
def WildcardEntryMatches (e s : Str) : Prop :=
  ∃ dom, e = '*' :: '.' :: dom ∧ '*' ∉ dom ∧ labels dom ≠ [] ∧ IsWithin s (lower dom)

/-- A plain entry matches the name that is equal up to case. -/
def PlainEntryMatches (e s : Str) : Prop := e ≠ [] ∧ lower e = lower s

/-- What an entry means: regexes first, then anything with a star, then plain names. -/
def EntryMatches (E : RegexEngine) (e s : Str) : Prop :=
  RegexEntryMatches E e s ∨
  (¬ IsRegexEntry e ∧ '*' ∈ e ∧ WildcardEntryMatches e s) ∨
  (¬ IsRegexEntry e ∧ '*' ∉ e ∧ PlainEntryMatches e s)

end Verif.Spec
