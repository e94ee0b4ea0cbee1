/-
A reader for tab-separated records (RFC 4180 with a tab instead of the comma and LF as line end), written
independently of the writer.
-/
import Verif.Base.Str

namespace Verif.Spec.Csv

/-- Where the reader is. -/
inductive Mode where
  | fieldStart | plain | quoted | quoteInQuoted
  deriving DecidableEq

/-- `field` and `row` are what has been read of the current field (reversed) and row (reversed). `none`: not
a well-formed file. -/
def scan : Mode → Str → List Str → Str → Option (List (List Str))
  | mode, _, row, [] => if mode = .fieldStart ∧ row = [] then some [] else none
  | .fieldStart, field, row, c :: cs =>
    if c = '"' then scan .quoted [] row cs
    else if c = '\t' then scan .fieldStart [] ([] :: row) cs
    else if c = '\n' then (scan .fieldStart [] [] cs).map (fun rows => ([] :: row).reverse :: rows)
    else if c = '\r' then none
    else scan .plain (c :: field) row cs
  | .plain, field, row, c :: cs =>
    if c = '"' ∨ c = '\r' then none
    else if c = '\t' then scan .fieldStart [] (field.reverse :: row) cs
    else if c = '\n' then (scan .fieldStart [] [] cs).map (fun rows => (field.reverse :: row).reverse :: rows)
    else scan .plain (c :: field) row cs
  | .quoted, field, row, c :: cs =>
    if c = '"' then scan .quoteInQuoted field row cs else scan .quoted (c :: field) row cs
  | .quoteInQuoted, field, row, c :: cs =>
    if c = '"' then scan .quoted (c :: field) row cs
    else if c = '\t' then scan .fieldStart [] (field.reverse :: row) cs
    else if c = '\n' then (scan .fieldStart [] [] cs).map (fun rows => (field.reverse :: row).reverse :: rows)
    else none

/-- The records of a file. -/
def records (s : Str) : Option (List (List Str)) := scan .fieldStart [] [] s

end Verif.Spec.Csv
