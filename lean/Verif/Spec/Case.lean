/-
Specification vocabulary: messages that are equal but for the letter case of names.
-/
import Verif.Model.Dns

namespace Verif.Spec
open Dns

/-- The question with its name in lower case. -/
def foldQuestion (q : Question) : Question := { q with name := lower q.name }

/-- Names in record data in lower case. -/
def foldData : RData → RData
  | .cname t => .cname (lower t)
  | .ptr t => .ptr (lower t)
  | d => d

/-- The record with its names in lower case. -/
def foldRecord (r : RR) : RR := { r with name := lower r.name, data := foldData r.data }

/-- The message with all names in lower case. -/
def foldNames (m : Msg) : Msg :=
  { m with
    question := m.question.map foldQuestion
    answer := m.answer.map foldRecord
    ns := m.ns.map foldRecord
    extra := m.extra.map foldRecord }

/-- Equal but for the letter case of names: same header, same response code, same questions, records and TTLs. -/
def Alike (m m' : Msg) : Prop := foldNames m = foldNames m'

/-- The same query, with the name asked for in other letter case. -/
def OtherCase (m m' : Msg) : Prop :=
  ∃ q q' : Question, m.question = [q] ∧ lower q.name = lower q'.name ∧ q.qtype = q'.qtype ∧ q.qclass = q'.qclass ∧
    m' = { m with question := [q'] }

end Verif.Spec
