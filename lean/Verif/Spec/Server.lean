/-
What a matching response is.
-/
import Verif.Model.Dns

namespace Verif.Spec
open Dns

/-- `r` is a response to the query `q`: its id and its question, as reply. (Only the first question
counts.) -/
def Replies (q r : Msg) : Prop := r.id = q.id ∧ r.response = true ∧ r.question = q.question.take 1

/-- Names that differ in case only. -/
def SameNames (a b : List Question) : Prop :=
  a.map (fun q => (lower q.name, q.qtype, q.qclass)) = b.map (fun q => (lower q.name, q.qtype, q.qclass))

/-- Like `Replies`, the case of the question's name aside. -/
def RepliesFold (q r : Msg) : Prop := r.id = q.id ∧ r.response = true ∧ SameNames r.question (q.question.take 1)

/-- The smallest of a list of TTLs. -/
def IsSmallest (ttls : List UInt32) (t : UInt32) : Prop := t ∈ ttls ∧ ∀ x ∈ ttls, t ≤ x

end Verif.Spec
