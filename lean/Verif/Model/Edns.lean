/-
Model of /repo/util/edns0.go.
-/
import Verif.Model.Dns

namespace Verif.Dns

/-- The options of the last OPT record of a section (miekg/dns `Msg.IsEdns0` walks the additional
section from its end). -/
def lastOpt : List RR → Option (List EOption)
  | [] => none
  | r :: rs =>
    match lastOpt rs with
    | some o => some o
    | none => match r.data with
      | .opt o => some o
      | _ => none

/-- miekg/dns `Msg.IsEdns0`: the OPT record's options, if there is an OPT record. -/
def Msg.edns0 (m : Msg) : Option (List EOption) := lastOpt m.extra

/-- Replace the options of the last OPT record. -/
def updateLastOpt (f : List EOption → List EOption) : List RR → List RR
  | [] => []
  | r :: rs =>
    if (lastOpt rs).isSome then r :: updateLastOpt f rs
    else match r.data with
      | .opt o => { r with data := .opt (f o) } :: rs
      | _ => r :: rs

/-- Delete the first OPT record. -/
def dropFirstOpt : List RR → List RR
  | [] => []
  | r :: rs => if r.isOpt then rs else r :: dropFirstOpt rs

/-- edns0.go 18-32 `RemoveEdns0Record`. -/
def removeEdns0Record (m : Msg) : Msg := { m with extra := dropFirstOpt m.extra }

/-- edns0.go 37-61 `GetEdns0Option` for an option code: the first option with that code. -/
def getEdns0Option (m : Msg) (code : Nat) : Option EOption :=
  match m.edns0 with
  | none => none
  | some os => os.find? (fun o => o.code == code)

/-- Delete the first option with the code. -/
def dropFirstCode (code : Nat) : List EOption → List EOption
  | [] => []
  | o :: os => if o.code = code then os else o :: dropFirstCode code os

/-- edns0.go 67-96 `RemoveEdns0Option`: the first option with the code goes; if the OPT record then
has no options, an OPT record is removed. -/
def removeEdns0Option (m : Msg) (code : Nat) : Msg :=
  match m.edns0 with
  | none => m
  | some os =>
    let m' := { m with extra := updateLastOpt (dropFirstCode code) m.extra }
    if (dropFirstCode code os).isEmpty then removeEdns0Record m' else m'

/-- edns0.go 109-113: the OPT record that is added when there is none. -/
def freshOpt (os : List EOption) : RR :=
  { name := ['.'], rtype := typeOPT, cls := 0, ttl := 0, data := .opt os }

/-- edns0.go 102-128 `SetEdns0Option`. -/
def setEdns0Option (m : Msg) (o : EOption) : Msg :=
  match m.edns0 with
  | none => { m with extra := m.extra ++ [freshOpt [o]] }
  | some _ =>
    { m with extra := updateLastOpt (fun os => os.filter (fun x => x.code ≠ o.code) ++ [o]) m.extra }

end Verif.Dns
