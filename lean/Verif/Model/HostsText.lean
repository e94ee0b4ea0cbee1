/-
Model of how the text of hosts files becomes the entries that are loaded: /repo/lists/parsers/hosts.go 127-186 and
/repo/resolver/hosts_file_resolver.go 217-251. `Verif.Parsers.hostsFileEntry` keeps the printed form of the address
(lists need nothing else); here the address itself is kept.
-/
import Verif.Model.Refreshing

namespace Verif.HostsText
open Dns Lists

/-- hosts.go 138-186 `HostsFileEntry.UnmarshalText`; `parseIP` is `net.ParseIP`. -/
def entry (parseIP : Str → Option IP) (data : Str) : Option HostsFile.Entry :=
  match Parsers.fields data with
  | [] => none
  | ipStr :: hosts =>
    match parseIP (ipStr.takeWhile (· ≠ '%')) with
    | none => none
    | some ip =>
      if hosts.all Parsers.validDomainName then
        match hosts with
        | [] => none
        | h :: hs => some { ip := ip, interface := (ipStr.dropWhile (· ≠ '%')).drop 1, name := h, aliases := hs }
      else none

/-- hosts_file_resolver.go 217-251 `parseFile`, with parser.go 35-59 and filtererrors.go: a hosts file as its producer
sees it. An entry that is not admitted (235-246) sends nothing. -/
def source (parseIP : Str → Option IP) (maxErrors : Option Nat) (filterLoopback : Bool) :
    SourceState → Refreshing.Src HostsFile.Entry
  | .openFails e => { openErr := some e, lines := [], lenient := false }
  | .opened s =>
    let r := Parsers.parseSource (entry parseIP) maxErrors s
    { lines := r.1.map (fun e => if HostsFile.admitted filterLoopback e then [e] else [])
      endErr := if r.2.isSome then some .other else none
      lenient := false }

end Verif.HostsText
