/-
Model of how the configuration is found and read: /repo/config/config.go 442-540 (`LoadConfig`,
`readFromDir`, `isRegularFile`, `unmarshalConfig`), /repo/cmd/root.go 64-105 (`apiURL`, `initConfig`),
/repo/cmd/validate.go 23-40 and the loading done by /repo/cmd/serve.go.

The file system is a tree that does not change meanwhile. YAML decoding, migration of old options and
validation are a parameter (`Decoder`).
-/
import Verif.Model.UpstreamUrl

namespace Verif.ConfigFiles

mutual
/-- What `os.Stat` and `os.ReadFile`/`os.ReadDir` find under a name inside a directory. -/
inductive Node where
  /-- A regular file or a symbolic link to one; `none` if it cannot be read. -/
  | file (content : Option Str)
  /-- A socket, a device, or a symbolic link to a directory: `filepath.WalkDir` follows no links. -/
  | special
  /-- `os.Stat` fails, as for a link to nothing. -/
  | broken
  /-- A directory and its entries. -/
  | dir (entries : Nodes)
  /-- A directory that cannot be listed. -/
  | locked
/-- The entries of a directory, in the order of `os.ReadDir` (sorted by name). -/
inductive Nodes where
  | nil
  | cons (name : Str) (node : Node) (rest : Nodes)
end

/-- config.go 515-517: is this the name of a YAML file? The code looks at the end of the path; a path ends in
`.yml` exactly if the last component does. -/
def isYaml (name : Str) : Bool := (str! ".yml").isSuffixOf name || (str! ".yaml").isSuffixOf name

mutual
/-- config.go 504-540, the callback of `filepath.WalkDir` and its descent, for one entry: the text read so
far grows by a line break and the content. `none` is an error, which ends the walk. -/
def readNode (name : Str) (node : Node) (data : Str) : Option Str :=
  match node with
  | .file (some content) => if isYaml name then some (data ++ (str! "\n" ++ content)) else some data
  | .file none => if isYaml name then none else some data
  | .special => some data
  | .broken => if isYaml name then none else some data
  | .dir entries => readNodes entries data
  | .locked => none
/-- The entries of a directory one after the other. -/
def readNodes (entries : Nodes) (data : Str) : Option Str :=
  match entries with
  | .nil => some data
  | .cons name node rest =>
    match readNode name node data with
    | some data' => readNodes rest data'
    | none => none
end

/-- What `os.Stat` finds at the path of the configuration. -/
inductive Root where
  | missing
  /-- Another error than "does not exist". -/
  | denied
  | file (content : Option Str)
  | dir (entries : Nodes)
  /-- A symbolic link to a directory: `os.Stat` follows it. -/
  | linkToDir (entries : Nodes)

/-- Decoding of the text. -/
structure Decoder (C : Type) where
  /-- `yaml.UnmarshalStrict` over the defaults, migration and validation (config.go 554-575). -/
  decode : Str → Option C
  /-- The defaults. -/
  defaults : C
  /-- `cfg.Ports.HTTP`. -/
  http : C → List Str

/-- config.go 504-540 `readFromDir`: `filepath.WalkDir` does not follow a link given as root either: the
callback is called for the root alone. -/
def readFromDir : Root → Option Str
  | .dir entries => readNodes entries []
  | .linkToDir _ => some []
  | _ => none

/-- config.go 449-502 `loadConfig`; `none` is an error. -/
def load {C : Type} (d : Decoder C) (mandatory : Bool) : Root → Option C
  | .missing => if mandatory then none else some d.defaults
  | .denied => none
  | .file content => match content with
    | some text => d.decode text
    | none => none
  | .dir entries => match readFromDir (.dir entries) with
    | some text => d.decode text
    | none => none
  | .linkToDir entries => match readFromDir (.linkToDir entries) with
    | some text => d.decode text
    | none => none

/-- root.go 26 `defaultConfigPath`. -/
def defaultConfigPath : Str := str! "./config.yml"

/-- The environment variables `BLOCKY_CONFIG_FILE` and `CONFIG_FILE` (root.go 27-28). -/
structure Env where
  current : Option Str
  old : Option Str

/-- root.go 73-84: the path used, from the one given by `--config` (or its default). -/
def pathUsed (env : Env) (path : Str) : Str :=
  if path = defaultConfigPath then
    match env.current with
    | some v => v
    | none =>
      match env.old with
      | some v => v
      | none => path
  else path

/-- Where the commands look for the API: the variables `apiHost` and `apiPort` (root.go 19-20). -/
structure ApiAddr where
  host : Str
  port : Nat
  deriving DecidableEq

/-- root.go 93-107: the address taken from the first HTTP listener; `none` is an error. -/
def apiAddr (flags : ApiAddr) : List Str → Option ApiAddr
  | [] => some flags
  | listen :: _ =>
    let parts := splitChar ':' listen
    match UpstreamUrl.convertPort (parts.getLastD []) with
    | some port => some ⟨joinChar ':' parts.dropLast, port⟩
    | none => none

/-- root.go 73-110 `initConfig`: the path and the address of the API afterwards. -/
def initConfig {C : Type} (d : Decoder C) (fs : Str → Root) (env : Env) (path : Str) (flags : ApiAddr) :
    Option (Str × ApiAddr) :=
  match load d false (fs (pathUsed env path)) with
  | some cfg =>
    match apiAddr flags (d.http cfg) with
    | some a => some (pathUsed env path, a)
    | none => none
  | none => none

/-- serve.go 39-48 after `initConfigPreRun` (root.go 42, serve.go 29): the configuration the server starts
with. -/
def serveConfig {C : Type} (d : Decoder C) (fs : Str → Root) (env : Env) (path : Str) (flags : ApiAddr) : Option C :=
  match initConfig d fs env path flags with
  | some (used, _) => load d true (fs used)
  | none => none

/-- validate.go 23-40: does the command say that the configuration is valid? -/
def validate {C : Type} (d : Decoder C) (fs : Str → Root) (env : Env) (path : Str) (flags : ApiAddr) : Bool :=
  match fs path with
  | .missing => false
  | _ => (initConfig d fs env path flags).isSome

/-- Go `net.JoinHostPort`. -/
def joinHostPort (host port : Str) : Str :=
  if ':' ∈ host then str! "[" ++ host ++ str! "]:" ++ port else host ++ str! ":" ++ port

/-- root.go 64-66 `apiURL`, without `http://` and `/api`: the authority of the URL. -/
def apiAuthority (a : ApiAddr) : Str := joinHostPort a.host (Nat.toDigits 10 a.port)

/-- Go `url.URL.Hostname` and `Port` (net/url/url.go `splitHostPort`) for an authority that ends in a colon and
digits. -/
def hostname (authority : Str) : Str × Str :=
  match UpstreamUrl.cutLast ':' authority with
  | some (h, p) =>
    match h with
    | '[' :: rest => if rest.getLast? = some ']' then (rest.dropLast, p) else (h, p)
    | _ => (h, p)
  | none => (authority, [])

/-- The host and the port an HTTP client connects to (net/http/transport.go `canonicalAddr`, then
`net.SplitHostPort` in `net.Dial`); `none` is an error. An empty host is the local system. -/
def dialed (authority : Str) : Option (Str × Str) :=
  UpstreamUrl.splitHostPort (joinHostPort (hostname authority).1 (hostname authority).2)

end Verif.ConfigFiles
