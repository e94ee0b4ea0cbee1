/-
Model of the routes of the HTTP server: /repo/server/server_endpoints.go 56-65, 175-268, /repo/metrics/metrics.go 21-28,
/repo/api/api_interface_impl.go 60-64, /repo/api/api_server.gen.go 306-323.

Of the library github.com/go-chi/chi v5 the model contains: `Mux.Handle`, `Get`, `Post`, `Mount` (mux.go), the endpoints
of a pattern (tree.go `setEndpoint`) and the search for a request (mux.go `routeHTTP`, tree.go `findRoute`), for the
patterns that occur: without parameters, with one parameter at the end, with `*` at the end. A path is what chi looks at:
`URL.RawPath` if there is one, else `URL.Path`. What the handlers of `/debug` (the profiler of chi), of the assets and of
the metrics answer is not modelled.
-/
import Verif.Model.Cli

namespace Verif.Routes

/-- The handlers. The pages below `/static/` and `/debug` get the rest of the path, the DNS queries the client id in the
path (empty if there is none). -/
inductive Target where
  | api (r : Cli.Route)
  | debug (rest : Str)
  | openapi
  | asset (rest : Str)
  | index
  | metrics
  | dohGet (client : Str)
  | dohPost (client : Str)
  deriving DecidableEq, Repr

/-- A pattern: a path, a path with a parameter after it (`p{x}`), a path with `*` after it. -/
inductive Pattern where
  | exact (p : Str)
  | seg (p : Str)
  | below (p : Str)
  deriving DecidableEq, Repr

/-- chi mux.go `methodMap`. -/
def chiMethods : List Str :=
  [str! "CONNECT", str! "DELETE", str! "GET", str! "HEAD", str! "OPTIONS", str! "PATCH", str! "POST", str! "PUT",
   str! "TRACE"]

/-- A registration: the pattern, the methods, the handler for the rest of the path. -/
structure Row where
  pattern : Pattern
  methods : List Str
  handler : Str → Target

/-- chi mux.go `Get`. -/
def onGet (p : Pattern) (h : Str → Target) : Row := ⟨p, [str! "GET"], h⟩

/-- chi mux.go `Post`. -/
def onPost (p : Pattern) (h : Str → Target) : Row := ⟨p, [str! "POST"], h⟩

/-- chi mux.go `Handle` (`mALL`: the handler of every method is replaced, tree.go `setEndpoint`). -/
def onAll (p : Pattern) (h : Str → Target) : Row := ⟨p, chiMethods, h⟩

/-- chi mux.go `Mount` for a pattern that does not end in a slash: the pattern, the pattern with a slash, everything below. -/
def mount (p : Str) (h : Str → Target) : List Row :=
  [onAll (.exact p) h, onAll (.exact (p ++ ['/'])) h, onAll (.below (p ++ ['/'])) h]

/-- api_server.gen.go 306-323 with the base URL `/api` (api_interface_impl.go 60-64). -/
def apiRows : List Row :=
  [onGet (.exact (str! "/api/blocking/disable")) (fun _ => .api .disable),
   onGet (.exact (str! "/api/blocking/enable")) (fun _ => .api .enable),
   onGet (.exact (str! "/api/blocking/status")) (fun _ => .api .status),
   onPost (.exact (str! "/api/cache/flush")) (fun _ => .api .flush),
   onPost (.exact (str! "/api/lists/refresh")) (fun _ => .api .refresh),
   onPost (.exact (str! "/api/query")) (fun _ => .api .query)]

/-- server_endpoints.go 266-268 `configureDebugHandler`. -/
def debugRows : List Row := mount (str! "/debug") .debug

/-- server_endpoints.go 193-199 `configureDocsHandler`. -/
def docsRow : Row := onGet (.exact (str! "/docs/openapi.yaml")) (fun _ => .openapi)

/-- server_endpoints.go 201-207 `configureStaticAssetsHandler`. -/
def staticRow : Row := onAll (.below (str! "/static/")) .asset

/-- server_endpoints.go 209-257 `configureRootHandler`. -/
def rootRow : Row := onGet (.exact (str! "/")) (fun _ => .index)

/-- server_endpoints.go 56-65 `registerDoHEndpoints`. -/
def dohRows : List Row :=
  [onGet (.exact (str! "/dns-query")) .dohGet,
   onGet (.exact (str! "/dns-query/")) .dohGet,
   onGet (.seg (str! "/dns-query/")) .dohGet,
   onPost (.exact (str! "/dns-query")) .dohPost,
   onPost (.exact (str! "/dns-query/")) .dohPost,
   onPost (.seg (str! "/dns-query/")) .dohPost]

/-- config/metrics.go 6-9. -/
structure MetricsCfg where
  enable : Bool
  path : Str
  deriving DecidableEq, Repr

/-- chi mux.go `handle` and tree.go `patNextSegment` for a pattern without `{`: `none` is a panic (the pattern does not
begin with a slash, or a `*` is not the last character). -/
def patternOf (p : Str) : Option Pattern :=
  if p.head? ≠ some '/' then none
  else if '*' ∉ p then some (.exact p)
  else if '*' ∉ p.dropLast then some (.below p.dropLast)
  else none

/-- metrics.go 21-28 `Start`. `none`: panic. -/
def metricsRows (cfg : MetricsCfg) : Option (List Row) :=
  if cfg.enable then
    match patternOf cfg.path with
    | none => none
    | some p => some [onAll p (fun _ => .metrics)]
  else some []

/-- server_endpoints.go 175-191 `createHTTPRouter`, then `registerDoHEndpoints` (server.go 161-162): the registrations in
their order. `none`: the start of the server panics. -/
def table (cfg : MetricsCfg) : Option (List Row) :=
  match metricsRows cfg with
  | none => none
  | some ms => some (apiRows ++ debugRows ++ [docsRow] ++ [staticRow] ++ [rootRow] ++ ms ++ dohRows)

/-- chi tree.go: the endpoint of a pattern for a method is the one registered last. -/
def endpoint (t : List Row) (p : Pattern) (m : Str) : Option (Str → Target) :=
  (t.reverse.find? (fun r => decide (r.pattern = p) && decide (m ∈ r.methods))).map (·.handler)

/-- chi tree.go `findRoute`: the patterns that can match after `k` characters of the path, with the rest that they give to
the handler; a parameter is not empty and has no slash. -/
def after (path : Str) (k : Nat) : List (Pattern × Str) :=
  (if k = path.length then [(.exact path, [])] else []) ++
  (if path.drop k ≠ [] ∧ '/' ∉ path.drop k then [(.seg (path.take k), path.drop k)] else []) ++
  [(.below (path.take k), path.drop k)]

/-- chi tree.go `findRoute`: the search goes as far as possible along the fixed characters, then tries the parameter, then
`*`, then goes back. -/
def candidates (path : Str) : List (Pattern × Str) :=
  (List.range (path.length + 1)).reverse.flatMap (after path)

/-- What the router does with a request: a handler, 404, 405. -/
inductive Found where
  | page (t : Target)
  | notFound
  | notAllowed
  deriving DecidableEq, Repr

/-- chi mux.go `routeHTTP` with tree.go `FindRoute`, of the router of server/http.go 55-69 (which hands on everything
below `/`) and of the router in it: a method that chi does not know gets 405, else the first pattern that has a handler for
the method; if patterns match without one: 405. An empty path counts as `/`. -/
def find (t : List Row) (m path : Str) : Found :=
  let path := if path = [] then str! "/" else path
  if m ∉ chiMethods then .notAllowed
  else if path.head? ≠ some '/' then .notFound
  else
    match (candidates path).findSome? (fun c => (endpoint t c.1 m).map (fun h => h c.2)) with
    | some x => .page x
    | none => if (candidates path).any (fun c => t.any (fun r => decide (r.pattern = c.1))) then .notAllowed else .notFound

/-- web/static: the files that are built in. -/
def assetFiles : List Str := [str! "rapidoc-min.js", str! "rapidoc.html"]

/-- server_endpoints.go 226-249: the links of the index page, with their titles. -/
def links (cfg : MetricsCfg) : List (Str × Str) :=
  [(str! "/docs/openapi.yaml", str! "Rest API Documentation (OpenAPI)"),
   (str! "/static/rapidoc.html", str! "Interactive Rest API Documentation (RapiDoc)"),
   (str! "/debug/", str! "Go Profiler")] ++
  (if cfg.enable then [(cfg.path, str! "Prometheus endpoint")] else [])

end Verif.Routes
