/-
Models of /repo/resolver/conditional_upstream_resolver.go and /repo/resolver/rewriter_resolver.go.

Both work with the message the request points to: the conditional resolver writes into it. So the
resolvers here also return the contents of `request.Req` after the call.
-/
import Verif.Base.AMap
import Verif.Model.Dns
import Verif.Model.Walk

namespace Verif.Cond
open Dns

variable {W : Type}

/-- A resolver that may also write into the request's message: outcome, message afterwards, world. -/
abbrev MResolver (W : Type) := Request → W → Outcome × Msg × W

/-- A resolver that does not write into the message. -/
def pure (r : Resolver W) : MResolver W := fun request w =>
  ((r request w).1, request.req, (r request w).2)

/-- conditional_upstream_resolver.go 29-41: the mapping of the resolver from that of the
configuration, in the order Go iterates the latter. The upstreams of a domain are an arbitrary
resolver. -/
def buildMapping : List (Str × Resolver W) → AMap Str (Resolver W) → AMap Str (Resolver W)
  | [], m => m
  | (domain, r) :: rest, m => buildMapping rest (m.put (lower domain) r)

/-- Replace the name of the first question. -/
def setName (name : Str) : List Question → List Question
  | [] => []
  | q :: qs => { q with name := name } :: qs

/-- conditional_upstream_resolver.go 99-129 `internalResolve` (without logging). A group of upstreams
never returns `NoResponse`; the access to its message would panic. -/
def internalResolve (reso : Resolver W) (doFQ : Str) (request : Request) (w : W) : Outcome × Msg × W :=
  let req := { request.req with question := setName (fqdn doFQ) request.req.question }
  match reso { request with req := req } w with
  | (.ok r, w) =>
    (.ok { res := { r.res with question := setName (fqdn doFQ) r.res.question },
           reason := str! "CONDITIONAL", rtype := .conditional }, req, w)
  | (.noResponse, w) => (.panic, req, w)
  | (o, w) => (o, req, w)

/-- conditional_upstream_resolver.go 53-81 `processRequest`: the resolver to use, if any. -/
def lookup (mapping : AMap Str (Resolver W)) (domain : Str) : Option (Resolver W) :=
  if domain.contains '.' then
    (walk (AMap.get mapping) (domain.length + 1) domain).map Prod.snd
  else AMap.get mapping (str! ".")

/-- conditional_upstream_resolver.go 84-97 `Resolve`. -/
def conditional (mapping : AMap Str (Resolver W)) (next : MResolver W) : MResolver W := fun request w =>
  if mapping.length > 0 then
    match request.req.question with
    | [] => (.panic, request.req, w)
    | q :: _ =>
      match lookup mapping (extractDomain q.name) with
      | some reso => internalResolve reso (extractDomain q.name) request w
      | none => next request w
  else next request w

/-! ### Rewriting -/

/-- config/rewriter.go. -/
structure RewriteCfg where
  rewrite : AMap Str Str
  fallbackUpstream : Bool

/-- rewriter_resolver.go 34-36: every rule is also entered in lower case (the originals stay; Go may
or may not visit the added ones, which changes nothing). -/
def lowerRules : List (Str × Str) → AMap Str Str → AMap Str Str
  | [], m => m
  | (k, v) :: rest, m => lowerRules rest (m.put (lower k) (lower v))

/-- Go `strings.TrimSuffix` together with `HasSuffix`. -/
def cutSuffix (s suffix : Str) : Option Str :=
  if suffix.isSuffixOf s then some (s.take (s.length - suffix.length)) else none

/-- rewriter_resolver.go 154-164 `rewriteDomain`; the list is the map in the order Go iterates it. -/
def rewriteDomain : List (Str × Str) → Str → Str
  | [], domain => domain
  | (k, v) :: rules, domain =>
    match cutSuffix domain ('.' :: k) with
    | some p => p ++ '.' :: v
    | none => rewriteDomain rules domain

/-- rewriter_resolver.go 123-152 `rewriteRequest`, question by question: the new questions, whether
any was rewritten, and the map from rewritten to original names. `order i` is the order of the
`i`-th map iteration. -/
def rewriteQuestions (order : Nat → List (Str × Str)) :
    Nat → List Question → AMap Str Str → List Question × Bool × AMap Str Str
  | _, [], names => ([], false, names)
  | i, q :: qs, names =>
    let rewritten := rewriteDomain (order i) (extractDomain q.name)
    if rewritten ≠ extractDomain q.name then
      let (qs', _, names') := rewriteQuestions order (i + 1) qs (names.put (fqdn rewritten) q.name)
      ({ q with name := fqdn rewritten } :: qs', true, names')
    else
      let (qs', b, names') := rewriteQuestions order (i + 1) qs names
      (q :: qs', b, names')

/-- A name reverted by the map of original names. -/
def revertName (names : AMap Str Str) (name : Str) : Str :=
  match AMap.get names name with
  | some original => original
  | none => name

/-- rewriter_resolver.go 101-119: revert the rewrite in the response. -/
def revert (names : AMap Str Str) (r : Response) : Response :=
  { r with
    res := { r.res with
      question := r.res.question.map (fun q => { q with name := revertName names q.name })
      answer := r.res.answer.map (fun a => { a with name := revertName names a.name }) } }

/-- rewriter_resolver.go 60-121 `Resolve`. An absent answer section is modelled as the empty one
(unpacking leaves it `nil`). -/
def rewriter (fallback : Bool) (order : Nat → List (Str × Str)) (inner next : MResolver W) : MResolver W :=
  fun request w =>
    match rewriteQuestions order 0 request.req.question [] with
    | (questions, rewritten, names) =>
      match inner (if rewritten then { request with req := { request.req with question := questions } }
          else request) w with
      | (o, msg, w) =>
        -- `request.Req = original`; without rewriting that is the message the inner resolver had
        let original := if rewritten then request.req else msg
        match o with
        | .panic => (.panic, msg, w)
        | .err e =>
          if fallback then next { request with req := original } w else (.err e, original, w)
        | .noResponse => next { request with req := original } w
        | .ok r =>
          if fallback && r.res.answer.isEmpty then next { request with req := original } w
          else if rewritten then (.ok (revert names r), original, w)
          else (.ok r, original, w)

/-- rewriter_resolver.go 28-46 `NewRewriterResolver` (and the chain continuing after it): without rules
it is the inner resolver itself, otherwise the inner resolver ends in a no-op resolver. `inner` is
given as function of its next resolver. -/
def newRewriter (cfg : RewriteCfg) (order : Nat → List (Str × Str)) (inner : MResolver W → MResolver W)
    (next : MResolver W) : MResolver W :=
  if cfg.rewrite.length = 0 then inner next
  else rewriter cfg.fallbackUpstream order (inner (fun request w => (.noResponse, request.req, w))) next

end Verif.Cond
