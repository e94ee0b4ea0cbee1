/-
C102: lists act on the clients of their own groups, and only while their group is enabled. Whole server.
-/
import Verif.Props.OwnGroup
import Verif.Props.Reasons
import Verif.Props.BlockingStatus

namespace Verif.Props
open Spec Dns Blocking StringCache

variable {E : RegexEngine} {W V : Type}

/-- An entry of the list of group `g` is about the name or address. -/
def OnListOf (E : RegexEngine) (hist : List (Str × List Str)) (g x : Str) : Prop := ∃ e ∈ currentList g hist, EntryMatches E e x

/-- Two blockers have the same in store for a client: the same groups are in effect, and the lists of these groups (whatever those
of other groups) have the same names and addresses. -/
structure SameFor (s1 s2 : Setup E) (request : Request) : Prop where
  groups : ∀ g, s1.Act request g ↔ s2.Act request g
  deny : ∀ g, s1.Act request g → ∀ x, OnListOf E s1.denyHist g x ↔ OnListOf E s2.denyHist g x
  allow : ∀ g, s1.Act request g → ∀ x, OnListOf E s1.allowHist g x ↔ OnListOf E s2.allowHist g x
  only : ∀ g, s1.Act request g → (AllowOnly s1.cfg g ↔ AllowOnly s2.cfg g)

theorem sorted_ext {xs ys : List Str} (hx : SortedStr xs) (hy : SortedStr ys) (h : ∀ g, g ∈ xs ↔ g ∈ ys) : xs = ys := by
  refine List.Perm.eq_of_pairwise (le := fun a b => strLt a b = true) ?_ hx hy ?_
  · intro a b _ _ h1 h2
    exact absurd h2 (by rw [strLt_asymm h1]; simp)
  · refine (List.perm_ext_iff_of_nodup ?_ ?_).2 h
    · exact hx.imp (fun h e => by subst e; rw [strLt_irrefl] at h; cases h)
    · exact hy.imp (fun h e => by subst e; rw [strLt_irrefl] at h; cases h)

theorem SameFor.denied {s1 s2 : Setup E} {request : Request} (h : SameFor s1 s2 request) (x : Str) :
    «matches» (s1.groups request) s1.deny x = «matches» (s2.groups request) s2.deny x := by
  have hm : ∀ g, (g ∈ s1.groups request ↔ g ∈ s2.groups request) := fun g => by rw [s1.mem_groups, s2.mem_groups]; exact h.groups g
  have hl : (s1.groups request).length > 0 ↔ (s2.groups request).length > 0 := by
    rw [length_pos_iff_mem, length_pos_iff_mem]; simp only [hm]
  unfold «matches»
  by_cases hg : (s1.groups request).length > 0
  · rw [if_pos hg, if_pos (hl.1 hg)]
    have h1 := C03_lookup_union E _ _ s1.hdeny x (s1.groups request)
    have h2 := C03_lookup_union E _ _ s2.hdeny x (s2.groups request)
    refine sorted_ext h1.1 h2.1 (fun g => ?_)
    rw [h1.2, h2.2, ← hm]
    refine and_congr_right (fun hg => h.deny g ((s1.mem_groups _ _).1 hg) x)
  · rw [if_neg hg, if_neg (fun h' => hg (hl.2 h'))]

theorem SameFor.allowed {s1 s2 : Setup E} {request : Request} (h : SameFor s1 s2 request) (x : Str) :
    «matches» (s1.groups request) s1.allow x = «matches» (s2.groups request) s2.allow x := by
  have hm : ∀ g, (g ∈ s1.groups request ↔ g ∈ s2.groups request) := fun g => by rw [s1.mem_groups, s2.mem_groups]; exact h.groups g
  have hl : (s1.groups request).length > 0 ↔ (s2.groups request).length > 0 := by
    rw [length_pos_iff_mem, length_pos_iff_mem]; simp only [hm]
  unfold «matches»
  by_cases hg : (s1.groups request).length > 0
  · rw [if_pos hg, if_pos (hl.1 hg)]
    have h1 := C03_lookup_union E _ _ s1.hallow x (s1.groups request)
    have h2 := C03_lookup_union E _ _ s2.hallow x (s2.groups request)
    refine sorted_ext h1.1 h2.1 (fun g => ?_)
    rw [h1.2, h2.2, ← hm]
    refine and_congr_right (fun hg => h.allow g ((s1.mem_groups _ _).1 hg) x)
  · rw [if_neg hg, if_neg (fun h' => hg (hl.2 h'))]

theorem SameFor.onlyAllowed {s1 s2 : Setup E} {request : Request} (h : SameFor s1 s2 request) :
    hasAllowlistOnlyAllowed s1.state (s1.groups request) = hasAllowlistOnlyAllowed s2.state (s2.groups request) := by
  rw [Bool.eq_iff_iff, s1.only_iff, s2.only_iff]
  constructor
  · rintro ⟨g, h1, h2⟩; exact ⟨g, (h.groups g).1 h1, (h.only g h1).1 h2⟩
  · rintro ⟨g, h1, h2⟩; exact ⟨g, (h.groups g).2 h1, (h.only g ((h.groups g).2 h1)).2 h2⟩

theorem SameFor.resolve {s1 s2 : Setup E} {request : Request} (h : SameFor s1 s2 request) (he : s1.env = s2.env) (hh : s1.handler = s2.handler)
    (next : Resolver W) (w : W) :
    Blocking.resolve s1.env s1.state next request w = Blocking.resolve s2.env s2.state next request w := by
  have hl : (s1.groups request).length > 0 ↔ (s2.groups request).length > 0 := by
    rw [length_pos_iff_mem, length_pos_iff_mem]
    simp only [s1.mem_groups, s2.mem_groups, h.groups]
  have hd : ∀ qs, handleDenylist s1.state (s1.groups request) request qs = handleDenylist s2.state (s2.groups request) request qs := by
    intro qs
    induction qs with
    | nil => rfl
    | cons q qs ih =>
      unfold handleDenylist
      rw [show s1.state.allow = s1.allow from rfl, show s2.state.allow = s2.allow from rfl, show s1.state.deny = s1.deny from rfl,
        show s2.state.deny = s2.deny from rfl, show s1.state.handler = s1.handler from rfl, show s2.state.handler = s2.handler from rfl,
        h.allowed, h.denied, h.onlyAllowed, hh, ih]
  have hc : ∀ answer, checkAnswer s1.env s1.state (s1.groups request) request answer =
      checkAnswer s2.env s2.state (s2.groups request) request answer := by
    intro answer
    induction answer with
    | nil => rfl
    | cons rr rrs ih =>
      unfold checkAnswer
      rw [show s1.state.allow = s1.allow from rfl, show s2.state.allow = s2.allow from rfl, show s1.state.deny = s1.deny from rfl,
        show s2.state.deny = s2.deny from rfl, show s1.state.handler = s1.handler from rfl, show s2.state.handler = s2.handler from rfl]
      rw [he] at ih
      simp only [h.allowed, h.denied, hh, ih, he]
  have ha : askNext s1.env s1.state (s1.groups request) next request w = askNext s2.env s2.state (s2.groups request) next request w := by
    unfold askNext
    simp only [hc, hl]
  unfold Blocking.resolve
  simp only
  rw [show groupsToCheck s1.env s1.state.cgb s1.state.fqdnIPs s1.state.status request = s1.groups request from rfl,
    show groupsToCheck s2.env s2.state.cgb s2.state.fqdnIPs s2.state.status request = s2.groups request from rfl, hd, ha]
  simp only [hl]

/-- The same for all requests of a client with this address and these names. -/
def SameForClient (s1 s2 : Setup E) (ip : Option IP) (names : List Str) : Prop :=
  ∀ request : Request, request.clientIP = ip → request.clientNames = names → SameFor s1 s2 request

/-- The server with these lists. -/
def withLists (c : Chain.Config E W) (s : Setup E) : Chain.Config E W := { c with blockEnv := s.env, blockState := s.state }

/-- The messages sent in a history, event by event; each event with the lists, groups and disabled groups of that time. -/
def answersWith (senv : Server.Env) (c : Chain.Config E W) (up : Resolver W) : List (Event × Setup E) → Chain.World W → List (List Msg)
  | [], _ => []
  | (e, s) :: es, w =>
    match happen senv (withLists c s) up w e with
    | (ms, some w') => ms :: answersWith senv c up es w'
    | (ms, none) => [ms]

theorem ede_congr (b : Bool) {n1 n2 : Resolver V} {r : Request} {w : V} (h : n1 r w = n2 r w) : Small.ede b n1 r w = Small.ede b n2 r w := by
  unfold Small.ede
  rw [h]

theorem observed_lists (c : Chain.Config E W) (up : Resolver W) (s1 s2 : Setup E) (he : s1.env = s2.env) (hh : s1.handler = s2.handler)
    {D : Option IP → List Str → Prop} (hD : ∀ ip names, D ip names → SameForClient s1 s2 ip names)
    (hA : ∀ t, AliasTarget c.customMapping t → ∀ ip names, D ip names → D ip []) :
    AgreeC D (Chain.observed (withLists c s1) up) (Chain.observed (withLists c s2) up) := by
  have hb : AgreeC D (Chain.block (withLists c s1) up) (Chain.block (withLists c s2) up) := by
    intro r w h
    exact (hD _ _ h r rfl rfl).resolve he hh _ w
  have hl : AgreeC D (Chain.local (withLists c s1) up) (Chain.local (withLists c s2) up) := by
    refine agreeC_ofM (agreeC_newRewriter _ _ ?_ (agreeC_toM (agreeC_hosts _ _ _ _ _ hb)))
    intro m1 m2 h
    exact agreeC_toM (agreeC_customDns _ _ hA _ _ (agreeC_ofM h))
  have hm : AgreeC D (Chain.metrics c.metrics (Chain.local (withLists c s1) up)) (Chain.metrics c.metrics (Chain.local (withLists c s2) up)) := by
    intro r w hx
    unfold Chain.metrics
    rw [hl r w hx]
  have hq : AgreeC D (Chain.queryLog c.log c.logEnv c.logStart c.logDuration (Chain.metrics c.metrics (Chain.local (withLists c s1) up)))
      (Chain.queryLog c.log c.logEnv c.logStart c.logDuration (Chain.metrics c.metrics (Chain.local (withLists c s2) up))) := by
    refine agreeC_ofM ?_
    intro r w hx
    unfold QueryLog.resolve
    rw [agreeC_toM hm r w.2 hx]
  intro r w hx
  exact ede_congr _ (hq r w hx)

/-- **C102.** If two servers have the same in store for a client - the same groups in effect, with the same names on their lists -, they
do the same for the client's query: replies, cache, log. What lists other groups have does not matter. If there are custom aliases,
the lists must also be the same for the client's address without its names. -/
theorem C102_query (senv : Server.Env) (c : Chain.Config E W) (up : Resolver W) (s1 s2 : Setup E) (he : s1.env = s2.env)
    (hh : s1.handler = s2.handler) (remote : Server.Addr) (sni : Option Str) (msg : Msg) (w : Chain.World W)
    (hD : ∀ r, identified c remote sni msg w = some r → SameForClient s1 s2 r.clientIP r.clientNames ∧
      ((∃ t, AliasTarget c.customMapping t) → SameForClient s1 s2 r.clientIP [])) :
    Chain.serve senv (withLists c s1) up remote sni msg w = Chain.serve senv (withLists c s2) up remote sni msg w := by
  have ho := observed_lists c up s1 s2 he hh (D := fun ip names => SameForClient s1 s2 ip names ∧
      ((∃ t, AliasTarget c.customMapping t) → SameForClient s1 s2 ip [])) (fun _ _ h => h.1)
      (fun t ht _ _ h => ⟨h.2 ⟨t, ht⟩, fun _ => h.2 ⟨t, ht⟩⟩)
  have hw : ∀ m, Chain.whole (withLists c s1) up (Server.newRequestFromDNS remote sni msg) (m, w) =
      Chain.whole (withLists c s2) up (Server.newRequestFromDNS remote sni msg) (m, w) := by
    intro m
    have hecs : Chain.ecs c.ecs (Chain.clientNames c.names (c.namesLookup.map Chain.liftLookup) (Chain.observed (withLists c s1) up))
          (Server.newRequestFromDNS remote sni msg) (m, w) =
        Chain.ecs c.ecs (Chain.clientNames c.names (c.namesLookup.map Chain.liftLookup) (Chain.observed (withLists c s2) up))
          (Server.newRequestFromDNS remote sni msg) (m, w) := by
      unfold Chain.ecs
      unfold identified at hD
      cases h : Ecs.transform c.ecs (Server.newRequestFromDNS remote sni msg) with
      | none => rfl
      | some r =>
        simp only [h, Option.map_some, Option.some.injEq] at hD ⊢
        unfold Chain.clientNames
        revert hD
        simp only
        generalize ClientNames.withNames c.names (c.namesLookup.map Chain.liftLookup) r w.1 w.2 = y
        obtain ⟨r', cn', w'⟩ := y
        intro hD
        simp only at hD ⊢
        rw [ho r' _ (hD r' rfl)]
    exact filtering_congr _ (fqdnOnly_congr _ hecs)
  unfold Chain.serve Server.onRequest Server.handleReq Server.resolve
  have ht : Chain.toM (Chain.whole (withLists c s1) up) (Server.newRequestFromDNS remote sni msg) w =
      Chain.toM (Chain.whole (withLists c s2) up) (Server.newRequestFromDNS remote sni msg) w := by
    unfold Chain.toM
    rw [hw]
  rw [ht]

/-- Two servers have the same in store for certain clients. -/
def SameLists (c : Chain.Config E W) (clients : Option IP → List Str → Prop) (s1 s2 : Setup E) : Prop :=
  s1.env = s2.env ∧ s1.handler = s2.handler ∧
  ∀ ip names, clients ip names → SameForClient s1 s2 ip names ∧ ((∃ t, AliasTarget c.customMapping t) → SameForClient s1 s2 ip [])

/-- **C102, histories.** Whatever happens to the lists of other groups - loaded, refreshed, disabled, enabled - while some clients ask
(and time passes, and the cache is cleaned up): the clients get the same answers. -/
theorem C102_history (senv : Server.Env) (c : Chain.Config E W) (up : Resolver W) (clients : Option IP → List Str → Prop)
    (es : List (Event × Setup E × Setup E)) (h : ∀ e ∈ es, SameLists c clients e.2.1 e.2.2)
    (hcl : ∀ e ∈ es, ∀ remote sni msg, e.1 = .query remote sni msg →
      ∀ w r, identified c remote sni msg w = some r → clients r.clientIP r.clientNames) (w : Chain.World W) :
    answersWith senv c up (es.map (fun e => (e.1, e.2.1))) w = answersWith senv c up (es.map (fun e => (e.1, e.2.2))) w := by
  induction es generalizing w with
  | nil => rfl
  | cons x xs ih =>
    obtain ⟨e, s1, s2⟩ := x
    obtain ⟨h2, h3, h4⟩ := h _ (List.mem_cons_self ..)
    simp only at h2 h3 h4
    have hev : happen senv (withLists c s1) up w e = happen senv (withLists c s2) up w e := by
      cases e with
      | query remote sni msg =>
        unfold happen
        simp only
        rw [C102_query senv c up s1 s2 h2 h3 remote sni msg w (fun r hr => h4 _ _ (hcl _ (List.mem_cons_self ..) remote sni msg rfl w r hr))]
      | pass ms => rfl
      | cleanUp => rfl
    simp only [List.map_cons]
    unfold answersWith
    rw [hev]
    have ih' := ih (fun e he => h e (List.mem_cons_of_mem _ he)) (fun e he => hcl e (List.mem_cons_of_mem _ he))
    simp only [ih']

/-- No lists at all. -/
def noLists (env : Blocking.Env) (handler : Handler) : Setup E where
  env := env
  cfg := {}
  handler := handler
  denyHist := []
  allowHist := []
  deny := {}
  allow := {}
  hdeny := rfl
  hallow := rfl

theorem noLists_act (env : Blocking.Env) (handler : Handler) (request : Request) (g : Str) :
    ¬ (noLists (E := E) env handler).Act request g := by
  rintro ⟨_, ⟨ident, gs, ⟨e, he, _⟩, _⟩ | ⟨_, gs, ⟨e, he, _⟩, _⟩⟩ <;> simp [noLists] at he

/-- **C102, disabled.** While blocking is disabled (for all groups), the whole server works as if no lists were configured. For clients whose
groups have denylists or are called "default": allowlist-only groups cannot be disabled (`C19_disable_all_keeps_blocking`). -/
theorem C102_disabled_partial (senv : Server.Env) (c : Chain.Config E W) (up : Resolver W) (s : Setup E) (t : TState) (d : Int)
    (hst : s.status = (tstep s.cfg t (.disable d [])).status) (remote : Server.Addr) (sni : Option Str) (msg : Msg) (w : Chain.World W)
    (hk : ∀ e ∈ s.cfg.clientGroupsBlock, ∀ g ∈ e.2, g ∈ s.cfg.denyGroups ∨ g = str! "default") :
    Chain.serve senv (withLists c s) up remote sni msg w = Chain.serve senv (withLists c (noLists s.env s.handler)) up remote sni msg w := by
  have hacc : (internalDisable s.cfg t d []).2 = true := (C18_accepted_iff s.cfg t d []).2 (by simp)
  have hdis : s.status.disabledGroups = retrieveAllBlockingGroups s.cfg := by
    rw [hst]
    simp only [tstep, disable_accepted s.cfg t d [] hacc]
    rfl
  have hno : ∀ request g, ¬ s.Act request g := by
    rintro request g ⟨h1, h2⟩
    apply h1
    rw [hdis]
    refine (mem_allGroups s.cfg g).2 ?_
    rcases h2 with ⟨ident, gs, ⟨e, he, _, rfl⟩, _, hg⟩ | ⟨_, gs, ⟨e, he, _, rfl⟩, hg⟩
    · exact hk e he g hg
    · exact hk e he g hg
  have hs : ∀ ip names, SameForClient s (noLists s.env s.handler) ip names := by
    intro ip names request _ _
    exact ⟨fun g => ⟨fun h => absurd h (hno _ _), fun h => absurd h (noLists_act _ _ _ _)⟩, fun g h => absurd h (hno _ _),
      fun g h => absurd h (hno _ _), fun g h => absurd h (hno _ _)⟩
  have h := C102_query senv c up s (noLists s.env s.handler) rfl rfl remote sni msg w (fun r _ => ⟨hs _ _, fun _ => hs _ _⟩)
  exact h

/-! ### More entries -/

/-- The message of a response. -/
def messageOf : Outcome → Option Msg
  | .ok r => some r.res
  | _ => none

/-- A block answer for one of the questions. -/
def BlockAnswer (s : Setup E) (request : Request) (o : Outcome) : Prop := ∃ q ∈ request.req.question, IsBlockAnswer s request q o

theorem outcome_cases (s : Setup E) (next : Resolver W) (request : Request) (w : W) (hq : request.req.question ≠ []) :
    ((∃ q, s.NameBlocked request q) ∧ ∃ o, Blocking.resolve s.env s.state next request w = (o, w) ∧ BlockAnswer s request o) ∨
    (s.NameAllowed request ∧ Blocking.resolve s.env s.state next request w = next request w) ∨
    ((∀ q ∈ request.req.question, s.Open request q) ∧
      ((∃ r, (next request w).1 = .ok r ∧ s.AnswerBlocked request r.res.answer ∧
        ∃ o, Blocking.resolve s.env s.state next request w = (o, (next request w).2) ∧ BlockAnswer s request o) ∨
       ((∀ r, (next request w).1 = .ok r → ¬ s.AnswerBlocked request r.res.answer) ∧
        Blocking.resolve s.env s.state next request w = next request w))) := by
  rcases C15_cases s request with ⟨q, h⟩ | h | h
  · obtain ⟨o, h1, h2⟩ := C15_blocked_by_name s next request w q h
    have h' := h
    obtain ⟨pre, post, g1, _⟩ := h'
    exact .inl ⟨⟨q, h⟩, o, h1, q, by rw [g1]; simp, h2⟩
  · exact .inr (.inl ⟨h, C15_allowed_by_name s next request w h⟩)
  · refine .inr (.inr ⟨h, ?_⟩)
    by_cases hb : ∃ r, (next request w).1 = .ok r ∧ s.AnswerBlocked request r.res.answer
    · obtain ⟨r, h1, h2⟩ := hb
      refine .inl ⟨r, h1, h2, ?_⟩
      cases hqs : request.req.question with
      | nil => exact absurd hqs hq
      | cons q qs =>
        obtain ⟨o, h3, h4⟩ := C15_blocked_by_answer s next request w (next request w).2 q qs hqs h r (by rw [← h1]) h2
        exact ⟨o, h3, q, by rw [hqs]; simp, h4⟩
    · refine .inr ⟨fun r h1 h2 => hb ⟨r, h1, h2⟩, C15_passed s next request w h (fun r h1 h2 => hb ⟨r, h1, h2⟩)⟩

/-- Less is blocked by `s2`: more is allowed, less is denied. -/
theorem fewer_blocked (s1 s2 : Setup E) (he : s1.env = s2.env) (hh : s1.handler = s2.handler) (next : Resolver W) (request : Request) (w : W)
    (q : Question) (hq : request.req.question = [q]) (hA : ∀ x, s1.Allowed request x → s2.Allowed request x)
    (hD : ∀ x, s2.Denied request x → s1.Denied request x) (hO : s2.OnlyAllowed request → s1.OnlyAllowed request) :
    messageOf (Blocking.resolve s2.env s2.state next request w).1 = messageOf (Blocking.resolve s1.env s1.state next request w).1 ∨
    (Blocking.resolve s2.env s2.state next request w = next request w ∧
      ∃ r, (Blocking.resolve s1.env s1.state next request w).1 = .ok r ∧ r.rtype = .blocked) := by
  have hne : request.req.question ≠ [] := by rw [hq]; simp
  have hmsg : ∀ o1 o2, BlockAnswer s1 request o1 → BlockAnswer s2 request o2 → messageOf o2 = messageOf o1 := by
    rintro o1 o2 ⟨q1, h1, r1, rfl⟩ ⟨q2, h2, r2, rfl⟩
    rw [hq] at h1 h2
    rw [List.mem_singleton.1 h1, List.mem_singleton.1 h2]
    simp only [messageOf, hh]
  have hblk : ∀ o, BlockAnswer s1 request o → ∃ r, o = .ok r ∧ r.rtype = .blocked := by
    rintro o ⟨q, _, r, rfl⟩
    exact ⟨_, rfl, rfl⟩
  have hpass : ∀ o w', Blocking.resolve s2.env s2.state next request w = next request w →
      Blocking.resolve s1.env s1.state next request w = (o, w') → (Blocking.resolve s1.env s1.state next request w = next request w ∨ BlockAnswer s1 request o) →
      messageOf (Blocking.resolve s2.env s2.state next request w).1 = messageOf (Blocking.resolve s1.env s1.state next request w).1 ∨
      (Blocking.resolve s2.env s2.state next request w = next request w ∧
        ∃ r, (Blocking.resolve s1.env s1.state next request w).1 = .ok r ∧ r.rtype = .blocked) := by
    rintro o w' h2 h1 (h | h)
    · rw [h2, h]; exact .inl rfl
    · rw [h1]
      exact .inr ⟨h2, hblk o h⟩
  have c1 := outcome_cases s1 next request w hne
  have hs1 : ∃ o w', Blocking.resolve s1.env s1.state next request w = (o, w') ∧
      (Blocking.resolve s1.env s1.state next request w = next request w ∨ BlockAnswer s1 request o) := by
    rcases c1 with ⟨_, o, h1, h2⟩ | ⟨_, h⟩ | ⟨_, ⟨r, _, _, o, h1, h2⟩ | ⟨_, h⟩⟩
    · exact ⟨o, _, h1, .inr h2⟩
    · exact ⟨_, _, rfl, .inl h⟩
    · exact ⟨o, _, h1, .inr h2⟩
    · exact ⟨_, _, rfl, .inl h⟩
  obtain ⟨o1, w1, e1, e2⟩ := hs1
  rcases outcome_cases s2 next request w hne with ⟨⟨p, pre, post, g1, _, g3, g4⟩, o, h1, h2⟩ | ⟨_, h⟩ | ⟨hopen, ⟨r, hr, hb, o, h1, h2⟩ | ⟨_, h⟩⟩
  · have hp : p = q := by
      rw [hq] at g1
      cases pre with
      | nil => cases g1; rfl
      | cons a pre => simp at g1
    subst hp
    obtain ⟨o', k1, k2⟩ := C15_blocked_by_name s1 next request w p ⟨[], [], hq, by simp, fun h => g3 (hA _ h), g4.imp hO (hD _)⟩
    left
    rw [h1, k1]
    exact hmsg _ _ ⟨p, by rw [hq]; simp, k2⟩ h2
  · exact hpass o1 w1 h e1 e2
  · left
    rw [h1]
    have hbl : ∀ o w', Blocking.resolve s1.env s1.state next request w = (o, w') → BlockAnswer s1 request o →
        messageOf (o : Outcome) = messageOf o1 := by
      intro o w' h _
      rw [e1] at h
      cases h
      rfl
    rcases c1 with ⟨_, o', k1, k2⟩ | ⟨⟨pre, p, post, g1, _, g3⟩, _⟩ | ⟨_, ⟨r', _, _, o', k1, k2⟩ | ⟨hn, _⟩⟩
    · rw [k1]
      exact hmsg _ _ k2 h2
    · exact absurd (hA _ g3) (hopen p (by rw [g1]; simp)).1
    · rw [k1]
      exact hmsg _ _ k2 h2
    · obtain ⟨rr, m1, x, m2, m3, m4⟩ := hb
      exact absurd ⟨rr, m1, x, by rw [he]; exact m2, fun h => m3 (hA _ h), hD _ m4⟩ (hn r hr)
  · exact hpass o1 w1 h e1 e2

theorem act_congr {s1 s2 : Setup E} (he : s1.env = s2.env) (hc : s1.cfg.clientGroupsBlock = s2.cfg.clientGroupsBlock) (hf : s1.fqdnIPs = s2.fqdnIPs)
    (request : Request) {g : Str} (h : g ∉ s2.status.disabledGroups) (h1 : s1.Act request g) : s2.Act request g := by
  refine ⟨h, ?_⟩
  have h2 := h1.2
  simp only [Assigned, HasEntry] at h2 ⊢
  rw [he, hc, hf] at h2
  exact h2

/-- **C102, more denied.** New entries on denylists only block: a query (of one question) gets the message it got before, or a block
answer instead of what was behind. (The groups with denylists stay the same.) -/
theorem C102_more_denied (s1 s2 : Setup E) (he : s1.env = s2.env) (hh : s1.handler = s2.handler) (hc : s1.cfg = s2.cfg)
    (hf : s1.fqdnIPs = s2.fqdnIPs) (hs : s1.status.disabledGroups = s2.status.disabledGroups) (ha : s1.allowHist = s2.allowHist)
    (hd : ∀ g x, OnListOf E s1.denyHist g x → OnListOf E s2.denyHist g x)
    (next : Resolver W) (request : Request) (w : W) (q : Question) (hq : request.req.question = [q]) :
    messageOf (Blocking.resolve s2.env s2.state next request w).1 = messageOf (Blocking.resolve s1.env s1.state next request w).1 ∨
    (Blocking.resolve s1.env s1.state next request w = next request w ∧
      ∃ r, (Blocking.resolve s2.env s2.state next request w).1 = .ok r ∧ r.rtype = .blocked) := by
  have h12 : ∀ g, s1.Act request g → s2.Act request g := fun g h => act_congr he (by rw [hc]) hf request (by rw [← hs]; exact h.1) h
  have h21 : ∀ g, s2.Act request g → s1.Act request g := fun g h => act_congr he.symm (by rw [hc]) hf.symm request (by rw [hs]; exact h.1) h
  have := fewer_blocked s2 s1 he.symm hh.symm next request w q hq
    (by rintro x ⟨g, h1, h2⟩; exact ⟨g, h21 g h1, by rw [ha]; exact h2⟩)
    (by rintro x ⟨g, h1, h2⟩; exact ⟨g, h12 g h1, hd g x h2⟩)
    (by rintro ⟨g, h1, h2⟩; exact ⟨g, h12 g h1, by rw [← hc]; exact h2⟩)
  exact this.imp Eq.symm id

/-- **C102, more allowed.** New entries on allowlists only unblock. (The groups with allowlists stay the same.) -/
theorem C102_more_allowed (s1 s2 : Setup E) (he : s1.env = s2.env) (hh : s1.handler = s2.handler) (hc : s1.cfg = s2.cfg)
    (hf : s1.fqdnIPs = s2.fqdnIPs) (hs : s1.status.disabledGroups = s2.status.disabledGroups) (hd : s1.denyHist = s2.denyHist)
    (ha : ∀ g x, OnListOf E s1.allowHist g x → OnListOf E s2.allowHist g x)
    (next : Resolver W) (request : Request) (w : W) (q : Question) (hq : request.req.question = [q]) :
    messageOf (Blocking.resolve s2.env s2.state next request w).1 = messageOf (Blocking.resolve s1.env s1.state next request w).1 ∨
    (Blocking.resolve s2.env s2.state next request w = next request w ∧
      ∃ r, (Blocking.resolve s1.env s1.state next request w).1 = .ok r ∧ r.rtype = .blocked) := by
  have h12 : ∀ g, s1.Act request g → s2.Act request g := fun g h => act_congr he (by rw [hc]) hf request (by rw [← hs]; exact h.1) h
  have h21 : ∀ g, s2.Act request g → s1.Act request g := fun g h => act_congr he.symm (by rw [hc]) hf.symm request (by rw [hs]; exact h.1) h
  exact fewer_blocked s1 s2 he hh next request w q hq
    (by rintro x ⟨g, h1, h2⟩; exact ⟨g, h12 g h1, ha g x h2⟩)
    (by rintro x ⟨g, h1, h2⟩; exact ⟨g, h21 g h1, by rw [hd]; exact h2⟩)
    (by rintro ⟨g, h1, h2⟩; exact ⟨g, h21 g h1, by rw [hc]; exact h2⟩)

/-- **C102, disabling groups.** Disabling more groups only unblocks, if these have no allowlists. -/
theorem C102_disable_partial (s1 s2 : Setup E) (he : s1.env = s2.env) (hh : s1.handler = s2.handler) (hc : s1.cfg = s2.cfg)
    (hf : s1.fqdnIPs = s2.fqdnIPs) (hd : s1.denyHist = s2.denyHist) (ha : s1.allowHist = s2.allowHist)
    (hs : ∀ g ∈ s1.status.disabledGroups, g ∈ s2.status.disabledGroups)
    (hn : ∀ g ∈ s2.status.disabledGroups, g ∉ s1.status.disabledGroups → currentList g s1.allowHist = [])
    (next : Resolver W) (request : Request) (w : W) (q : Question) (hq : request.req.question = [q]) :
    messageOf (Blocking.resolve s2.env s2.state next request w).1 = messageOf (Blocking.resolve s1.env s1.state next request w).1 ∨
    (Blocking.resolve s2.env s2.state next request w = next request w ∧
      ∃ r, (Blocking.resolve s1.env s1.state next request w).1 = .ok r ∧ r.rtype = .blocked) := by
  have h21 : ∀ g, s2.Act request g → s1.Act request g := fun g h =>
    act_congr he.symm (by rw [hc]) hf.symm request (fun h' => h.1 (hs g h')) h
  refine fewer_blocked s1 s2 he hh next request w q hq ?_
    (by rintro x ⟨g, h1, h2⟩; exact ⟨g, h21 g h1, by rw [hd]; exact h2⟩)
    (by rintro ⟨g, h1, h2⟩; exact ⟨g, h21 g h1, by rw [hc]; exact h2⟩)
  rintro x ⟨g, h1, e, h2, h3⟩
  by_cases hg : g ∈ s2.status.disabledGroups
  · rw [hn g hg h1.1] at h2
    cases h2
  · exact ⟨g, act_congr he (by rw [hc]) hf request hg h1, e, by rw [← ha]; exact h2, h3⟩

/-! ### Examples -/

/-- Two groups for everybody: "ads" with denylist `/ads/`, "work" with denylist `/x/` and allowlist `/adsgood/`. -/
def workSetup (disabled : List Str) : Setup prefixEngine where
  env := plainEnv
  cfg := { denyGroups := [str! "ads", str! "work"], allowGroups := [(str! "work", 1)],
           clientGroupsBlock := [(str! "default", [str! "ads", str! "work"])] }
  handler := .zeroIP 60
  denyHist := [(str! "ads", [str! "/ads/"]), (str! "work", [str! "/x/"])]
  allowHist := [(str! "work", [str! "/adsgood/"])]
  deny := { regex := [(str! "ads", [str! "ads"]), (str! "work", [str! "x"])] }
  allow := { regex := [(str! "work", [str! "adsgood"])] }
  hdeny := rfl
  hallow := rfl
  status := { disabledGroups := disabled }

/-- **C102 is false as stated.** Disabling a group may block more: its allowlist is disabled, too. -/
theorem C102_disable_blocks_false :
    verdict (resolve plainEnv (workSetup []).state (countingNext (str! "t.")) (askFor [str! "adsgood.com."]) 0) = (some .resolved, 1) ∧
    verdict (resolve plainEnv (workSetup [str! "work"]).state (countingNext (str! "t.")) (askFor [str! "adsgood.com."]) 0) =
      (some .blocked, 0) := by
  decide

/-- A group with an allowlist `/good/` and, perhaps, a denylist `/bad/`. -/
def kidsSetup (denylist : Bool) : Setup prefixEngine where
  env := plainEnv
  cfg := { denyGroups := if denylist then [str! "kids"] else [], allowGroups := [(str! "kids", 1)],
           clientGroupsBlock := [(str! "default", [str! "kids"])] }
  handler := .zeroIP 60
  denyHist := if denylist then [(str! "kids", [str! "/bad/"])] else []
  allowHist := [(str! "kids", [str! "/good/"])]
  deny := { regex := if denylist then [(str! "kids", [str! "bad"])] else [] }
  allow := { regex := [(str! "kids", [str! "good"])] }
  hdeny := by cases denylist <;> rfl
  hallow := rfl

/-- The first denylist of a group with an allowlist unblocks everything that is not on it. (So the documentation says: without
denylist, only what is on the allowlist is allowed.) -/
theorem C102_first_denylist_false :
    verdict (resolve plainEnv (kidsSetup false).state (countingNext (str! "t.")) (askFor [str! "other.com."]) 0) = (some .blocked, 0) ∧
    verdict (resolve plainEnv (kidsSetup true).state (countingNext (str! "t.")) (askFor [str! "other.com."]) 0) = (some .resolved, 1) := by
  decide

/-- Clients are told by their address only. -/
def addressEnv : Blocking.Env := ⟨groupEnv.ipString, fun _ _ => false, fun _ _ => false⟩

/-- The client 0.0.0.2 has the group "work" with a denylist for one prefix, all others have the group "ads". -/
def homeSetup (work : Str) (disabled : List Str) (h : afterRefreshes prefixEngine [(str! "ads", [str! "/ads/"]), (str! "work", [work])] {} =
    some { regex := [(str! "ads", [str! "ads"]), (str! "work", [work.tail.dropLast])] }) : Setup prefixEngine where
  env := addressEnv
  cfg := { denyGroups := [str! "ads", str! "work"], clientGroupsBlock := [(str! "default", [str! "ads"]), (str! "10.0.0.2", [str! "work"])] }
  handler := .zeroIP 60
  denyHist := [(str! "ads", [str! "/ads/"]), (str! "work", [work])]
  allowHist := []
  deny := { regex := [(str! "ads", [str! "ads"]), (str! "work", [work.tail.dropLast])] }
  allow := {}
  hdeny := h
  hallow := rfl
  status := { disabledGroups := disabled }

theorem homeSetup_groups (work : Str) (disabled : List Str) (h) (hd : str! "ads" ∉ disabled) (request : Request)
    (hr : request.clientIP = some (.v4 1#32)) (g : Str) : (homeSetup work disabled h).Act request g ↔ g = str! "ads" := by
  rw [← Setup.mem_groups]
  unfold Setup.groups groupsToCheck matchedGroups
  rw [hr]
  have hm : (request.clientNames.flatMap (fun n => (homeSetup work disabled h).state.cgb.flatMap (fun e =>
      if (homeSetup work disabled h).env.nameMatches e.1 n then e.2 else []))) = [] := by
    rw [List.flatMap_eq_nil_iff]
    intro n _
    rfl
  rw [hm]
  simp only [mem_sortStr]
  rw [List.mem_filter]
  show g ∈ [str! "ads"] ∧ (!isGroupDisabled (homeSetup work disabled h).state.status g) = true ↔ _
  rw [List.mem_singleton]
  constructor
  · exact fun h => h.1
  · rintro rfl
    refine ⟨rfl, ?_⟩
    have : (homeSetup work disabled h).state.status.disabledGroups = disabled := rfl
    simp only [isGroupDisabled, this, Bool.not_eq_true', List.any_eq_false, beq_iff_eq]
    rintro x hx rfl
    exact hd hx

theorem homeSetup_same (work work' : Str) (disabled disabled' : List Str) (h h') (hd : str! "ads" ∉ disabled) (hd' : str! "ads" ∉ disabled')
    (names : List Str) : SameForClient (homeSetup work disabled h) (homeSetup work' disabled' h') (some (.v4 1#32)) names := by
  intro request hr _
  refine ⟨fun g => ?_, fun g hg x => ?_, fun g hg x => Iff.rfl, fun g hg => Iff.rfl⟩
  · rw [homeSetup_groups work disabled h hd request hr, homeSetup_groups work' disabled' h' hd' request hr]
  · rw [(homeSetup_groups work disabled h hd request hr g).1 hg]
    exact Iff.rfl

-- Whatever is denied for the client 0.0.0.2, and whether or not blocking is disabled for it: the client 0.0.0.1 is answered the same.
example (name : Str) (w : Chain.World Nat) :
    Chain.serve sampleServer (withLists (groupConfig {} [] []) (homeSetup (str! "/www/") [] rfl)) countingUp (.udp (some (.v4 1#32))) none (query name) w =
    Chain.serve sampleServer (withLists (groupConfig {} [] []) (homeSetup (str! "/ftp/") [str! "work"] rfl)) countingUp (.udp (some (.v4 1#32)))
      none (query name) w := by
  have key := C102_query sampleServer (groupConfig {} [] []) countingUp (homeSetup (str! "/www/") [] rfl)
    (homeSetup (str! "/ftp/") [str! "work"] rfl) rfl rfl (.udp (some (.v4 1#32))) none (query name) w
  refine key ?_
  intro r h
  have hr : r.clientIP = some (.v4 1#32) := by
    unfold identified at h
    have ht : Ecs.transform (groupConfig {} [] []).ecs (Server.newRequestFromDNS (.udp (some (.v4 1#32))) none (query name)) =
        some (Server.newRequestFromDNS (.udp (some (.v4 1#32))) none (query name)) := rfl
    rw [ht] at h
    simp only [Option.map_some, Option.some.injEq] at h
    rw [← h]
    rfl
  rw [hr]
  exact ⟨homeSetup_same _ _ _ _ _ _ (by decide) (by decide) _, fun _ => homeSetup_same _ _ _ _ _ _ (by decide) (by decide) _⟩

-- ... while the other client sees the difference.
example :
    ((Chain.serve sampleServer (withLists (groupConfig {} [] []) (homeSetup (str! "/www/") [] rfl)) countingUp (.udp (some (.v4 2#32))) none
      (query (str! "www.org.")) sampleWorld).1.map (fun m => m.answer.map RR.data),
     (Chain.serve sampleServer (withLists (groupConfig {} [] []) (homeSetup (str! "/ftp/") [] rfl)) countingUp (.udp (some (.v4 2#32))) none
      (query (str! "www.org.")) sampleWorld).1.map (fun m => m.answer.map RR.data)) =
    ([[.a (.v4 0#32)]], [[.a (.v4 0x01020304#32)]]) := by decide +kernel

-- The hypothesis of `C102_disabled_partial` holds for these lists.
example (t : TState) (name : Str) (w : Chain.World Nat) :
    let s := { homeSetup (str! "/www/") [] rfl with status := (tstep (homeSetup (str! "/www/") [] rfl).cfg t (.disable 5 [])).status }
    Chain.serve sampleServer (withLists sampleConfig s) countingUp (.udp (some (.v4 2#32))) none (query name) w =
    Chain.serve sampleServer (withLists sampleConfig (noLists addressEnv (.zeroIP 60))) countingUp (.udp (some (.v4 2#32))) none (query name) w := by
  intro s
  refine C102_disabled_partial sampleServer sampleConfig countingUp s t 5 rfl _ _ _ w ?_
  show ∀ e ∈ [(str! "default", [str! "ads"]), (str! "10.0.0.2", [str! "work"])], ∀ g ∈ e.2, g ∈ [str! "ads", str! "work"] ∨ g = str! "default"
  decide

-- The hypotheses of the theorems about more and fewer entries hold: more denied, a group without allowlist disabled.
example (request : Request) (q : Question) (hq : request.req.question = [q]) (next : Resolver Nat) (w : Nat) :
    let s1 := homeSetup (str! "/www/") [] rfl
    let s2 := homeSetup (str! "/www/") [str! "work"] rfl
    messageOf (Blocking.resolve s2.env s2.state next request w).1 = messageOf (Blocking.resolve s1.env s1.state next request w).1 ∨
    (Blocking.resolve s2.env s2.state next request w = next request w ∧
      ∃ r, (Blocking.resolve s1.env s1.state next request w).1 = .ok r ∧ r.rtype = .blocked) := by
  intro s1 s2
  exact C102_disable_partial s1 s2 rfl rfl rfl rfl rfl rfl (by intro g h; cases h) (fun _ _ _ => rfl) next request w q hq

end Verif.Props
