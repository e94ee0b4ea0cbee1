/-
C130: from the text of lists to what clients get.
-/
import Verif.Props.Refreshing
import Verif.Props.ListNames
import Verif.Props.Chain

namespace Verif.Props
open Verif.Spec Verif.Lists Verif.Parsers Verif.StringCache Verif.Refreshing Verif.Dns Verif.Blocking Verif.ExpCache

variable {E : RegexEngine} {W : Type}

/-- A source that can be opened and read to its end, without lines over 64 KiB, and with at most `maxErrors` lines that
cannot be understood. -/
def Readable (penv : Parsers.Env) (maxErrors : Option Nat) (s : SourceState) : Prop :=
  ∃ f, s = .opened f ∧ fileEnd f = .eof ∧
    ∀ n, maxErrors = some n → (fileItems f.content).countP (fun t => (unmarshalHosts penv t).isNone) ≤ n

/-- `c` is the result of loading the sources of the groups, by goroutines that ran in some order. -/
def LoadedFrom (penv : Parsers.Env) (maxErrors : Option Nat) (sources : List (Str × SourceState)) (groups : List Str)
    (c : Caches E) : Prop :=
  ∃ limit cap ms st, run limit cap (Refreshing.start (sources.map (fun s => (s.1, ofList penv maxErrors s.2)))) ms = some st ∧
    st.done = true ∧ refreshAll E {} (groups.map (fun g => ⟨g, st.received g, st.err g⟩)) = some c

/-- A line of one of the group's sources is about the name or address `x`. -/
def LineAbout (E : RegexEngine) (penv : Parsers.Env) (sources : List (Str × SourceState)) (g x : Str) : Prop :=
  ∃ f, (g, SourceState.opened f) ∈ sources ∧ ∃ t ∈ fileItems f.content, ∃ ws, unmarshalHosts penv t = some ws ∧
    ∃ w ∈ ws, ∃ e, (penv.parseIP w = some e ∨ (penv.parseIP w = none ∧ e = w)) ∧ EntryMatches E e x

theorem readable_fine {penv : Parsers.Env} {maxErrors : Option Nat} {s : SourceState} (h : Readable penv maxErrors s) :
    ¬ SourceFails (ofList penv maxErrors s) := by
  obtain ⟨f, rfl, h1, h2⟩ := h
  rintro ⟨sent, e, hn⟩
  have hp := C35_parse_all (unmarshalHosts penv) maxErrors f h2
  rcases hn with ⟨e', h, _⟩ | ⟨_, _, h⟩
  · cases h
  · simp only [ofList, hp, h1] at h
    split at h <;> cases h

theorem ofList_readable {penv : Parsers.Env} {maxErrors : Option Nat} {f : Parsers.Source}
    (h : Readable penv maxErrors (.opened f)) (e : Str) :
    e ∈ (ofList penv maxErrors (.opened f)).lines.flatten ↔
      ∃ t ∈ fileItems f.content, ∃ ws, unmarshalHosts penv t = some ws ∧
        ∃ w ∈ ws, penv.parseIP w = some e ∨ (penv.parseIP w = none ∧ e = w) := by
  obtain ⟨f', hf, h1, h2⟩ := h
  cases hf
  have hp := C35_parse_all (unmarshalHosts penv) maxErrors f h2
  have hcanon : ∀ w e, e = canonHost penv w ↔ penv.parseIP w = some e ∨ (penv.parseIP w = none ∧ e = w) := by
    intro w e
    unfold canonHost
    cases penv.parseIP w with
    | none => simp
    | some s => simp [eq_comm]
  simp only [← hcanon, ofList, hp, List.mem_flatten, List.mem_map, List.mem_filterMap]
  constructor
  · rintro ⟨l, ⟨ws, ⟨t, ht, hu⟩, rfl⟩, he⟩
    obtain ⟨w, hw, rfl⟩ := List.mem_map.1 he
    exact ⟨t, ht, ws, hu, w, hw, rfl⟩
  · rintro ⟨t, ht, ws, hu, w, hw, rfl⟩
    exact ⟨_, ⟨ws, ⟨t, ht, hu⟩, rfl⟩, List.mem_map_of_mem hw⟩

theorem currentList_map (es : Str → List Str) (groups : List Str) (g : Str) :
    currentList g (groups.map (fun g => (g, es g))) = if g ∈ groups then es g else [] := by
  induction groups with
  | nil => rfl
  | cons g' gs ih =>
    rw [List.map_cons, currentList, List.map_map]
    have hm : gs.map (Prod.fst ∘ fun g => (g, es g)) = gs := by
      rw [show (Prod.fst ∘ fun g => (g, es g)) = (id : Str → Str) from rfl, List.map_id]
    rw [hm, ih]
    by_cases h : g ∈ gs
    · rw [if_pos h, if_pos h, if_pos (List.mem_cons_of_mem _ h)]
    · rw [if_neg h]
      by_cases h' : g' = g
      · rw [if_pos h', if_pos (by rw [h']; exact List.mem_cons_self), h']
      · rw [if_neg h', if_neg]
        intro hc
        rcases List.mem_cons.1 hc with rfl | hc
        · exact h' rfl
        · exact h hc

theorem received_iff {penv : Parsers.Env} {maxErrors : Option Nat} {sources : List (Str × SourceState)}
    (hs : ∀ s ∈ sources, Readable penv maxErrors s.2) {limit cap : Nat} {ms : List Move} {st : State Str}
    (hrun : run limit cap (Refreshing.start (sources.map (fun s => (s.1, ofList penv maxErrors s.2)))) ms = some st)
    (hd : st.done = true) (g e : Str) :
    e ∈ st.received g ↔ ∃ f, (g, SourceState.opened f) ∈ sources ∧ e ∈ (ofList penv maxErrors (.opened f)).lines.flatten := by
  have hfine : ∀ s ∈ sources.map (fun s => (s.1, ofList penv maxErrors s.2)), ¬ SourceFails s.2 := by
    intro s hs'
    obtain ⟨s', hs1, rfl⟩ := List.mem_map.1 hs'
    exact readable_fine (hs s' hs1)
  rw [(C117_complete limit cap _ ms st hrun hd hfine g).2.mem_iff, List.mem_flatMap]
  constructor
  · rintro ⟨s, hs', he⟩
    obtain ⟨h1, h2⟩ := List.mem_filter.1 hs'
    obtain ⟨s', hs'', rfl⟩ := List.mem_map.1 h1
    obtain ⟨f, hf, _⟩ := hs s' hs''
    obtain ⟨g', st'⟩ := s'
    simp only [decide_eq_true_eq] at h2 hf
    subst h2 hf
    exact ⟨f, hs'', he⟩
  · rintro ⟨f, hf, he⟩
    exact ⟨_, List.mem_filter.2 ⟨List.mem_map_of_mem hf, decide_eq_true rfl⟩, he⟩

/-- What the groups have received when their sources are readable. -/
theorem loaded_history {penv : Parsers.Env} {maxErrors : Option Nat} {sources : List (Str × SourceState)} {groups : List Str}
    {c : Caches E} (h : LoadedFrom penv maxErrors sources groups c) (hs : ∀ s ∈ sources, Readable penv maxErrors s.2)
    (hg : ∀ s ∈ sources, s.1 ∈ groups) :
    ∃ hist, afterRefreshes E hist {} = some c ∧
      ∀ g x, (∃ e ∈ currentList g hist, EntryMatches E e x) ↔ LineAbout E penv sources g x := by
  obtain ⟨limit, cap, ms, st, hrun, hd, hr⟩ := h
  have hfine : ∀ s ∈ sources.map (fun s => (s.1, ofList penv maxErrors s.2)), ¬ SourceFails s.2 := by
    intro s hs'
    obtain ⟨s', hs1, rfl⟩ := List.mem_map.1 hs'
    exact readable_fine (hs s' hs1)
  have hcomp := C117_complete limit cap _ ms st hrun hd hfine
  refine ⟨groups.map (fun g => (g, st.received g)), ?_, ?_⟩
  · have := refreshAll_afterRefreshes hr
    rw [List.filter_eq_self.2, List.map_map] at this
    · exact this
    · intro r hr'
      obtain ⟨g, _, rfl⟩ := List.mem_map.1 hr'
      exact decide_eq_true (.inl (hcomp g).1)
  · intro g x
    have hmem := received_iff hs hrun hd g
    rw [currentList_map]
    constructor
    · rintro ⟨e, he, hm⟩
      split at he
      · obtain ⟨f, hf, he⟩ := (hmem e).1 he
        obtain ⟨t, ht, ws, hu, w, hw, hc⟩ := (ofList_readable (hs _ hf) e).1 he
        exact ⟨f, hf, t, ht, ws, hu, w, hw, e, hc, hm⟩
      · cases he
    · rintro ⟨f, hf, t, ht, ws, hu, w, hw, e, hc, hm⟩
      rw [if_pos (hg _ hf)]
      exact ⟨e, (hmem e).2 ⟨f, hf, (ofList_readable (hs _ hf) e).2 ⟨t, ht, ws, hu, w, hw, hc⟩⟩, hm⟩

/-! ### Servers whose lists are texts -/

/-- Blocking as configured, with lists loaded from texts. -/
structure Texts (E : RegexEngine) where
  env : Blocking.Env
  cfg : BCfg
  handler : Handler
  status : Status := {}
  fqdnIPs : Str → Option (List IP) := fun _ => none
  penv : Parsers.Env
  maxErrors : Option Nat
  denySources : List (Str × SourceState)
  allowSources : List (Str × SourceState)
  denyGroups : List Str
  allowGroups : List Str
  deny : Caches E
  allow : Caches E
  hdeny : LoadedFrom penv maxErrors denySources denyGroups deny
  hallow : LoadedFrom penv maxErrors allowSources allowGroups allow
  readDeny : ∀ s ∈ denySources, Readable penv maxErrors s.2 ∧ s.1 ∈ denyGroups
  readAllow : ∀ s ∈ allowSources, Readable penv maxErrors s.2 ∧ s.1 ∈ allowGroups

/-- The state of the blocking resolver (blocking_resolver.go 139-153). -/
def Texts.state (t : Texts E) : BState E where
  handler := t.handler
  deny := t.deny
  allow := t.allow
  allowOnly := allowlistOnlyGroups t.cfg
  cgb := clientGroupsBlock t.cfg
  status := t.status
  fqdnIPs := t.fqdnIPs

/-- A group in effect for the client. -/
def Texts.Act (t : Texts E) (request : Request) (g : Str) : Prop :=
  Active t.env t.cfg t.fqdnIPs t.status.disabledGroups request g

/-- A line of a denylist of one of the client's groups is about `x`. -/
def Texts.Denies (t : Texts E) (request : Request) (x : Str) : Prop :=
  ∃ g, t.Act request g ∧ LineAbout E t.penv t.denySources g x

/-- A line of an allowlist of one of the client's groups is about `x`. -/
def Texts.Allows (t : Texts E) (request : Request) (x : Str) : Prop :=
  ∃ g, t.Act request g ∧ LineAbout E t.penv t.allowSources g x

/-- One of the client's groups has allowlists only. -/
def Texts.Exclusive (t : Texts E) (request : Request) : Prop := ∃ g, t.Act request g ∧ AllowOnly t.cfg g

theorem Texts.setup (t : Texts E) : ∃ s : Setup E, s.env = t.env ∧ s.state = t.state ∧ s.handler = t.handler ∧
    (∀ request x, s.Allowed request x ↔ t.Allows request x) ∧ (∀ request x, s.Denied request x ↔ t.Denies request x) ∧
    ∀ request, s.OnlyAllowed request ↔ t.Exclusive request := by
  obtain ⟨dh, d1, d2⟩ := loaded_history t.hdeny (fun s h => (t.readDeny s h).1) (fun s h => (t.readDeny s h).2)
  obtain ⟨ah, a1, a2⟩ := loaded_history t.hallow (fun s h => (t.readAllow s h).1) (fun s h => (t.readAllow s h).2)
  refine ⟨⟨t.env, t.cfg, t.handler, dh, ah, t.deny, t.allow, d1, a1, t.status, t.fqdnIPs⟩, rfl, rfl, rfl, ?_, ?_, ?_⟩
  · intro request x
    exact exists_congr fun g => and_congr Iff.rfl (a2 g x)
  · intro request x
    exact exists_congr fun g => and_congr Iff.rfl (d2 g x)
  · intro request
    exact Iff.rfl

/-! ### C130 -/

/-- **C130.** What is written on a line of a denylist is what clients do not get: if a line of a denylist of one of the
client's groups is about the name asked for and no line of an allowlist of these groups is, then the client gets the
block answer and nobody is asked - however the goroutines that loaded the lists were scheduled, whatever is in the cache,
and whatever the upstreams are. (The name is not configured locally, its type is not filtered. `r2` is the request with the
names of the client; to find these out, a lookup may have been made, which gave `(cache, w)`.) -/
theorem C130_blocked (senv : Server.Env) {len : Msg → Nat} (htr : TruncContract len senv.trunc) (t : Texts E)
    (c : Chain.Config E W) (henv : c.blockEnv = t.env) (hstate : c.blockState = t.state) (hd : 0 < c.customDepth)
    (remote : Server.Addr) (sni : Option Str) (msg : Msg) (q : Question) (hq : msg.question = [q]) (hf : q.qtype ∉ c.filterTypes)
    (hfq : c.fqdnOnly = false ∨ '.' ∈ extractDomain q.name) (r1 r2 : Request)
    (h1 : Ecs.transform c.ecs (Server.newRequestFromDNS remote sni msg) = some r1) (cn cn' : St (List Str))
    (v : Caching.CState × W) (cache : Caching.CState) (w : W)
    (h2 : ClientNames.withNames c.names c.namesLookup r1 cn v = (r2, cn', (cache, w)))
    (hn : NotLocal c r2 q) (hallow : ¬ t.Allows r2 (extractDomain q.name))
    (hdeny : t.Exclusive r2 ∨ t.Denies r2 (extractDomain q.name)) (up : Resolver W) (queue : QueryLog.Queue) :
    ∃ m queue', Chain.serve senv c up remote sni msg (cn, queue, v) = ([m], (cn', queue', cache, w)) ∧
      Replies msg m ∧ m.rcode = (t.handler.handleBlock q (({} : Msg).setReply msg)).rcode ∧
      (m.answer = (t.handler.handleBlock q (({} : Msg).setReply msg)).answer ∨ m.truncated = true) := by
  obtain ⟨s, e1, e2, e3, ha, hdn, ho⟩ := t.setup
  obtain ⟨y, m', queue', hw, hty, hsame⟩ := C61_blocked_everywhere s c (henv.trans e1.symm) (hstate.trans e2.symm) hd
    (Server.newRequestFromDNS remote sni msg) r1 r2 rfl q hq hf hfq h1 cn cn' v cache w h2 hn (fun h => hallow ((ha _ _).1 h))
    (hdeny.imp (fun h => (ho _).2 h) (fun h => (hdn _ _).2 h)) up msg queue
  have hr := (C28_rest_unchanged c.ecs _ r1 h1).1
  unfold SameOutsideExtra at hr hsame
  have hset : ({} : Msg).setReply r1.req = ({} : Msg).setReply msg := by
    rw [show ({} : Msg).setReply r1.req = ({} : Msg).setReply { r1.req with extra := [] } from rfl, hr]
    rfl
  rw [e3, hset] at hsame
  obtain ⟨b1, b2, b3⟩ := handleBlock_header t.handler q (({} : Msg).setReply msg)
  have hid : y.res.id = (t.handler.handleBlock q (({} : Msg).setReply msg)).id := by
    have := congrArg Msg.id hsame
    exact this
  have hresp : y.res.response = (t.handler.handleBlock q (({} : Msg).setReply msg)).response := by
    have := congrArg Msg.response hsame
    exact this
  have hques : y.res.question = (t.handler.handleBlock q (({} : Msg).setReply msg)).question := by
    have := congrArg Msg.question hsame
    exact this
  have hcode : y.res.rcode = (t.handler.handleBlock q (({} : Msg).setReply msg)).rcode := by
    have := congrArg Msg.rcode hsame
    exact this
  have hansw : y.res.answer = (t.handler.handleBlock q (({} : Msg).setReply msg)).answer := by
    have := congrArg Msg.answer hsame
    exact this
  have hrep : Replies msg y.res := by
    refine ⟨?_, ?_, ?_⟩
    · exact hid.trans b1
    · exact hresp.trans b2
    · rw [hques, b3, setReply_question hq, hq]
      rfl
  have hto : Chain.toM (Chain.whole c up) (Server.newRequestFromDNS remote sni msg) (cn, queue, v) =
      (.ok y, m', (cn', queue', cache, w)) := by
    unfold Chain.toM
    rw [show (Server.newRequestFromDNS remote sni msg).req = msg from rfl, hw]
  obtain ⟨m, hm, g1, g2, _, g3⟩ := C39_answer senv htr (Chain.toM (Chain.whole c up)) remote sni msg (by rw [hq]; simp)
    (cn, queue, v) y (by rw [hto]) hrep
  refine ⟨m, queue', ?_, g1, ?_, ?_⟩
  · unfold Chain.serve
    rw [hm, hto]
  · exact g2.trans hcode
  · exact g3.imp_left (fun h => h.trans hansw)

/-- **C130.** What is written on no line is not touched: if no line of the lists of the client's groups is about the name
asked for, nor about an address or alias in the answer, and no group of the client has allowlists only, the answer is that
of the resolvers behind the blocking. -/
theorem C130_untouched (t : Texts E) (next : Resolver W) (request : Request) (w : W)
    (hx : ¬ t.Exclusive request)
    (hname : ∀ q ∈ request.req.question, ¬ t.Allows request (extractDomain q.name) ∧ ¬ t.Denies request (extractDomain q.name))
    (hans : ∀ r, (next request w).1 = .ok r → ∀ rr ∈ r.res.answer, ∀ x, Checked t.env rr x → ¬ t.Denies request x) :
    Blocking.resolve t.env t.state next request w = next request w := by
  obtain ⟨s, e1, e2, e3, ha, hdn, ho⟩ := t.setup
  rw [← e1, ← e2]
  refine C15_passed s next request w (fun q hq => ⟨fun h => (hname q hq).1 ((ha _ _).1 h), fun h => hx ((ho _).1 h),
    fun h => (hname q hq).2 ((hdn _ _).1 h)⟩) ?_
  rintro r hr ⟨rr, hrr, x, hc, _, hd⟩
  exact hans r hr rr hrr x (e1 ▸ hc) ((hdn _ _).1 hd)

/-- **C130.** A line of an allowlist makes an exception: the resolvers behind the blocking answer, whatever their answer
contains and whatever the denylists say. -/
theorem C130_allowed (t : Texts E) (next : Resolver W) (request : Request) (q : Question) (hq : request.req.question = [q])
    (w : W) (h : t.Allows request (extractDomain q.name)) :
    Blocking.resolve t.env t.state next request w = next request w := by
  obtain ⟨s, e1, e2, e3, ha, hdn, ho⟩ := t.setup
  rw [← e1, ← e2]
  exact C15_allowed_by_name s next request w ⟨[], q, [], hq, (fun _ h => by cases h), (ha _ _).2 h⟩

/-- **C130.** An address or alias in the answer that a line of a denylist is about, and no line of an allowlist, gives the
block answer. -/
theorem C130_answer_blocked (t : Texts E) (next : Resolver W) (request : Request) (q : Question) (hq : request.req.question = [q])
    (w w1 : W) (hx : ¬ t.Exclusive request)
    (hname : ¬ t.Allows request (extractDomain q.name) ∧ ¬ t.Denies request (extractDomain q.name)) (r : Response)
    (hnext : next request w = (.ok r, w1)) (rr : RR) (hrr : rr ∈ r.res.answer) (x : Str) (hc : Checked t.env rr x)
    (hal : ¬ t.Allows request x) (hde : t.Denies request x) :
    ∃ reason, Blocking.resolve t.env t.state next request w =
      (.ok { res := t.handler.handleBlock q (({} : Msg).setReply request.req), rtype := .blocked, reason := reason }, w1) := by
  obtain ⟨s, e1, e2, e3, ha, hdn, ho⟩ := t.setup
  rw [← e1, ← e2, ← e3]
  obtain ⟨o, ho', reason, rfl⟩ := C15_blocked_by_answer s next request w w1 q [] hq
    (by
      intro q' hq'
      rw [hq, List.mem_singleton] at hq'
      subst hq'
      exact ⟨fun h => hname.1 ((ha _ _).1 h), fun h => hx ((ho _).1 h), fun h => hname.2 ((hdn _ _).1 h)⟩)
    r hnext ⟨rr, hrr, x, e1 ▸ hc, fun h => hal ((ha _ _).1 h), (hdn _ _).2 hde⟩
  exact ⟨reason, ho'⟩

/-! ### Kinds of lines -/

/-- A line whose text is a host name: alone, in the form of ad blockers, or after an address as in a hosts file (with
other names). -/
inductive NameLine (penv : Parsers.Env) (w : Str) : Str → Prop where
  | alone : NameLine penv w w
  | marked : NameLine penv w ('|' :: '|' :: w ++ ['^'])
  | hosts (ip canon name : Str) (aliases : List Str) (hip : IsWord ip) (hpct : '%' ∉ ip) (hparse : penv.parseIP ip = some canon)
      (hnames : ∀ v ∈ name :: aliases, IsHostName v) (hw : w ∈ name :: aliases) : NameLine penv w (spaced (ip :: name :: aliases))

/-- **C130.** A line with a host name is about this name, in every letter case. -/
theorem C130_name_line (penv : Parsers.Env) (hascii : ∀ s, penv.toASCII s = some s) (sources : List (Str × SourceState)) (g : Str)
    (f : Parsers.Source) (hf : (g, SourceState.opened f) ∈ sources) (t : Str) (ht : t ∈ fileItems f.content) (w : Str)
    (hw : IsHostName w) (hip : penv.parseIP w = none) (hl : NameLine penv w t) (x : Str) (hx : lower x = lower w) :
    LineAbout E penv sources g x := by
  have hm : EntryMatches E w x := by
    refine .inr (.inr ⟨?_, hw.not (by decide), hw.word.1, hx.symm⟩)
    rintro ⟨body, rfl⟩
    exact hw.not (c := '/') (by decide) List.mem_cons_self
  have hin : ∃ ws, unmarshalHosts penv t = some ws ∧ w ∈ ws := by
    cases hl with
    | alone => exact ⟨_, C35_host_line penv _ hw (hascii _), List.mem_singleton.2 rfl⟩
    | marked => exact ⟨_, C35_abp_line penv w hw (hascii _), List.mem_singleton.2 rfl⟩
    | hosts ip canon name aliases h1 h2 h3 h4 h5 => exact ⟨_, C35_hosts_file_line penv ip canon name aliases h1 h2 h3 h4, h5⟩
  obtain ⟨ws, hu, hmem⟩ := hin
  exact ⟨f, hf, t, ht, ws, hu, w, hmem, w, .inr ⟨hip, rfl⟩, hm⟩

/-- **C130.** A line with a star and a host name is about this name and all names below it. -/
theorem C130_wildcard_line (penv : Parsers.Env) (hascii : ∀ s, penv.toASCII s = some s) (hip : ∀ s, penv.parseIP ('*' :: s) = none)
    (sources : List (Str × SourceState)) (g : Str) (f : Parsers.Source) (hf : (g, SourceState.opened f) ∈ sources) (w : Str)
    (hw : IsHostName w) (ht : '*' :: '.' :: w ∈ fileItems f.content) (x : Str) (hx : IsWithin x (lower w)) :
    LineAbout E penv sources g x := by
  refine ⟨f, hf, _, ht, _, C35_wildcard_line penv w hw hip hascii, _, List.mem_singleton.2 rfl, _, .inr ⟨hip _, rfl⟩,
    .inr (.inl ⟨?_, List.mem_cons_self, w, rfl, hw.not (by decide), ?_, hx⟩)⟩
  · rintro ⟨body, h⟩
    cases h
  · intro hnil
    have hne := splitChar_ne_nil '.' w
    cases hc : splitChar '.' w with
    | nil => exact hne hc
    | cons l ls =>
      have hl : 1 ≤ l.length := (hw.2 l (by rw [hc]; exact List.mem_cons_self)).1
      have : l ∈ labels w := List.mem_filter.2 ⟨by rw [hc]; exact List.mem_cons_self, by
        simp only [ne_eq, decide_not, Bool.not_eq_eq_eq_not, Bool.not_true, decide_eq_false_iff_not]
        rintro rfl
        simp at hl⟩
      rw [hnil] at this
      cases this

/-- **C130.** A line with a regular expression is about the names it matches. -/
theorem C130_regex_line (penv : Parsers.Env) (sources : List (Str × SourceState)) (g : Str) (f : Parsers.Source)
    (hf : (g, SourceState.opened f) ∈ sources) (body : Str) (ht : '/' :: body ++ ['/'] ∈ fileItems f.content)
    (hw : IsWord ('/' :: body ++ ['/'])) (hip : penv.parseIP ('/' :: body ++ ['/']) = none)
    (hc : penv.compiles ('/' :: body ++ ['/']) = true) (r : E.Regex) (hr : E.compile (trimSpace body) = some r) (x : Str)
    (hx : E.isMatch r x = true) : LineAbout E penv sources g x :=
  ⟨f, hf, _, ht, _, (C35_regex_line penv _ hw rfl List.getLast?_concat hip).1 hc, _, List.mem_singleton.2 rfl, _, .inr ⟨hip, rfl⟩,
    .inl ⟨body, r, rfl, hr, hx⟩⟩

/-! ### Loading -/

/-- **C130.** Readable lists are loaded: whatever the order in which the goroutines ran, when they have ended there is a
result, unless a line is a single slash (which ends the process, see C05). -/
theorem C130_loads (penv : Parsers.Env) (maxErrors : Option Nat) (sources : List (Str × SourceState)) (groups : List Str)
    (hs : ∀ s ∈ sources, Readable penv maxErrors s.2)
    (hslash : ∀ g f, (g, SourceState.opened f) ∈ sources → ∀ t ∈ fileItems f.content, ∀ ws, unmarshalHosts penv t = some ws →
      ∀ w ∈ ws, ∀ e, (penv.parseIP w = some e ∨ (penv.parseIP w = none ∧ e = w)) → e ≠ str! "/")
    (limit cap : Nat) (ms : List Move) (st : State Str)
    (hrun : run limit cap (Refreshing.start (sources.map (fun s => (s.1, ofList penv maxErrors s.2)))) ms = some st)
    (hd : st.done = true) :
    ∃ c : Caches E, LoadedFrom penv maxErrors sources groups c := by
  have hmem : ∀ g, str! "/" ∉ st.received g := by
    intro g hmem
    obtain ⟨f, hf, he⟩ := (received_iff hs hrun hd g _).1 hmem
    obtain ⟨t, ht, ws, hu, w, hw, hc⟩ := (ofList_readable (hs _ hf) _).1 he
    exact hslash g f hf t ht ws hu w hw _ hc rfl
  suffices h : ∀ (groups : List Str) (c : Caches E), ∃ c', refreshAll E c (groups.map (fun g => ⟨g, st.received g, st.err g⟩)) = some c' by
    obtain ⟨c, hc⟩ := h groups {}
    exact ⟨c, limit, cap, ms, st, hrun, hd, hc⟩
  intro groups
  induction groups with
  | nil => intro c; exact ⟨c, rfl⟩
  | cons g gs ih =>
    intro c
    rw [List.map_cons, refreshAll]
    cases hcr : createCacheForGroup E c g (st.received g) (st.err g) with
    | none => exact absurd ((createCacheForGroup_none_iff E c g _ _).1 hcr) (hmem g)
    | some c1 => exact ih c1

/-! ### An example -/

/-- A list as it is found in the world, and what its producer sends. -/
def worldlyList : Parsers.Source :=
  ⟨str! "# a list\nads.com # bad\n||evil.com^\n0.0.0.0 a.net b.net\n*.track.com\n", false⟩

theorem worldlyList_items : fileItems worldlyList.content =
    [str! "ads.com", str! "||evil.com^", str! "0.0.0.0 a.net b.net", str! "*.track.com"] := by decide +kernel

theorem worldlyList_readable : Readable demoEnv (some 0) (.opened worldlyList) :=
  ⟨_, rfl, by decide +kernel, by intro n hn; cases hn; decide +kernel⟩

theorem worldlyList_sent : ofList demoEnv (some 0) (.opened worldlyList) =
    { lines := [[str! "ads.com"], [str! "evil.com"], [str! "a.net", str! "b.net"], [str! "*.track.com"]] } := by
  obtain ⟨f, hf, h1, h2⟩ := worldlyList_readable
  cases hf
  simp only [ofList]
  rw [C35_parse_all _ _ _ h2, h1, worldlyList_items]
  congr 1

/-- A server with this list. -/
theorem worldly : ∃ t : Texts prefixEngine, t.env = plainEnv ∧ t.handler = .zeroIP 60 ∧ t.penv = demoEnv ∧
    t.cfg = { denyGroups := [str! "g"], allowGroups := [], clientGroupsBlock := [(str! "default", [str! "g"])] } ∧
    t.denySources = [(str! "g", .opened worldlyList)] ∧ t.allowSources = [] ∧ t.fqdnIPs = (fun _ => none) ∧ t.status = {} := by
  have hr : ∀ s ∈ [(str! "g", SourceState.opened worldlyList)], Readable demoEnv (some 0) s.2 := by
    intro s hs
    rw [List.mem_singleton.1 hs]
    exact worldlyList_readable
  have hn : ∀ s ∈ ([] : List (Str × SourceState)), Readable demoEnv (some 0) s.2 := fun s hs => by cases hs
  have hrun : ∃ st, run 4 1000 (Refreshing.start ([(str! "g", SourceState.opened worldlyList)].map
      (fun s => (s.1, ofList demoEnv (some 0) s.2))))
      [.start 0, .openSource 0, .next 0, .send 0, .next 0, .send 0, .take (str! "g"), .next 0, .send 0, .send 0, .next 0, .send 0,
       .next 0, .take (str! "g"), .take (str! "g"), .take (str! "g"), .take (str! "g")] = some st ∧ st.done = true := by
    simp only [List.map_cons, List.map_nil, worldlyList_sent]
    exact ⟨_, rfl, rfl⟩
  obtain ⟨st, hrun, hd⟩ := hrun
  obtain ⟨deny, hdeny⟩ := C130_loads (E := prefixEngine) demoEnv (some 0) _ [str! "g"] hr
    (by
      intro g f hf t ht ws hu w hw e he
      cases List.mem_singleton.1 hf
      rw [worldlyList_items] at ht
      have hall : ∀ t ∈ [str! "ads.com", str! "||evil.com^", str! "0.0.0.0 a.net b.net", str! "*.track.com"],
          ∀ ws ∈ unmarshalHosts demoEnv t, ∀ w ∈ ws, w ≠ str! "/" ∧ demoEnv.parseIP w = none := by decide +kernel
      obtain ⟨h1, h2⟩ := hall t ht ws hu w hw
      rcases he with he | ⟨_, rfl⟩
      · rw [h2] at he; cases he
      · exact h1)
    4 1000 _ st hrun hd
  obtain ⟨allow, hallow⟩ := C130_loads (E := prefixEngine) demoEnv (some 0) [] [] hn (fun g f hf => by cases hf) 4 1000 [] _ rfl rfl
  exact ⟨⟨plainEnv, { denyGroups := [str! "g"], allowGroups := [], clientGroupsBlock := [(str! "default", [str! "g"])] }, .zeroIP 60,
    {}, fun _ => none, demoEnv, some 0, _, [], [str! "g"], [], deny, allow, hdeny, hallow,
    fun s hs => ⟨hr s hs, by rw [List.mem_singleton.1 hs]; exact List.mem_singleton.2 rfl⟩, fun s hs => by cases hs⟩,
    rfl, rfl, rfl, rfl, rfl, rfl, rfl, rfl⟩

/-- All clients are in the group. -/
theorem worldly_act {t : Texts prefixEngine} (hs : t.status = {})
    (hc : t.cfg = { denyGroups := [str! "g"], allowGroups := [], clientGroupsBlock := [(str! "default", [str! "g"])] })
    (request : Request) : t.Act request (str! "g") := by
  unfold Texts.Act Active
  rw [hs, hc]
  refine And.intro (fun (h : _ ∈ ([] : List Str)) => nomatch h) ?_
  by_cases h : ∃ g', Assigned t.env { denyGroups := [str! "g"], allowGroups := [], clientGroupsBlock := [(str! "default", [str! "g"])] }
      t.fqdnIPs request g'
  · left
    obtain ⟨g', ident, gs, ⟨e, he, hid, rfl⟩, hst, _⟩ := h
    refine ⟨ident, e.2, ⟨e, he, hid, rfl⟩, hst, ?_⟩
    rw [List.mem_singleton.1 he]
    exact List.mem_singleton.2 rfl
  · exact .inr ⟨h, _, ⟨_, List.mem_singleton.2 rfl, by decide, rfl⟩, List.mem_singleton.2 rfl⟩

-- a name on the line of a hosts file, in other letters, as the query of a client
example (up : Resolver Nat) : ∃ c : Chain.Config prefixEngine Nat, ∃ m cn' queue',
    Chain.serve sampleServer c up (.udp (some (.v4 1#32))) none (query (str! "B.Net.")) sampleWorld =
      ([m], (cn', queue', sampleWorld.2.2)) ∧ Replies (query (str! "B.Net.")) m ∧ m.rcode = 0 := by
  obtain ⟨t, h1, h2, h3, h4, h5, h6, h7, h8⟩ := worldly
  refine ⟨{ sampleConfig with blockEnv := t.env, blockState := t.state }, ?_⟩
  obtain ⟨m, queue', g1, g2, g3, _⟩ := C130_blocked sampleServer sample_contract t
    { sampleConfig with blockEnv := t.env, blockState := t.state } rfl rfl (show 0 < sampleConfig.customDepth by decide) (.udp (some (.v4 1#32))) none
    (query (str! "B.Net.")) ⟨str! "B.Net.", typeA, 1⟩ rfl
    (show typeA ∉ sampleConfig.filterTypes by decide) (.inl rfl) _ _ rfl sampleWorld.1 _ sampleWorld.2.2
    sampleWorld.2.2.1 sampleWorld.2.2.2 (withNames_none _ rfl _ _ _)
    ⟨(walk_eq_none (AMap.get sampleConfig.customMapping) 8 (extractDomain (str! "B.Net.")) (by decide)).1 (by decide), (fun h => by cases h), .inr ⟨rfl, rfl⟩⟩
    (by
      rintro ⟨g, _, f, hf, _⟩
      rw [h6] at hf
      cases hf)
    (.inr ⟨str! "g", worldly_act h8 h4 _, by
      rw [h3, h5]
      refine C130_name_line demoEnv (fun _ => rfl) _ (str! "g") worldlyList (List.mem_singleton.2 rfl) (str! "0.0.0.0 a.net b.net") ?_
        (str! "b.net") (by decide) (by decide)
        (.hosts (str! "0.0.0.0") (str! "0.0.0.0") (str! "a.net") [str! "b.net"] (by decide) (by decide) (by decide) (by decide) (by decide))
        _ (by decide)
      rw [worldlyList_items]
      decide⟩)
    up sampleWorld.2.1
  refine ⟨m, _, queue', g1, g2, ?_⟩
  rw [g3, h2]
  rfl

-- a name that no line is about
example (t : Texts prefixEngine) (h3 : t.penv = demoEnv) (h5 : t.denySources = [(str! "g", .opened worldlyList)])
    (request : Request) : ¬ t.Denies request (str! "www.org") := by
  rintro ⟨g, _, f, hf, l, hl, ws, hu, w, hw, e, he, hm⟩
  rw [h5] at hf
  cases List.mem_singleton.1 hf
  rw [worldlyList_items] at hl
  rw [h3] at hu he
  have hall : ∀ l ∈ [str! "ads.com", str! "||evil.com^", str! "0.0.0.0 a.net b.net", str! "*.track.com"],
      ∀ ws ∈ unmarshalHosts demoEnv l, ∀ w ∈ ws, demoEnv.parseIP w = none ∧ w.head? ≠ some '/' ∧ lower w ≠ lower (str! "www.org") ∧
        ¬ ('*' ∈ w ∧ IsWithin (str! "www.org") (lower (w.drop 2))) := by decide +kernel
  obtain ⟨a1, a2, a3, a4⟩ := hall l hl ws hu w hw
  rcases he with he | ⟨_, rfl⟩
  · rw [a1] at he; cases he
  · rcases hm with ⟨body, r, rfl, _⟩ | ⟨_, hs, dom, rfl, _, _, hd⟩ | ⟨_, _, _, hp⟩
    · exact a2 rfl
    · exact a4 ⟨hs, hd⟩
    · exact a3 hp

end Verif.Props
