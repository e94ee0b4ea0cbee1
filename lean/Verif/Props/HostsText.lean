/-
C131: from the text of hosts files to what clients get.
-/
import Verif.Model.HostsText
import Verif.Props.Written
import Verif.Props.HostsFile

namespace Verif.Props
open Verif.Spec Verif.Lists Verif.Parsers Verif.StringCache Verif.Refreshing Verif.Dns Verif.ExpCache

variable {E : RegexEngine} {W : Type}

/-- The text `t` of a line gives address `ip` to the name `n`: it is the address (with nothing behind a percent sign),
then names, of which `n` is one. With the loopback filter the address is no loopback address and the first name is not
localhost. -/
def LineGives (parseIP : Str → Option IP) (filter : Bool) (t n : Str) (ip : IP) : Prop :=
  ∃ addr name names, (fields t = addr :: name :: names ∨ fields t = (addr ++ ['%']) :: name :: names) ∧ '%' ∉ addr ∧
    parseIP addr = some ip ∧ (∀ v ∈ name :: names, validDomainName v = true) ∧ n ∈ name :: names ∧
    (filter = true → ¬ Loopback ip ∧ name ≠ str! "localhost")

theorem takeWhile_pct : ∀ (s : Str), '%' ∉ s.takeWhile (· ≠ '%') ∧
    ((s.dropWhile (· ≠ '%')).drop 1 = [] ↔ s = s.takeWhile (· ≠ '%') ∨ s = s.takeWhile (· ≠ '%') ++ ['%'])
  | [] => by simp
  | c :: s => by
    obtain ⟨h1, h2⟩ := takeWhile_pct s
    by_cases h : c = '%'
    · subst h
      simp
    · have hd : decide (c ≠ '%') = true := decide_eq_true h
      rw [List.takeWhile_cons, if_pos hd, List.dropWhile_cons, if_pos hd]
      refine ⟨?_, ?_⟩
      · simp only [List.mem_cons, not_or]
        exact ⟨fun e => h e.symm, h1⟩
      · rw [h2, List.cons_append, List.cons.injEq, List.cons.injEq]
        simp

theorem takeWhile_no_pct {s : Str} (h : '%' ∉ s) : s.takeWhile (· ≠ '%') = s := by
  induction s with
  | nil => rfl
  | cons c s ih =>
    simp only [List.mem_cons, not_or] at h
    rw [List.takeWhile_cons, if_pos (decide_eq_true (Ne.symm h.1)), ih h.2]

theorem takeWhile_pct_end {s : Str} (h : '%' ∉ s) : (s ++ ['%']).takeWhile (· ≠ '%') = s := by
  rw [List.takeWhile_append_of_pos]
  · simp
  · intro c hc
    simp only [ne_eq, decide_not, Bool.not_eq_eq_eq_not, Bool.not_true, decide_eq_false_iff_not]
    rintro rfl
    exact h hc

/-- What the entries of a line give. -/
theorem entry_gives (parseIP : Str → Option IP) (filter : Bool) (t n : Str) (ip : IP) :
    (∃ e, HostsText.entry parseIP t = some e ∧ HostsFile.admitted filter e = true ∧ Lists e n ip) ↔ LineGives parseIP filter t n ip := by
  constructor
  · rintro ⟨e, he, ha, hl⟩
    unfold HostsText.entry at he
    cases hf : fields t with
    | nil => rw [hf] at he; cases he
    | cons word hosts =>
      rw [hf] at he
      simp only at he
      cases hp : parseIP (word.takeWhile (· ≠ '%')) with
      | none => rw [hp] at he; cases he
      | some ip' =>
        rw [hp] at he
        simp only at he
        split at he
        · next hv =>
          cases hosts with
          | nil => cases he
          | cons name names =>
            cases he
            obtain ⟨ha1, ha2⟩ := (C34_admitted filter _).1 ha
            obtain ⟨hn, hi⟩ := takeWhile_pct word
            refine ⟨word.takeWhile (· ≠ '%'), name, names, ?_, hn, ?_, ?_, ?_, ?_⟩
            · exact (hi.1 ha1).imp (fun h => by rw [hf]; exact congrArg (· :: _) h) (fun h => by rw [hf]; exact congrArg (· :: _) h)
            · rw [hp, ← hl.1]
            · exact List.all_eq_true.1 hv
            · rcases hl.2 with h | h
              · rw [← h]; exact List.mem_cons_self
              · exact List.mem_cons_of_mem _ h
            · intro h
              obtain ⟨h1, h2⟩ := ha2 h
              exact ⟨hl.1 ▸ h1, h2⟩
        · cases he
  · rintro ⟨addr, name, names, hf, hpct, hp, hv, hn, hx⟩
    have hall : (name :: names).all validDomainName = true := List.all_eq_true.2 hv
    rcases hf with hf | hf
    · refine ⟨{ ip := ip, interface := [], name := name, aliases := names }, ?_, (C34_admitted filter _).2 ⟨rfl, hx⟩, rfl, ?_⟩
      · unfold HostsText.entry
        rw [hf]
        simp only [takeWhile_no_pct hpct, hp, hall, if_true]
        rw [(takeWhile_pct addr).2.2 (.inl (takeWhile_no_pct hpct).symm)]
      · rcases List.mem_cons.1 hn with h | h
        · exact .inl h.symm
        · exact .inr h
    · refine ⟨{ ip := ip, interface := [], name := name, aliases := names }, ?_, (C34_admitted filter _).2 ⟨rfl, hx⟩, rfl, ?_⟩
      · unfold HostsText.entry
        rw [hf]
        simp only [takeWhile_pct_end hpct, hp, hall, if_true]
        rw [(takeWhile_pct (addr ++ ['%'])).2.2 (.inr (by rw [takeWhile_pct_end hpct]))]
      · rcases List.mem_cons.1 hn with h | h
        · exact .inl h.symm
        · exact .inr h

/-- **C131.** The line parser of hosts files is the one that lists use (C35), but for the form in which the address is kept. -/
theorem C131_same_parser (env : Parsers.Env) (parseIP : Str → Option IP) (text : IP → Str)
    (h : ∀ s, env.parseIP s = (parseIP s).map text) (t : Str) :
    hostsFileEntry env t = (HostsText.entry parseIP t).map (fun e => ⟨text e.ip, e.interface, e.name, e.aliases⟩) := by
  unfold hostsFileEntry HostsText.entry
  cases fields t with
  | nil => rfl
  | cons word hosts =>
    simp only [h]
    cases parseIP (word.takeWhile (· ≠ '%')) with
    | none => rfl
    | some ip =>
      simp only [Option.map_some]
      split
      · cases hosts <;> rfl
      · rfl

/-- A hosts file that can be opened and read to its end, without lines over 64 KiB, and with at most `maxErrors` lines
that cannot be understood. -/
def ReadableHosts (parseIP : Str → Option IP) (maxErrors : Option Nat) (s : SourceState) : Prop :=
  ∃ f, s = .opened f ∧ fileEnd f = .eof ∧
    ∀ n, maxErrors = some n → (fileItems f.content).countP (fun t => (HostsText.entry parseIP t).isNone) ≤ n

theorem readableHosts_iff (parseIP : Str → Option IP) (maxErrors : Option Nat) (filter : Bool) (s : SourceState) :
    SourceFails (HostsText.source parseIP maxErrors filter s) ↔ ¬ ReadableHosts parseIP maxErrors s := by
  cases s with
  | openFails e =>
    constructor
    · rintro _ ⟨f, hf, _⟩
      cases hf
    · intro _
      exact ⟨[], e, .inl ⟨e, rfl, rfl, rfl⟩⟩
  | opened f =>
    have key : SourceFails (HostsText.source parseIP maxErrors filter (.opened f)) ↔
        (parseSource (HostsText.entry parseIP) maxErrors f).2.isSome = true := by
      constructor
      · rintro ⟨sent, e, h⟩
        rcases h with ⟨_, h, _⟩ | ⟨_, _, h⟩
        · cases h
        · simp only [HostsText.source, Bool.false_eq_true, false_and, if_false] at h
          split at h
          · assumption
          · cases h
      · intro h
        refine ⟨_, .other, .inr ⟨rfl, rfl, ?_⟩⟩
        simp only [HostsText.source, Bool.false_eq_true, false_and, if_false, h, if_true]
    rw [key]
    by_cases hb : ∀ n, maxErrors = some n → (fileItems f.content).countP (fun t => (HostsText.entry parseIP t).isNone) ≤ n
    · rw [C35_parse_all _ _ _ hb]
      simp only
      constructor
      · rintro h ⟨f', hf, he, _⟩
        cases hf
        rw [if_pos he] at h
        cases h
      · intro h
        by_cases he : fileEnd f = .eof
        · exact absurd ⟨f, rfl, he, hb⟩ h
        · rw [if_neg he]; rfl
    · have hb' : ∃ n, maxErrors = some n ∧ n < (fileItems f.content).countP (fun t => (HostsText.entry parseIP t).isNone) := by
        rcases Classical.not_forall.1 hb with ⟨n, hn⟩
        rcases Classical.not_imp.1 hn with ⟨h1, h2⟩
        exact ⟨n, h1, Nat.lt_of_not_le h2⟩
      obtain ⟨n, rfl, hlt⟩ := hb'
      obtain ⟨pre, bad, post, _, _, _, hp⟩ := C35_abandon (HostsText.entry parseIP) n f hlt
      rw [hp]
      refine ⟨?_, fun _ => rfl⟩
      rintro _ ⟨f', hf, _, h⟩
      cases hf
      exact absurd (h n rfl) (Nat.not_le_of_lt hlt)

/-- Hosts files loaded by goroutines that ran in some order; `old` is what was there before. -/
structure HostsTexts where
  parseIP : Str → Option IP
  maxErrors : Option Nat
  filter : Bool
  sources : List SourceState
  limit : Nat
  cap : Nat
  moves : List Move
  final : State HostsFile.Entry
  ran : run limit cap (Refreshing.start ((sources.map (HostsText.source parseIP maxErrors filter)).map (fun s => (([] : Str), s)))) moves =
    some final
  ended : final.done = true
  old : HostsFile.Hosts

/-- The hosts after loading. -/
def HostsTexts.hosts (t : HostsTexts) : HostsFile.Hosts := acceptHosts t.final t.old

/-- All files can be read. -/
def HostsTexts.AllReadable (t : HostsTexts) : Prop := ∀ s ∈ t.sources, ReadableHosts t.parseIP t.maxErrors s

/-- A line of one of the files gives the address to the name. -/
def HostsTexts.Gives (t : HostsTexts) (n : Str) (ip : IP) : Prop :=
  ∃ f, SourceState.opened f ∈ t.sources ∧ ∃ l ∈ fileItems f.content, LineGives t.parseIP t.filter l n ip

theorem HostsTexts.loaded (t : HostsTexts) (h : t.AllReadable) :
    ∃ es, t.hosts = HostsFile.load false es t.old ∧ ∀ n ip, (∃ e ∈ es, Lists e n ip) ↔ t.Gives n ip := by
  obtain ⟨es, hp, hes⟩ := (C117_hosts t.limit t.cap _ t.moves t.final t.ran t.ended t.old).2 (by
    intro s hs
    obtain ⟨s', hs', rfl⟩ := List.mem_map.1 hs
    rw [readableHosts_iff]
    exact fun hn => hn (h s' hs'))
  refine ⟨es, hes, fun n ip => ?_⟩
  have hmem : ∀ e, e ∈ es ↔ ∃ f, SourceState.opened f ∈ t.sources ∧ ∃ l ∈ fileItems f.content,
      HostsText.entry t.parseIP l = some e ∧ HostsFile.admitted t.filter e = true := by
    intro e
    rw [hp.mem_iff, List.flatMap_map, List.mem_flatMap]
    constructor
    · rintro ⟨s, hs, he⟩
      obtain ⟨f, rfl, hend, hcount⟩ := h s hs
      simp only [HostsText.source, C35_parse_all _ _ _ hcount, List.mem_flatten, List.mem_map, List.mem_filterMap] at he
      obtain ⟨l, ⟨e', ⟨x, hx, hxe⟩, rfl⟩, hel⟩ := he
      split at hel
      · next hadm =>
        rw [List.mem_singleton.1 hel]
        exact ⟨f, hs, x, hx, hxe, hadm⟩
      · cases hel
    · rintro ⟨f, hf, l, hl, he, hadm⟩
      obtain ⟨f', hf', _, hcount⟩ := h _ hf
      cases hf'
      refine ⟨_, hf, ?_⟩
      simp only [HostsText.source, C35_parse_all _ _ _ hcount, List.mem_flatten, List.mem_map, List.mem_filterMap]
      exact ⟨_, ⟨e, ⟨l, hl, he⟩, rfl⟩, by rw [if_pos hadm]; exact List.mem_singleton.2 rfl⟩
  constructor
  · rintro ⟨e, he, hl⟩
    obtain ⟨f, hf, l, hl', h1, h2⟩ := (hmem e).1 he
    exact ⟨f, hf, l, hl', (entry_gives _ _ _ _ _).1 ⟨e, h1, h2, hl⟩⟩
  · rintro ⟨f, hf, l, hl', hg⟩
    obtain ⟨e, h1, h2, hl⟩ := (entry_gives _ _ _ _ _).2 hg
    exact ⟨e, (hmem e).2 ⟨f, hf, l, hl', h1, h2⟩, hl⟩

/-- **C131.** If a file cannot be read (or has too many lines that cannot be understood), all hosts stay as they were. -/
theorem C131_kept (t : HostsTexts) (h : ¬ t.AllReadable) : t.hosts = t.old := by
  obtain ⟨s, hs⟩ := Classical.not_forall.1 h
  obtain ⟨hs, hr⟩ := Classical.not_imp.1 hs
  exact (C117_hosts t.limit t.cap _ t.moves t.final t.ran t.ended t.old).1
    ⟨_, List.mem_map_of_mem hs, (readableHosts_iff _ _ _ _).2 hr⟩

/-- **C131.** A name that no line gives an address of the family asked for is left to the resolvers behind. -/
theorem C131_passed (t : HostsTexts) (h : t.AllReadable) (ttl : UInt32) (order4 order6 : List (Str × (IP × List Str)))
    (next : Resolver W) (request : Request) (q : Question) (qs : List Question) (hq : request.req.question = q :: qs)
    (ht : q.qtype = 1 ∨ q.qtype = 28) (hno : ∀ ip, familyType ip = q.qtype → ¬ t.Gives (extractDomain q.name) ip) (w : W) :
    HostsFile.resolve true ⟨ttl, t.filter⟩ t.hosts order4 order6 next request w = next request w := by
  obtain ⟨es, hes, hg⟩ := t.loaded h
  rw [hes]
  exact (C34_forward_partial _ es t.old order4 order6 next request q qs hq ht w).2
    (fun e he ip hf hl => hno ip hf ((hg _ _).1 ⟨e, he, hl⟩))

/-- The record with an address. -/
def addressRecord (q : Question) (ttl : UInt32) (ip : IP) : RR :=
  ⟨q.name, q.qtype, 1, ttl, if q.qtype = 1 then .a ip else .aaaa ip⟩

theorem hosts_found (cfg : HostsFile.Cfg) (h : HostsFile.Hosts) (order4 order6 : List (Str × (IP × List Str))) (next : Resolver W)
    (request : Request) (q : Question) (qs : List Question) (hq : request.req.question = q :: qs) (ht : q.qtype = 1 ∨ q.qtype = 28)
    (ip : IP) (hget : h.getIP q.qtype (extractDomain q.name) = some ip) (w : W) :
    HostsFile.resolve true cfg h order4 order6 next request w =
      (.ok { res := { ({} : Msg).setReply request.req with answer := [addressRecord q cfg.ttl ip] },
             reason := str! "HOSTS FILE", rtype := .hostsfile }, w) := by
  have hrev : HostsFile.handleReverse cfg order4 order6 request q = none := by
    unfold HostsFile.handleReverse
    rw [if_pos]
    rcases ht with h | h <;> simp [h, typePTR]
  simp only [HostsFile.resolve, Bool.not_true, Bool.false_eq_true, if_false, hq, hrev, hget]
  rfl

/-- **C131.** A name to which a line gives an address is answered with an address that a line gives to it, whatever the
lists, the cache and the upstreams say, and none of these is touched - however the goroutines that loaded the files were
scheduled. (The name is not configured in the custom DNS, its type is not filtered. `r2` is the request with the names of the
client; to find these out, a lookup may have been made, which gave `(cache, w)`.) -/
theorem C131_served (senv : Server.Env) {len : Msg → Nat} (htr : TruncContract len senv.trunc) (t : HostsTexts)
    (hread : t.AllReadable) (c : Chain.Config E W) (hen : c.hostsEnabled = true) (hhosts : c.hosts = t.hosts)
    (hd : 0 < c.customDepth) (remote : Server.Addr) (sni : Option Str) (msg : Msg) (q : Question) (hq : msg.question = [q])
    (ht : q.qtype = 1 ∨ q.qtype = 28) (hf : q.qtype ∉ c.filterTypes) (hfq : c.fqdnOnly = false ∨ '.' ∈ extractDomain q.name)
    (r1 r2 : Request) (h1 : Ecs.transform c.ecs (Server.newRequestFromDNS remote sni msg) = some r1) (cn cn' : St (List Str))
    (v : Caching.CState × W) (cache : Caching.CState) (w : W)
    (h2 : ClientNames.withNames c.names c.namesLookup r1 cn v = (r2, cn', (cache, w)))
    (hcustom : ∀ z, InZone (extractDomain (customName c q.name)) z → z ≠ [] → AMap.get c.customMapping z = none)
    (ip : IP) (hfam : familyType ip = q.qtype) (hgive : t.Gives (extractDomain q.name) ip)
    (up : Resolver W) (queue : QueryLog.Queue) :
    ∃ m ip' queue', Chain.serve senv c up remote sni msg (cn, queue, v) = ([m], (cn', queue', cache, w)) ∧
      Replies msg m ∧ m.rcode = 0 ∧ familyType ip' = q.qtype ∧ t.Gives (extractDomain q.name) ip' ∧
      (m.answer = [addressRecord q c.hostsCfg.ttl ip'] ∨ m.truncated = true) := by
  obtain ⟨es, hes, hg⟩ := t.loaded hread
  have hw := whole_front_names c up (Server.newRequestFromDNS remote sni msg) r1 r2 q hq hf hfq h1 msg cn cn' queue v (cache, w) h2
  obtain ⟨hr2, hq1, hi1⟩ := behind_front c (Server.newRequestFromDNS remote sni msg) r1 r2 q hq h1 cn cn' v (cache, w) h2
  have hm := (C28_rest_unchanged c.ecs _ r1 h1).1
  unfold SameOutsideExtra at hm
  have e1 := congrArg Msg.id hm
  simp only at e1
  rw [← hr2] at e1
  have hloc := local_behind c hd up r2 hi1 q hq1 hcustom (fun h => by rcases ht with h' | h' <;> rw [h'] at h <;> cases h) (cache, w)
  obtain ⟨e, he, hle⟩ := (hg _ _).2 hgive
  have hspec := getIP_spec es q.qtype ht (extractDomain q.name)
  obtain ⟨ip', hget⟩ : ∃ ip', (HostsFile.addAll es {}).getIP q.qtype (extractDomain q.name) = some ip' := by
    cases hget : (HostsFile.addAll es {}).getIP q.qtype (extractDomain q.name) with
    | some ip' => exact ⟨ip', rfl⟩
    | none => exact absurd hle (hspec.2 hget e he ip hfam)
  obtain ⟨hfam', hip'⟩ := hspec.1 ip' hget
  have hy := hosts_found c.hostsCfg (HostsFile.load false es t.old) c.hostsOrder4 c.hostsOrder6 (Chain.block c up) r2 q []
    hq1 ht ip' hget (r2.req, (cache, w))
  have hy' : Chain.local c up r2 (r2.req, (cache, w)) =
      (.ok { res := { ({} : Msg).setReply r2.req with answer := [addressRecord q c.hostsCfg.ttl ip'] },
             reason := str! "HOSTS FILE", rtype := .hostsfile }, (r2.req, (cache, w))) := by
    rw [hloc]
    unfold behindCustom
    rw [hen, hhosts, hes, hy]
  obtain ⟨y', queue', hobs, _, _, f3⟩ := observed_ok c up r2 q hq1 queue (cache, w) (cache, w) _ hy'
  unfold SameOutsideExtra at f3
  have k1 := congrArg Msg.answer f3
  have k2 := congrArg Msg.rcode f3
  have k3 := congrArg Msg.question f3
  have k4 := congrArg Msg.id f3
  have k5 := congrArg Msg.response f3
  simp only at k1 k2 k3 k4 k5
  have hrep : Replies msg y'.res := by
    refine ⟨k4.trans e1, k5, ?_⟩
    rw [k3, hq]
    exact setReply_question hq1
  have hto : Chain.toM (Chain.whole c up) (Server.newRequestFromDNS remote sni msg) (cn, queue, v) =
      (.ok y', r1.req, (cn', queue', cache, w)) := by
    unfold Chain.toM
    rw [hr2] at hobs
    rw [show (Server.newRequestFromDNS remote sni msg).req = msg from rfl, hw, hobs]
  obtain ⟨m, hm', b1, b2, _, b3⟩ := C39_answer senv htr (Chain.toM (Chain.whole c up)) remote sni msg (by rw [hq]; simp)
    (cn, queue, v) y' (by rw [hto]) hrep
  refine ⟨m, ip', queue', ?_, b1, b2.trans k2, hfam', (hg _ _).1 hip', ?_⟩
  · unfold Chain.serve
    rw [hm', hto]
  · exact b3.imp_left (fun h => h.trans k1)

/-- **C131.** If the files give the name one address of the family, the client gets this one. -/
theorem C131_only (senv : Server.Env) {len : Msg → Nat} (htr : TruncContract len senv.trunc) (t : HostsTexts)
    (hread : t.AllReadable) (c : Chain.Config E W) (hen : c.hostsEnabled = true) (hhosts : c.hosts = t.hosts)
    (hd : 0 < c.customDepth) (remote : Server.Addr) (sni : Option Str) (msg : Msg) (q : Question) (hq : msg.question = [q])
    (ht : q.qtype = 1 ∨ q.qtype = 28) (hf : q.qtype ∉ c.filterTypes) (hfq : c.fqdnOnly = false ∨ '.' ∈ extractDomain q.name)
    (r1 r2 : Request) (h1 : Ecs.transform c.ecs (Server.newRequestFromDNS remote sni msg) = some r1) (cn cn' : St (List Str))
    (v : Caching.CState × W) (cache : Caching.CState) (w : W)
    (h2 : ClientNames.withNames c.names c.namesLookup r1 cn v = (r2, cn', (cache, w)))
    (hcustom : ∀ z, InZone (extractDomain (customName c q.name)) z → z ≠ [] → AMap.get c.customMapping z = none)
    (ip : IP) (hfam : familyType ip = q.qtype) (hgive : t.Gives (extractDomain q.name) ip)
    (honly : ∀ ip', familyType ip' = q.qtype → t.Gives (extractDomain q.name) ip' → ip' = ip)
    (up : Resolver W) (queue : QueryLog.Queue) :
    ∃ m queue', Chain.serve senv c up remote sni msg (cn, queue, v) = ([m], (cn', queue', cache, w)) ∧
      Replies msg m ∧ m.rcode = 0 ∧ (m.answer = [addressRecord q c.hostsCfg.ttl ip] ∨ m.truncated = true) := by
  obtain ⟨m, ip', queue', g1, g2, g3, g4, g5, g6⟩ := C131_served senv htr t hread c hen hhosts hd remote sni msg q hq ht hf
    hfq r1 r2 h1 cn cn' v cache w h2 hcustom ip hfam hgive up queue
  rw [honly ip' g4 g5] at g6
  exact ⟨m, queue', g1, g2, g3, g6⟩

/-- **C131.** Lines in the usual form, `address name …`, give the address to each of the names. -/
theorem C131_line (parseIP : Str → Option IP) (filter : Bool) (addr name : Str) (names : List Str) (ip : IP) (hw : IsWord addr)
    (hpct : '%' ∉ addr) (hp : parseIP addr = some ip) (hv : ∀ v ∈ name :: names, IsHostName v)
    (hx : filter = true → ¬ Loopback ip ∧ name ≠ str! "localhost") (n : Str) (hn : n ∈ name :: names) :
    LineGives parseIP filter (spaced (addr :: name :: names)) n ip := by
  refine ⟨addr, name, names, .inl (fields_spaced ?_), hpct, hp, ?_, hn, hx⟩
  · intro v hv'
    rcases List.mem_cons.1 hv' with rfl | hv'
    · exact hw
    · exact (hv v hv').word
  · exact fun v hv' => (hv v hv').valid

/-! ### Example -/

/-- A hosts file. -/
def homeHosts : Parsers.Source :=
  ⟨str! "# my hosts\n10.0.0.1  nas nas.lan # storage\nfe80::1%eth0 tv\n127.0.0.1 localhost\n?\n", false⟩

/-- The addresses in it. -/
def homeIP (s : Str) : Option IP :=
  if s = str! "10.0.0.1" then some (.v4 0x0a000001#32)
  else if s = str! "127.0.0.1" then some (.v4 0x7f000001#32)
  else if s = str! "fe80::1" then some (.v6 0xfe800000000000000000000000000001#128)
  else none

theorem homeHosts_items : fileItems homeHosts.content =
    [str! "10.0.0.1  nas nas.lan", str! "fe80::1%eth0 tv", str! "127.0.0.1 localhost", str! "?"] := by decide +kernel

/-- Loaded, with one faulty line allowed, and the loopback filter on. -/
theorem home : ∃ t : HostsTexts, t.AllReadable ∧ t.parseIP = homeIP ∧ t.filter = true ∧ t.sources = [.opened homeHosts] := by
  have hb : ∀ n, some 1 = some n → (fileItems homeHosts.content).countP (fun t => (HostsText.entry homeIP t).isNone) ≤ n := by
    intro n hn
    cases hn
    rw [homeHosts_items]
    decide +kernel
  have hsent : HostsText.source homeIP (some 1) true (.opened homeHosts) =
      { lines := [[{ ip := .v4 0x0a000001#32, name := str! "nas", aliases := [str! "nas.lan"] }], [], []], lenient := false } := by
    simp only [HostsText.source]
    rw [C35_parse_all _ _ _ hb, homeHosts_items]
    have h1 : ([str! "10.0.0.1  nas nas.lan", str! "fe80::1%eth0 tv", str! "127.0.0.1 localhost", str! "?"].filterMap
        (HostsText.entry homeIP)).map (fun e => if HostsFile.admitted true e then [e] else []) =
        [[{ ip := .v4 0x0a000001#32, name := str! "nas", aliases := [str! "nas.lan"] }], [], []] := by decide +kernel
    rw [h1, if_pos (show fileEnd homeHosts = .eof by decide +kernel)]
    rfl
  have hrun : ∃ st, run 4 1000 (Refreshing.start (([SourceState.opened homeHosts].map (HostsText.source homeIP (some 1) true)).map
      (fun s => (([] : Str), s)))) [.start 0, .openSource 0, .next 0, .send 0, .take [], .next 0, .next 0, .next 0] = some st ∧
      st.done = true := by
    simp only [List.map_cons, List.map_nil, hsent]
    exact ⟨_, rfl, rfl⟩
  obtain ⟨st, hrun, hd⟩ := hrun
  refine ⟨⟨homeIP, some 1, true, [.opened homeHosts], 4, 1000, _, st, hrun, hd, {}⟩, ?_, rfl, rfl, rfl⟩
  · intro s hs
    rw [List.mem_singleton.1 hs]
    exact ⟨_, rfl, by decide +kernel, hb⟩

-- a name on a line of this file: whatever the lists, the cache and the upstreams say
example (up : Resolver Nat) : ∃ c : Chain.Config prefixEngine Nat, ∃ m cn' queue',
    Chain.serve sampleServer c up (.udp (some (.v4 1#32))) none (query (str! "NAS.")) sampleWorld =
      ([m], (cn', queue', sampleWorld.2.2)) ∧ m.rcode = 0 ∧
      (m.answer = [⟨str! "NAS.", 1, 1, 60, .a (.v4 0x0a000001#32)⟩] ∨ m.truncated = true) := by
  obtain ⟨t, h1, h2, h3, h4⟩ := home
  have hg : ∀ ip, t.Gives (str! "nas") ip → ip = .v4 0x0a000001#32 := by
    rintro ip ⟨f, hf, l, hl, hg⟩
    rw [h4] at hf
    cases List.mem_singleton.1 hf
    rw [homeHosts_items] at hl
    rw [h2, h3] at hg
    obtain ⟨e, he, _, hi, hn⟩ := (entry_gives _ _ _ _ _).2 hg
    have hall : ∀ l ∈ [str! "10.0.0.1  nas nas.lan", str! "fe80::1%eth0 tv", str! "127.0.0.1 localhost", str! "?"],
        ∀ e ∈ HostsText.entry homeIP l, (e.name = str! "nas" ∨ str! "nas" ∈ e.aliases) → e.ip = .v4 0x0a000001#32 := by decide +kernel
    rw [← hi]
    exact hall l hl e he hn
  have hgive : t.Gives (str! "nas") (.v4 0x0a000001#32) := by
    refine ⟨homeHosts, by rw [h4]; exact List.mem_singleton.2 rfl, str! "10.0.0.1  nas nas.lan", by rw [homeHosts_items]; decide, ?_⟩
    rw [h2, h3]
    exact ⟨str! "10.0.0.1", str! "nas", [str! "nas.lan"], .inl (by decide), by decide, by decide, by decide, by decide,
      fun _ => ⟨by rw [← isLoopback_iff]; decide, by decide⟩⟩
  refine ⟨{ sampleConfig with hostsEnabled := true, hosts := t.hosts, hostsCfg := ⟨60, true⟩ }, ?_⟩
  obtain ⟨m, queue', g1, _, g2, g3⟩ := C131_only sampleServer sample_contract t h1
    { sampleConfig with hostsEnabled := true, hosts := t.hosts, hostsCfg := ⟨60, true⟩ } rfl rfl
    (show 0 < sampleConfig.customDepth by decide) (.udp (some (.v4 1#32))) none (query (str! "NAS.")) ⟨str! "NAS.", typeA, 1⟩ rfl
    (.inl rfl) (show typeA ∉ sampleConfig.filterTypes by decide) (.inl rfl) _ _ rfl
    sampleWorld.1 _ sampleWorld.2.2 sampleWorld.2.2.1 sampleWorld.2.2.2 (withNames_none _ rfl _ _ _)
    ((walk_eq_none (AMap.get sampleConfig.customMapping) 8 (extractDomain (str! "NAS.")) (by decide)).1 (by decide))
    (.v4 0x0a000001#32) rfl hgive (fun ip _ h => hg ip h) up sampleWorld.2.1
  exact ⟨m, _, queue', g1, g2, g3⟩

end Verif.Props
