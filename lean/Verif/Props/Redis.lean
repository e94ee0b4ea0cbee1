/-
C38: synchronisation through redis.
-/
import Verif.Model.Redis
import Verif.Lemmas.Caching
import Verif.Lemmas.Edns

namespace Verif.Props
open Dns Redis Blocking

/-! ### No echo -/

/-- C38: an instance ignores what it published itself; a message of another instance reaches its
subscribers unchanged. -/
theorem C38_no_echo (id : Str) (p : Payload) :
    processReceivedMessage id ⟨id, p⟩ = none ∧
    (∀ id', id' ≠ id → p ≠ .other → processReceivedMessage id ⟨id', p⟩ = some p) := by
  refine ⟨by simp [processReceivedMessage], ?_⟩
  intro id' h hp
  unfold processReceivedMessage
  rw [if_pos h]
  cases p with
  | other => exact absurd rfl hp
  | cache _ _ => rfl
  | enable _ => rfl

/-- C38: delivering an own message changes only the inbox, and delivering never publishes: messages do not
multiply. -/
theorem C38_delivery_silent (n : Node) :
    (nodeStep n .deliver).2 = [] ∧
    (∀ p ms, n.inbox = ⟨n.id, p⟩ :: ms → (nodeStep n .deliver).1 = { n with inbox := ms }) := by
  refine ⟨?_, ?_⟩
  · simp only [nodeStep]
    split
    · rfl
    · split <;> rfl
  · intro p ms h
    simp only [nodeStep, h, (C38_no_echo n.id p).1]

/-! ### The same state -/

/-- What a state message means to an instance whose blocking groups are `all`: specification. -/
def applyState (all : List Str) (st : Status) (m : EnabledMessage) : Status :=
  if m.state then ⟨true, []⟩
  else if m.groups.length = 0 then ⟨false, all⟩
  else if m.groups.all (fun g => searchStrings all g) then ⟨false, m.groups⟩
  else st

theorem onEnabledMessage_status (c : BCfg) (s : TState) (m : EnabledMessage) :
    (onEnabledMessage c s m).status = applyState (retrieveAllBlockingGroups c) s.status m := by
  unfold onEnabledMessage applyState
  split
  · rfl
  · unfold internalDisable
    by_cases h0 : m.groups.length = 0
    · simp [h0, TState.status]
    · by_cases ha : m.groups.all (fun g => searchStrings (retrieveAllBlockingGroups c) g) = true
      · simp only [h0, ha, or_true, if_true, if_false, TState.status]
      · simp only [h0, ha, or_self, if_false, TState.status, Bool.false_eq_true]

/-- Events at the sender: everything but deliveries; the messages published in order. -/
def senderRun (n : Node) : List NodeEv → Node × List EnabledMessage
  | [] => (n, [])
  | ev :: evs => ((senderRun (nodeStep n ev).1 evs).1, (nodeStep n ev).2 ++ (senderRun (nodeStep n ev).1 evs).2)

/-- Events at a receiver: messages and time. -/
inductive RecvEv where
  | msg (m : EnabledMessage)
  | tick (ns : Nat)

/-- What the receiver does. -/
def recvStep (c : BCfg) (s : TState) : RecvEv → TState
  | .msg m => onEnabledMessage c s m
  | .tick k => tstep c s (.tick k)

/-- The messages received. -/
def recvMsgs : List RecvEv → List EnabledMessage
  | [] => []
  | .msg m :: es => m :: recvMsgs es
  | .tick _ :: es => recvMsgs es

theorem nodeStep_status (n : Node) (ev : NodeEv) (hev : ev ≠ .deliver) :
    (nodeStep n ev).1.st.status = (nodeStep n ev).2.foldl (applyState (retrieveAllBlockingGroups n.cfg)) n.st.status ∧
    (nodeStep n ev).1.cfg = n.cfg := by
  cases ev with
  | deliver => exact absurd rfl hev
  | enable => exact ⟨rfl, rfl⟩
  | tick k => exact ⟨rfl, rfl⟩
  | fire =>
    refine ⟨?_, rfl⟩
    simp only [nodeStep, tstep, List.foldl_nil]
    split <;> rfl
  | runFired =>
    simp only [nodeStep]
    split
    · rename_i h
      refine ⟨?_, rfl⟩
      simp only [tstep, if_pos h, List.foldl_cons, List.foldl_nil, applyState, if_true]
      rfl
    · exact ⟨rfl, rfl⟩
  | disable d gs =>
    refine ⟨?_, rfl⟩
    have hs := onEnabledMessage_status n.cfg n.st { state := false, duration := d, groups := gs }
    simp only [onEnabledMessage, Bool.false_eq_true, if_false] at hs
    simp only [nodeStep, disableBlocking]
    have hrej : (internalDisable n.cfg n.st d gs).2 = false → (internalDisable n.cfg n.st d gs).1.status = n.st.status := by
      unfold internalDisable
      simp only
      split
      · intro h; cases h
      · intro _; rfl
    rcases hx : internalDisable n.cfg n.st d gs with ⟨s', ok⟩
    rw [hx] at hs hrej
    cases ok with
    | true => simpa using hs
    | false => simpa using hrej rfl

/-- C38: whatever is done on one instance - commands accepted or rejected, timers running out -, an instance
with the same blocking groups that receives the published messages, all of them in order, is in the same
blocking state afterwards. Times between the messages are arbitrary. Missing: commands on several instances
(`C38_crossing_diverges`), timers running out at the receiver in between, and other groups at the receiver
(`C38_other_groups`). -/
theorem C38_same_state_partial (n : Node) (evs : List NodeEv) (hevs : ∀ ev ∈ evs, ev ≠ .deliver)
    (c : BCfg) (s : TState) (hc : retrieveAllBlockingGroups c = retrieveAllBlockingGroups n.cfg) (hs : s.status = n.st.status)
    (res : List RecvEv) (hres : recvMsgs res = (senderRun n evs).2) :
    (res.foldl (recvStep c) s).status = (senderRun n evs).1.st.status := by
  have hsend : ∀ (evs : List NodeEv) (n : Node), (∀ ev ∈ evs, ev ≠ .deliver) →
      (senderRun n evs).1.st.status = (senderRun n evs).2.foldl (applyState (retrieveAllBlockingGroups n.cfg)) n.st.status := by
    intro evs
    induction evs with
    | nil => intro n _; rfl
    | cons ev evs ih =>
      intro n h
      obtain ⟨h1, h2⟩ := nodeStep_status n ev (h ev (List.mem_cons_self ..))
      have := ih (nodeStep n ev).1 (fun e he => h e (List.mem_cons_of_mem _ he))
      simp only [senderRun, List.foldl_append]
      rw [this, h2, h1]
  have hrecv : ∀ (res : List RecvEv) (s : TState),
      (res.foldl (recvStep c) s).status = (recvMsgs res).foldl (applyState (retrieveAllBlockingGroups c)) s.status := by
    intro res
    induction res with
    | nil => intro s; rfl
    | cons e res ih =>
      intro s
      simp only [List.foldl_cons]
      rw [ih]
      cases e with
      | msg m => simp only [recvMsgs, List.foldl_cons, recvStep, onEnabledMessage_status]
      | tick k => rfl
  rw [hrecv, hres, hsend evs n hevs, hc, hs]

/-- C38: after a temporary disabling the receiver will enable again after the same time. -/
theorem C38_same_timer (n : Node) (d : Int) (gs : List Str) (hd : d ≠ 0) (m : EnabledMessage)
    (hm : (nodeStep n (.disable d gs)).2 = [m]) (c : BCfg) (s : TState)
    (hc : retrieveAllBlockingGroups c = retrieveAllBlockingGroups n.cfg) :
    (nodeStep n (.disable d gs)).1.st.timer = some (n.st.now + d) ∧ (onEnabledMessage c s m).timer = some (s.now + d) := by
  simp only [nodeStep, disableBlocking] at hm ⊢
  by_cases hacc : gs.length = 0 ∨ gs.all (fun g => searchStrings (retrieveAllBlockingGroups n.cfg) g) = true
  · have h1 : internalDisable n.cfg n.st d gs = ((internalDisable n.cfg n.st d gs).1, true) := by
      unfold internalDisable
      simp only [if_pos hacc]
    rw [h1] at hm ⊢
    simp only [List.cons.injEq, and_true] at hm
    subst hm
    refine ⟨?_, ?_⟩
    · unfold internalDisable
      simp only [if_pos hacc, if_neg hd]
    · unfold onEnabledMessage internalDisable
      simp only [Bool.false_eq_true, if_false, hc, if_pos hacc, if_neg hd]
  · have h1 : internalDisable n.cfg n.st d gs = ((internalDisable n.cfg n.st d gs).1, false) := by
      unfold internalDisable
      simp only [if_neg hacc]
    rw [h1] at hm
    cases hm

/-- Two instances with one denylist group. -/
def twoNodes : List Node :=
  [⟨str! "A", { denyGroups := [str! "ads"] }, { now := 0 }, []⟩, ⟨str! "B", { denyGroups := [str! "ads"] }, { now := 0 }, []⟩]

/-- The blocking states of a network. -/
def states (net : List Node) : List (Bool × List Str) := net.map (fun n => (n.st.enabled, n.st.disabledGroups))

/-- The ordinary case: one command, delivered to both. -/
example : states (netRun twoNodes [(0, .disable 0 [str! "ads"]), (0, .deliver), (1, .deliver)]) =
    [(false, [str! "ads"]), (false, [str! "ads"])] := by decide +kernel

/-- C38 is false if commands cross: blocking is disabled on one instance and enabled on the other at the
same time, all messages are delivered - and the instances have swapped states and stay different for
ever. -/
theorem C38_crossing_diverges :
    let net := netRun twoNodes [(1, .disable 0 []), (0, .deliver), (1, .deliver), (0, .disable 0 [str! "ads"]), (1, .enable),
      (0, .deliver), (1, .deliver), (0, .deliver), (1, .deliver)]
    net.map (fun n => n.inbox) = [[], []] ∧ states net = [(true, []), (false, [str! "ads"])] := by decide +kernel

/-- C38 is also false with timers: blocking is disabled for 5 seconds on A; both instances have a timer. When
the one of A has run out, blocking is disabled for good on A; the timer of B, which ran out meanwhile, then
enables blocking on B and - by its message - on A, against the last command given. -/
theorem C38_remote_timer_overrides :
    let net := netRun twoNodes [(0, .disable 5 []), (0, .deliver), (1, .deliver), (0, .tick 5), (1, .tick 5), (1, .fire),
      (0, .fire), (0, .runFired), (0, .disable 0 []), (1, .runFired), (0, .deliver), (0, .deliver), (0, .deliver)]
    (net.head?.map (fun n => (n.st.enabled, n.inbox))) = some (true, []) := by decide +kernel

/-- A receiver without the group rejects the message and stays enabled, while the sender has the group
disabled. -/
theorem C38_other_groups :
    let net := netRun [⟨str! "A", { denyGroups := [str! "ads"] }, { now := 0 }, []⟩, ⟨str! "B", { denyGroups := [] }, { now := 0 }, []⟩]
      [(0, .disable 0 [str! "ads"]), (0, .deliver), (1, .deliver)]
    states net = [(false, [str! "ads"]), (true, [])] := by decide +kernel

/-! ### Cached answers -/

theorem clampTTL_idem (c : Caching.Cfg) (t : UInt32) : Caching.clampTTL c (Caching.clampTTL c t) = Caching.clampTTL c t := by
  unfold Caching.clampTTL
  simp only [UInt32.lt_iff_toNat_lt, gt_iff_lt, ← UInt32.toNat_inj]
  repeat' split
  all_goals first | rfl | omega

theorem adjust_idem (c : Caching.Cfg) (answer : List RR) :
    Caching.adjustTTLs c (Caching.adjustTTLs c answer).1 = ((Caching.adjustTTLs c answer).1, (Caching.adjustTTLs c answer).2) := by
  unfold Caching.adjustTTLs
  cases answer with
  | nil => rfl
  | cons r rs =>
    have h : ((r :: rs).map (fun r => { r with ttl := Caching.clampTTL c r.ttl })).map
        (fun r => { r with ttl := Caching.clampTTL c r.ttl }) = (r :: rs).map (fun r => { r with ttl := Caching.clampTTL c r.ttl }) := by
      rw [List.map_map]
      apply List.map_congr_left
      intro x _
      simp only [Function.comp, clampTTL_idem]
    simp only [List.isEmpty_cons, Bool.false_eq_true, if_false]
    have hne : ((r :: rs).map (fun r => { r with ttl := Caching.clampTTL c r.ttl })).isEmpty = false := rfl
    rw [hne]
    simp only [Bool.false_eq_true, if_false, h]

theorem dropFirstOpt_id (l : List RR) (h : ∀ r ∈ l, r.isOpt = false) : dropFirstOpt l = l := by
  induction l with
  | nil => rfl
  | cons r l ih =>
    unfold dropFirstOpt
    rw [h r (List.mem_cons_self ..)]
    simp only [Bool.false_eq_true, if_false]
    rw [ih (fun r' hr' => h r' (List.mem_cons_of_mem _ hr'))]

theorem jsonString_id (s : Str) (h : ∀ c ∈ s, c.toNat < 128) : jsonString s = s := by
  unfold jsonString
  induction s with
  | nil => rfl
  | cons c s ih =>
    rw [List.flatMap_cons, if_pos (h c (List.mem_cons_self ..)), ih (fun d hd => h d (List.mem_cons_of_mem _ hd))]
    rfl

/-- A published answer is stored like by the sender. -/
theorem cache_same (env : Caching.Env) (c : Caching.Cfg) (s : Caching.CState) (key : Str) (r : Response)
    (hkey : ∀ ch ∈ key, ch.toNat < 128) (hopt : ∀ x ∈ dropFirstOpt r.res.extra, x.isOpt = false)
    (k' : Str) (m : Msg) (hp : publishCache env key (Caching.adjusted c r).res = some (.cache k' m)) :
    onCacheMessage env c s k' (convertMessage m 0) = Caching.store env c s key r := by
  unfold publishCache at hp
  split at hp
  · simp only [Option.some.injEq, Payload.cache.injEq] at hp
    obtain ⟨rfl, rfl⟩ := hp
    rw [jsonString_id key hkey]
    unfold onCacheMessage Caching.store
    have hans : (convertMessage (removeEdns0Record (Caching.adjusted c r).res) 0).res = removeEdns0Record (Caching.adjusted c r).res := by
      simp [convertMessage]
    have e1 : (Caching.adjusted c (convertMessage (removeEdns0Record (Caching.adjusted c r).res) 0)).res =
        removeEdns0Record (Caching.adjusted c r).res := by
      have e0 : ∀ x : Response, x.res = removeEdns0Record (Caching.adjusted c r).res →
          (Caching.adjusted c x).res = removeEdns0Record (Caching.adjusted c r).res := by
        intro x hx
        show { x.res with answer := (Caching.adjustTTLs c x.res.answer).1 } = _
        rw [hx]
        show { removeEdns0Record (Caching.adjusted c r).res with answer := (Caching.adjustTTLs c (Caching.adjustTTLs c r.res.answer).1).1 } = _
        rw [adjust_idem]
        rfl
      exact e0 _ hans
    rw [e1, hans]
    have e2 : (removeEdns0Record (Caching.adjusted c r).res).answer = (Caching.adjustTTLs c r.res.answer).1 := rfl
    rw [e2, adjust_idem]
    have e3 : removeEdns0Record (removeEdns0Record (Caching.adjusted c r).res) = removeEdns0Record (Caching.adjusted c r).res := by
      show { (Caching.adjusted c r).res with extra := dropFirstOpt (dropFirstOpt r.res.extra) } = _
      rw [dropFirstOpt_id _ hopt]
      rfl
    unfold Caching.putOps
    simp only [e3]
    rfl
  · cases hp

/-- C38: every answer that can be put into the wire format is published; the answer another instance
publishes is stored under the same key, with the same content and the same lifetime as the sender stored it,
if both have the same caching configuration, for keys of ASCII bytes. Missing: other keys, see
`C38_key_mangled`. `r` is the sender's response before its TTLs were adjusted; it has at most one OPT
record. -/
theorem C38_cache_same_partial (env : Caching.Env) (c : Caching.Cfg) (s : Caching.CState) (key : Str) (r : Response)
    (hne : key ≠ []) (hkey : ∀ ch ∈ key, ch.toNat < 128)
    (hpk : env.packs { (Caching.adjusted c r).res with extra := dropFirstOpt r.res.extra } = true)
    (hopt : ∀ x ∈ dropFirstOpt r.res.extra, x.isOpt = false) :
    ∃ k' m, publishCache env key (Caching.adjusted c r).res = some (.cache k' m) ∧
      onCacheMessage env c s k' (convertMessage m 0) = Caching.store env c s key r := by
  have hp : publishCache env key (Caching.adjusted c r).res =
      some (.cache (jsonString key) (removeEdns0Record (Caching.adjusted c r).res)) := by
    unfold publishCache
    rw [if_pos ⟨List.length_pos_iff.2 hne, hpk⟩]
  exact ⟨_, _, hp, cache_same env c s key r hkey hopt _ _ hp⟩

/-- C38: nothing is published without a key or if the answer cannot be put into the wire format. -/
theorem C38_not_published (env : Caching.Env) (key : Str) (m : Msg)
    (h : key = [] ∨ env.packs { m with extra := dropFirstOpt m.extra } = false) : publishCache env key m = none := by
  unfold publishCache
  rw [if_neg]
  rintro ⟨h1, h2⟩
  rcases h with rfl | h
  · exact absurd h1 (by decide)
  · rw [show removeEdns0Record m = { m with extra := dropFirstOpt m.extra } from rfl, h] at h2
    cases h2

example : publishCache ⟨fun _ => true, 0⟩ [] { answer := [⟨str! "example.com.", 1, 1, 60, .a (.v4 1)⟩] } = none := by decide

/-- A published answer. -/
example : publishCache ⟨fun _ => true, 0⟩ (Caching.cacheKey 1 (str! "example.com")) { answer := [⟨str! "example.com.", 1, 1, 60, .a (.v4 1)⟩] } =
    some (.cache (Caching.cacheKey 1 (str! "example.com")) { answer := [⟨str! "example.com.", 1, 1, 60, .a (.v4 1)⟩] }) := by decide

/-- The key of an answer of a type from 128 to 255 - ANY is 255 - does not survive the transport: other
instances store it under a key no question has. -/
theorem C38_key_mangled (name : Str) :
    jsonString (Caching.cacheKey 255 name) ≠ Caching.cacheKey 255 name ∧
    (jsonString (Caching.cacheKey 255 (str! "example.com")) = jsonString (Caching.cacheKey 254 (str! "example.com"))) := by
  refine ⟨?_, by decide⟩
  intro h
  have h0 : jsonString (Caching.cacheKey 255 name) = Char.ofNat 0 :: Char.ofNat 0xEF :: Char.ofNat 0xBF :: Char.ofNat 0xBD :: jsonString (lower name) := rfl
  rw [h0] at h
  simp only [Caching.cacheKey, List.cons.injEq] at h
  exact absurd h.2.1 (by decide)

/-- An answer loaded from the redis store (at start) with `ttl` seconds left there: every record gets that
TTL, and the entry is kept - by an instance without bounds on caching times - that long and no longer. -/
theorem C38_loaded_lifetime (env : Caching.Env) (c : Caching.Cfg) (hmin : c.minTime = 0) (hmax : c.maxTime = 0) (msg : Msg) (secs : Nat)
    (h0 : 0 < secs) (hs : secs ≤ 2147483647) (hne : msg.answer ≠ []) (key : Str) (s : Caching.CState)
    (hok : msg.rcode = rcodeSuccess) (ht : msg.truncated = false) (hcd : msg.checkingDisabled = false) (hpk : ∀ m, env.packs m = true) :
    ∃ m, onCacheMessage env c s key (convertMessage msg (secs * 1000000000)) =
        { s with main := ExpCache.step s.main (.put key m (secs * 1000000000)) } ∧
      (∀ r ∈ m.answer, r.ttl.toNat = secs) ∧ m.answer.map (fun r => (r.name, r.rtype, r.data)) = msg.answer.map (fun r => (r.name, r.rtype, r.data)) ∧
      m.rcode = msg.rcode := by
  have hdiv : ((secs : Int) * 1000000000 / 1000000000).toNat = secs := by
    rw [Int.mul_ediv_cancel _ (by decide)]; rfl
  have hto : (UInt32.ofNat secs).toNat = secs := by
    rw [UInt32.toNat_ofNat']; omega
  have hconv : (convertMessage msg (secs * 1000000000)).res =
      { msg with answer := msg.answer.map (fun r => { r with ttl := UInt32.ofNat secs }) } := by
    unfold convertMessage
    simp only
    rw [if_pos (by omega), hdiv]
  have hclamp : ∀ t, Caching.clampTTL c t = t := by
    intro t; unfold Caching.clampTTL; simp [hmin, hmax]
  have hmap : (msg.answer.map (fun r => { r with ttl := UInt32.ofNat secs })).map (fun r => { r with ttl := Caching.clampTTL c r.ttl }) =
      msg.answer.map (fun r => { r with ttl := UInt32.ofNat secs }) := by
    rw [List.map_map]; apply List.map_congr_left; intro x _; simp only [Function.comp, hclamp]
  have hadj : Caching.adjustTTLs c (msg.answer.map (fun r => { r with ttl := UInt32.ofNat secs })) =
      (msg.answer.map (fun r => { r with ttl := UInt32.ofNat secs }), (secs : Int) * 1000000000) := by
    unfold Caching.adjustTTLs
    have : (msg.answer.map (fun r => { r with ttl := UInt32.ofNat secs })).isEmpty = false := by
      cases hm : msg.answer with
      | nil => exact absurd hm hne
      | cons _ _ => rfl
    rw [this]
    simp only [Bool.false_eq_true, if_false, hmap, Prod.mk.injEq, true_and]
    have hmt : (Caching.minTTL (msg.answer.map (fun r => { r with ttl := UInt32.ofNat secs }))).toNat = secs := by
      apply Nat.le_antisymm
      · cases hm : msg.answer with
        | nil => exact absurd hm hne
        | cons r rs =>
          have := Caching.minTTL_le (l := (r :: rs).map (fun r => { r with ttl := UInt32.ofNat secs }))
            (r := { r with ttl := UInt32.ofNat secs }) (List.mem_cons_self ..)
          rwa [hto] at this
      · rcases Caching.minTTL_attained (msg.answer.map (fun r => { r with ttl := UInt32.ofNat secs })) with h | ⟨r, hr, h⟩
        · omega
        · obtain ⟨x, _, rfl⟩ := List.mem_map.1 hr
          rw [h, hto]
          exact Nat.le_refl _
    rw [hmt]
  refine ⟨removeEdns0Record { msg with answer := msg.answer.map (fun r => { r with ttl := UInt32.ofNat secs }) }, ?_, ?_, ?_, rfl⟩
  · unfold onCacheMessage Caching.store
    simp only [Caching.adjusted, hconv, hadj]
    unfold Caching.putOps
    simp only [hpk, if_true, hok, Caching.isResponseCacheable, ht, hcd, Bool.not_false, Bool.and_self, BEq.rfl, ExpCache.run, List.foldl_cons, List.foldl_nil]
  · intro r hr
    simp only [removeEdns0Record] at hr
    obtain ⟨x, _, rfl⟩ := List.mem_map.1 hr
    exact hto
  · simp only [removeEdns0Record, List.map_map]
    rfl

/-- The lifetime in the redis store is the smallest TTL of the answer, at least a second. -/
theorem C38_store_lifetime (msg : Msg) :
    (∀ r ∈ msg.answer, (∀ r' ∈ msg.answer, r'.ttl ≠ 0) → getTTL msg ≤ (r.ttl.toNat : Int) * 1000000000) ∧
    getTTL msg ≥ 1000000000 := by
  refine ⟨?_, ?_⟩
  · intro r hr hz
    unfold getTTL
    simp only
    rw [if_neg]
    · have := Caching.minTTL_le hr
      omega
    · intro h0
      rcases Caching.minTTL_attained msg.answer with h | ⟨x, hx, h⟩
      · rw [h0] at h; exact absurd h (by decide)
      · rw [h0] at h
        exact hz x hx (UInt32.toNat_inj.1 h.symm)
  · unfold getTTL
    simp only
    split
    · exact Int.le_refl _
    · rename_i h0
      have : (Caching.minTTL msg.answer).toNat ≠ 0 := fun h => h0 (UInt32.toNat_inj.1 h)
      omega

/-- Answers without records - NXDOMAIN for instance - are kept in the redis store for 2^31-1 seconds (68
years), whatever the configured negative caching time, and every instance that starts loads them. -/
theorem C38_negative_answers_for_ever :
    getTTL { rcode := rcodeNXDomain } = 2147483647 * 1000000000 ∧ getTTL { rcode := rcodeServFail } = 2147483647 * 1000000000 := by
  decide

end Verif.Props
