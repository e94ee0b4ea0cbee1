/-
C103: Every record in an answer has an origin.
-/
import Verif.Props.Case
import Verif.Props.OwnGroup

namespace Verif.Props
open Dns Spec ExpCache StringCache

variable {E : RegexEngine} {W V : Type}

/-! ### Where records may come from -/

/-- A name for comparing: lower case, without dots at the end. -/
def bare (n : Str) : Str := trimRightDots (lower n)

/-- Looking up the first name may lead to looking up the second one: by the configured rewriting of names or the
aliases of custom DNS. -/
inductive Leads (c : Chain.Config E W) (n : Str) : Str → Prop
  | self : Leads c n n
  | custom {i k v p} : Leads c n (bare (p ++ '.' :: k)) → c.customRewrite.rewrite ≠ [] → (k, v) ∈ c.customOrder i →
      Leads c n (bare (p ++ '.' :: v))
  | conditional {i k v p} : Leads c n (bare (p ++ '.' :: k)) → c.condRewrite.rewrite ≠ [] → (k, v) ∈ c.condOrder i →
      Leads c n (bare (p ++ '.' :: v))
  | alias {d z es e t} : Leads c n (bare d) → InZone d z → c.customMapping.get z = some es → e ∈ es → e.data = .cname t →
      Leads c n (bare t)

/-- An address of the family a query type asks for. -/
def OfFamily : Nat → IP → Prop
  | 1, .v4 _ => True
  | 28, .v6 _ => True
  | _, _ => False

/-- The data of an address record of the given type. -/
def addressData (t : Nat) (ip : IP) : RData := if t = 1 then .a ip else .aaaa ip

/-- What a configured record gives to a query of the type. -/
def Gives (t : Nat) (e : RR) (d : RData) : Prop :=
  (∃ ip, (e.data = .a ip ∨ e.data = .aaaa ip) ∧ OfFamily t ip ∧ d = addressData t ip) ∨
  (∃ target, e.data = .cname target ∧ d = .cname (fqdn target)) ∨
  (e.rtype = t ∧ d = e.data)

/-- The addresses given for blocked names. -/
def Sink : Blocking.Handler → IP → Prop
  | .zeroIP _, ip => ip = .v4 0 ∨ ip = .v6 0
  | .nxDomain, _ => False
  | .ips dest _, ip => ip ∈ dest ∨ ip = .v4 0 ∨ ip = .v6 0

/-- The origins of the data of records in answers to queries for the name and type; `said`: what upstreams have
answered to which name and type. -/
inductive Origin (c : Chain.Config E W) (said : Str → Nat → RData → Prop) (n : Str) (t : Nat) : RData → Prop
  | upstream {m d} : Leads c n m → said m t d → Origin c said n t d
  | record {d z es e x} : Leads c n (bare d) → InZone d z → c.customMapping.get z = some es → e ∈ es → Gives t e x →
      Origin c said n t x
  | reverse {name urls u} : t = 12 → Leads c n (bare name) → c.customReverse.get name = some urls → u ∈ urls →
      Origin c said n t (.ptr (fqdn u))
  | host {name ip} : c.hostsEnabled = true → Leads c n (bare name) → c.hosts.getIP t name = some ip →
      Origin c said n t (addressData t ip)
  | hostReverse {name ip host aliases u} : c.hostsEnabled = true → t = 12 → Leads c n (bare name) →
      Arpa.parse name = some ip → (host, (ip, aliases)) ∈ c.hostsOrder4 ++ c.hostsOrder6 → u ∈ host :: aliases →
      Origin c said n t (.ptr (fqdn u))
  | sink {ip} : Sink c.blockState.handler ip → OfFamily t ip → Origin c said n t (addressData t ip)
  | localhost4 {name} : c.sudn.enable = true → Leads c n (bare name) → InZone name (str! "localhost.") → t = 1 →
      Origin c said n t (.a (.v4 0x7f000001#32))
  | localhost6 {name} : c.sudn.enable = true → Leads c n (bare name) → InZone name (str! "localhost.") → t = 28 →
      Origin c said n t (.aaaa (.v6 1#128))

/-! ### Lemmas on names -/

theorem dropDots_append (l : Str) : (l ++ ['.']).reverse.dropWhile (· == '.') = l.reverse.dropWhile (· == '.') := by
  simp

theorem trimRightDots_snoc (l : Str) : trimRightDots (l ++ ['.']) = trimRightDots l := by
  unfold trimRightDots
  rw [dropDots_append]

theorem bare_snoc (s : Str) : bare (s ++ ['.']) = bare s := by
  unfold bare
  rw [lower_append]
  exact trimRightDots_snoc _

theorem bare_fqdn (s : Str) : bare (fqdn s) = bare s := by
  unfold fqdn
  split
  · rfl
  · exact bare_snoc s

theorem bare_trimSuffixDot (s : Str) : bare (trimSuffixDot s) = bare s := by
  unfold trimSuffixDot
  split
  · rename_i h
    have : s = s.dropLast ++ ['.'] := by
      cases s with
      | nil => cases h
      | cons a l =>
        have h2 := List.dropLast_concat_getLast (l := a :: l) (by simp)
        have h3 : (a :: l).getLast (by simp) = '.' := by
          rw [List.getLast?_eq_some_getLast (by simp)] at h
          exact Option.some.inj h
        rw [h3] at h2
        exact h2.symm
    conv => rhs; rw [this]
    exact (bare_snoc _).symm
  · rfl

theorem bare_lower (s : Str) : bare (lower s) = bare s := by
  unfold bare
  rw [lower_idem]

theorem bare_extractDomain (s : Str) : bare (extractDomain s) = bare s := by
  unfold extractDomain
  rw [bare_trimSuffixDot, bare_lower]

/-! ### Lemmas on origins -/

variable {c : Chain.Config E W}

theorem Leads.trans {a b d : Str} (h : Leads c a b) (h' : Leads c b d) : Leads c a d := by
  induction h' with
  | self => exact h
  | custom _ h1 h2 ih => exact .custom ih h1 h2
  | conditional _ h1 h2 ih => exact .conditional ih h1 h2
  | alias _ h1 h2 h3 h4 ih => exact .alias ih h1 h2 h3 h4

theorem Origin.lead {said : Str → Nat → RData → Prop} {n m : Str} {t : Nat} {d : RData} (h : Leads c n m)
    (ho : Origin c said m t d) : Origin c said n t d := by
  cases ho with
  | upstream h1 h2 => exact .upstream (h.trans h1) h2
  | record h1 h2 h3 h4 h5 => exact .record (h.trans h1) h2 h3 h4 h5
  | reverse h1 h2 h3 h4 => exact .reverse h1 (h.trans h2) h3 h4
  | host h1 h2 h3 => exact .host h1 (h.trans h2) h3
  | hostReverse h1 h2 h3 h4 h5 h6 => exact .hostReverse h1 h2 (h.trans h3) h4 h5 h6
  | sink h1 h2 => exact .sink h1 h2
  | localhost4 h1 h2 h3 h4 => exact .localhost4 h1 (h.trans h2) h3 h4
  | localhost6 h1 h2 h3 h4 => exact .localhost6 h1 (h.trans h2) h3 h4

theorem Origin.mono {said said' : Str → Nat → RData → Prop} (hs : ∀ n t d, said n t d → said' n t d) {n : Str} {t : Nat}
    {d : RData} (ho : Origin c said n t d) : Origin c said' n t d := by
  cases ho with
  | upstream h1 h2 => exact .upstream h1 (hs _ _ _ h2)
  | record h1 h2 h3 h4 h5 => exact .record h1 h2 h3 h4 h5
  | reverse h1 h2 h3 h4 => exact .reverse h1 h2 h3 h4
  | host h1 h2 h3 => exact .host h1 h2 h3
  | hostReverse h1 h2 h3 h4 h5 h6 => exact .hostReverse h1 h2 h3 h4 h5 h6
  | sink h1 h2 => exact .sink h1 h2
  | localhost4 h1 h2 h3 h4 => exact .localhost4 h1 h2 h3 h4
  | localhost6 h1 h2 h3 h4 => exact .localhost6 h1 h2 h3 h4

/-! ### The invariant -/

/-- What has been said stays said. -/
def Grows (said : W → Str → Nat → RData → Prop) (w w' : W) : Prop := ∀ n t d, said w n t d → said w' n t d

variable {said : W → Str → Nat → RData → Prop}

theorem Grows.refl (w : W) : Grows said w w := fun _ _ _ h => h

theorem Grows.trans {a b d : W} (h : Grows said a b) (h' : Grows said b d) : Grows said a d :=
  fun n t x hx => h' n t x (h n t x hx)

/-- The data of all these records have origins. -/
def Known (c : Chain.Config E W) (said : W → Str → Nat → RData → Prop) (w : W) (q : Question) (rrs : List RR) : Prop :=
  ∀ rr ∈ rrs, Origin c (said w) (bare q.name) q.qtype rr.data

theorem Known.grow {w w' : W} {q : Question} {rrs : List RR} (h : Known c said w q rrs) (hg : Grows said w w') :
    Known c said w' q rrs := fun rr hr => (h rr hr).mono hg

theorem Known.data {w : W} {q : Question} {rrs rrs' : List RR} (h : Known c said w q rrs)
    (hd : ∀ rr ∈ rrs', ∃ rr' ∈ rrs, rr'.data = rr.data) : Known c said w q rrs' := by
  intro rr hr
  obtain ⟨rr', h1, h2⟩ := hd rr hr
  rw [← h2]
  exact h rr' h1

theorem Known.nil {w : W} {q : Question} : Known c said w q [] := fun _ h => nomatch h

theorem Known.append {w : W} {q : Question} {a b : List RR} (ha : Known c said w q a) (hb : Known c said w q b) :
    Known c said w q (a ++ b) := by
  intro rr hr
  rcases List.mem_append.1 hr with h | h
  · exact ha rr h
  · exact hb rr h

theorem Known.lead {w : W} {q q' : Question} {a : List RR} (ha : Known c said w q' a)
    (hl : Leads c (bare q.name) (bare q'.name)) (ht : q'.qtype = q.qtype) : Known c said w q a := by
  intro rr hr
  have := (ha rr hr).lead hl
  rw [ht] at this
  exact this

/-- What holds after a call for the question. `proj` gives the part of the world the upstreams live in, `I` holds
of the world. -/
structure Told (c : Chain.Config E W) (asUp : Str → Option Msg) (said : W → Str → Nat → RData → Prop) (proj : V → W)
    (I : V → Prop) (q : Question) (v : V) (x : Outcome × Msg × V) : Prop where
  grows : Grows said (proj v) (proj x.2.2)
  inv : I x.2.2
  ok : ∀ y, x.1 = .ok y → Known c said (proj x.2.2) q y.res.answer
  err : ∀ e m, x.1 = .err e → asUp e = some m → Known c said (proj x.2.2) q m.answer
  msg : x.1 ≠ .panic → ∃ q', x.2.1.question = [q'] ∧ bare q'.name = bare q.name ∧ q'.qtype = q.qtype

/-- A resolver all of whose answers have origins, for query types `D`. -/
def Tells (c : Chain.Config E W) (asUp : Str → Option Msg) (said : W → Str → Nat → RData → Prop) (proj : V → W)
    (I : V → Prop) (D : Nat → Prop) (r : Chain.MR V) : Prop :=
  ∀ request w q, request.req.question = [q] → D q.qtype → w.1 = request.req → I w.2 →
    Told c asUp said proj I q w.2 (r request w)

/-- The same for resolvers that return the message. -/
def TellsM (c : Chain.Config E W) (asUp : Str → Option Msg) (said : W → Str → Nat → RData → Prop) (proj : V → W)
    (I : V → Prop) (D : Nat → Prop) (r : Cond.MResolver V) : Prop :=
  ∀ request v q, request.req.question = [q] → D q.qtype → I v → Told c asUp said proj I q v (r request v)

/-- What the ghost predicate has to do with an upstream: all that it answers is said afterwards, and nothing is
forgotten. -/
structure Records (asUp : Str → Option Msg) (said : W → Str → Nat → RData → Prop) (up : Resolver W) : Prop where
  grows : ∀ r w, Grows said w (up r w).2
  ok : ∀ r w q y, r.req.question = [q] → (up r w).1 = .ok y → ∀ rr ∈ y.res.answer, said (up r w).2 (bare q.name) q.qtype rr.data
  err : ∀ r w q e m, r.req.question = [q] → (up r w).1 = .err e → asUp e = some m →
    ∀ rr ∈ m.answer, said (up r w).2 (bare q.name) q.qtype rr.data

/-- The same while `I` holds of the world. -/
structure RecordsIn (asUp : Str → Option Msg) (said : W → Str → Nat → RData → Prop) (I : W → Prop) (up : Resolver W) : Prop where
  inv : ∀ r w, I w → I (up r w).2
  grows : ∀ r w, I w → Grows said w (up r w).2
  ok : ∀ r w q y, I w → r.req.question = [q] → (up r w).1 = .ok y → ∀ rr ∈ y.res.answer, said (up r w).2 (bare q.name) q.qtype rr.data
  err : ∀ r w q e m, I w → r.req.question = [q] → (up r w).1 = .err e → asUp e = some m →
    ∀ rr ∈ m.answer, said (up r w).2 (bare q.name) q.qtype rr.data

theorem Records.everywhere {asUp : Str → Option Msg} {up : Resolver W} (h : Records asUp said up) : RecordsIn asUp said (fun _ => True) up :=
  ⟨fun _ _ _ => trivial, fun r w _ => h.grows r w, fun r w q y _ => h.ok r w q y, fun r w q e m _ => h.err r w q e m⟩

variable {asUp : Str → Option Msg} {proj : V → W} {I : V → Prop} {J : W → Prop} {D : Nat → Prop}

theorem tells_toM {r : Chain.MR V} (h : Tells c asUp said proj I D r) : TellsM c asUp said proj I D (Chain.toM r) :=
  fun request v q hq hd hi => h request (request.req, v) q hq hd rfl hi

theorem tells_ofM {r : Cond.MResolver V} (h : TellsM c asUp said proj I D r) : Tells c asUp said proj I D (Chain.ofM r) :=
  fun request w q hq hd _ hi => h request w.2 q hq hd hi

theorem Told.lead {q q' : Question} {v : V} {x : Outcome × Msg × V} (h : Told c asUp said proj I q' v x)
    (hb : bare q'.name = bare q.name) (ht : q'.qtype = q.qtype) : Told c asUp said proj I q v x where
  grows := h.grows
  inv := h.inv
  ok := fun y hy => (h.ok y hy).lead (hb ▸ .self) ht
  err := fun e m he hm => (h.err e m he hm).lead (hb ▸ .self) ht
  msg := by
    intro hp
    obtain ⟨q2, h1, h2, h3⟩ := h.msg hp
    exact ⟨q2, h1, h2.trans hb, h3.trans ht⟩

theorem Told.after {q : Question} {v v' : V} {x : Outcome × Msg × V} (h : Told c asUp said proj I q v' x)
    (hg : Grows said (proj v) (proj v')) : Told c asUp said proj I q v x :=
  ⟨hg.trans h.grows, h.inv, h.ok, h.err, h.msg⟩

/-- An answer made without asking. -/
theorem Told.reply {q : Question} {w : Msg × V} {request : Request} (hq : request.req.question = [q]) (hw : w.1 = request.req)
    (hi : I w.2) (y : Response) (h : Known c said (proj w.2) q y.res.answer) :
    Told c asUp said proj I q w.2 ((.ok y : Outcome), w) where
  grows := Grows.refl _
  inv := hi
  ok := fun y' hy => by cases hy; exact h
  err := fun _ _ h => nomatch h
  msg := fun _ => ⟨q, by simp [hw, hq], rfl, rfl⟩

/-- A failure without message of an upstream. -/
theorem Told.fail {q : Question} {v : V} {m : Msg} {v' : V} {o : Outcome} (hg : Grows said (proj v) (proj v')) (hi : I v')
    (ho : ∀ y, o ≠ .ok y) (he : ∀ e, o = .err e → asUp e = none)
    (hm : o ≠ .panic → ∃ q', m.question = [q'] ∧ bare q'.name = bare q.name ∧ q'.qtype = q.qtype) :
    Told c asUp said proj I q v (o, m, v') where
  grows := hg
  inv := hi
  ok := fun y hy => absurd hy (ho y)
  err := fun e m h hm => by rw [he e h] at hm; cases hm
  msg := hm

/-! ### The resolvers -/

theorem tells_liftUp {up : Resolver W} (h : RecordsIn asUp said J up) :
    Tells c asUp said id J (fun _ => True) (Chain.liftUp up) := by
  intro request w q hq _ hw hi
  refine ⟨h.grows request w.2 hi, h.inv request w.2 hi, ?_, ?_, fun _ => ⟨q, by simp [Chain.liftUp, hw, hq], rfl, rfl⟩⟩
  · intro y hy rr hr
    exact .upstream .self (h.ok request w.2 q y hi hq hy rr hr)
  · intro e m he hm rr hr
    exact .upstream .self (h.err request w.2 q e m hi hq he hm rr hr)

theorem sudn_answer (cfg : Small.SudnCfg) (request : Request) (q : Question) (hd : Small.SudnHandler) (y : Response)
    (h : Small.callSudn cfg request q hd = some y) :
    y.res.answer = [] ∨ (hd = .localhost ∧ q.qtype = 1 ∧ ∀ rr ∈ y.res.answer, rr.data = .a (.v4 0x7f000001#32)) ∨
      (hd = .localhost ∧ q.qtype = 28 ∧ ∀ rr ∈ y.res.answer, rr.data = .aaaa (.v6 1#128)) := by
  have hn : ∀ rc, (Small.newSudnResponse request rc).res.answer = [] := fun _ => rfl
  cases hd with
  | nxdomain => cases h; exact .inl (hn _)
  | pass => cases h
  | appendixG =>
    simp only [Small.callSudn] at h
    split at h
    · cases h
    · cases h; exact .inl (hn _)
  | homeArpa =>
    simp only [Small.callSudn] at h
    split at h
    · cases h
    · cases h; exact .inl (hn _)
  | localhost =>
    simp only [Small.callSudn, Option.some.injEq] at h
    subst h
    unfold Small.sudnLocalhost
    split
    · rename_i ht
      exact .inr (.inl ⟨rfl, ht, by simp⟩)
    · split
      · rename_i ht
        exact .inr (.inr ⟨rfl, ht, by simp⟩)
      · exact .inl (hn _)

theorem localhost_zone : ∀ z, AMap.get Small.sudnHandlers z = some .localhost → z = str! "localhost." := by
  intro z h
  have hm := AMap.get_eq_some_mem h
  have : ∀ x ∈ Small.sudnHandlers, x.2 = Small.SudnHandler.localhost → x.1 = str! "localhost." := by decide
  exact this _ hm rfl

theorem tells_sudn {next : Chain.MR V} (h : Tells c asUp said proj I D next) :
    Tells c asUp said proj I D (Small.sudn c.sudn next) := by
  intro request w q hq hD hw hi
  unfold Small.sudn
  split
  · exact h request w q hq hD hw hi
  · rename_i he
    rw [hq]
    simp only
    cases hx : (Small.sudnHandler q.name).bind (Small.callSudn c.sudn request q) with
    | none => exact h request w q hq hD hw hi
    | some y =>
      simp only
      refine Told.reply hq hw hi y ?_
      rw [Option.bind_eq_some_iff] at hx
      obtain ⟨hd, h1, h2⟩ := hx
      have hen : c.sudn.enable = true := by simpa using he
      have hz : hd = .localhost → InZone q.name (str! "localhost.") := by
        rintro rfl
        unfold Small.sudnHandler at h1
        rw [Option.map_eq_some_iff] at h1
        obtain ⟨⟨z, x⟩, h1, h3⟩ := h1
        cases h3
        have h4 := walk_some h1
        have := localhost_zone z h4.2.2.1
        rw [← this]
        exact h4.1
      rcases sudn_answer c.sudn request q hd y h2 with ha | ⟨hl, ht, ha⟩ | ⟨hl, ht, ha⟩
      · rw [ha]; exact Known.nil
      · intro rr hr
        rw [ha rr hr]
        exact .localhost4 hen .self (hz hl) ht
      · intro rr hr
        rw [ha rr hr]
        exact .localhost6 hen .self (hz hl) ht

theorem tells_conditional (hup : ∀ d r, c.condMapping.get d = some r → RecordsIn asUp said J r)
    {next : Cond.MResolver W} (h : TellsM c asUp said id J (fun _ => True) next) :
    TellsM c asUp said id J (fun _ => True) (Cond.conditional c.condMapping next) := by
  intro request w q hq hD hi
  unfold Cond.conditional
  split
  · rw [hq]
    simp only
    cases hl : Cond.lookup c.condMapping (extractDomain q.name) with
    | none => exact h request w q hq hD hi
    | some reso =>
      have hr : RecordsIn asUp said J reso := by
        unfold Cond.lookup at hl
        split at hl
        · rw [Option.map_eq_some_iff] at hl
          obtain ⟨⟨d, r⟩, h1, h2⟩ := hl
          cases h2
          exact hup d r ((walk_some h1).2.2.1)
        · exact hup _ _ hl
      simp only
      unfold Cond.internalResolve
      simp only [hq, Cond.setName]
      have hb : bare (fqdn (extractDomain q.name)) = bare q.name := by rw [bare_fqdn, bare_extractDomain]
      generalize hn : fqdn (extractDomain q.name) = nn at *
      have e1 := hr.ok { request with req := { request.req with question := [{ q with name := nn }] } } w { q with name := nn }
      have e2 := hr.err { request with req := { request.req with question := [{ q with name := nn }] } } w { q with name := nn }
      have e3 := hr.grows { request with req := { request.req with question := [{ q with name := nn }] } } w hi
      have e4 := hr.inv { request with req := { request.req with question := [{ q with name := nn }] } } w hi
      have hm : True → ∃ q', ({ request.req with question := [{ q with name := nn }] } : Msg).question = [q'] ∧
          bare q'.name = bare q.name ∧ q'.qtype = q.qtype := fun _ => ⟨_, rfl, hb, rfl⟩
      generalize reso { request with req := { request.req with question := [{ q with name := nn }] } } w = x at e1 e2 e3 e4
      obtain ⟨o, w'⟩ := x
      have hlead : ∀ a : List RR, (∀ rr ∈ a, said w' (bare nn) q.qtype rr.data) → Known c said w' q a := by
        intro a ha rr hr
        have := ha rr hr
        rw [hb] at this
        exact .upstream .self this
      cases o with
      | ok r =>
        refine ⟨e3, e4, ?_, (fun _ _ h => nomatch h), fun _ => hm trivial⟩
        intro y hy
        cases hy
        exact hlead _ (e1 r hi rfl rfl)
      | noResponse => exact Told.fail e3 e4 (fun _ h => nomatch h) (fun _ h => nomatch h) (fun _ => hm trivial)
      | panic => exact Told.fail e3 e4 (fun _ h => nomatch h) (fun _ h => nomatch h) (fun _ => hm trivial)
      | err x =>
        refine ⟨e3, e4, (fun _ h => nomatch h), ?_, fun _ => hm trivial⟩
        intro e m he hm'
        cases he
        exact hlead _ (e2 x m hi rfl rfl hm')
  · exact h request w q hq hD hi

theorem tells_noop : TellsM c asUp said proj I D (fun request v => (.noResponse, request.req, v)) :=
  fun _ _ q hq _ hi => ⟨Grows.refl _, hi, (fun _ h => nomatch h), (fun _ _ h => nomatch h), fun _ => ⟨q, hq, rfl, rfl⟩⟩

theorem tells_rewriter (fb : Bool) (order : Nat → List (Str × Str))
    (hrule : ∀ p k v, (k, v) ∈ order 0 → Leads c (bare (p ++ '.' :: k)) (bare (p ++ '.' :: v)))
    {inner next : Cond.MResolver V} (hi : TellsM c asUp said proj I D inner) (hn : TellsM c asUp said proj I D next) :
    TellsM c asUp said proj I D (Cond.rewriter fb order inner next) := by
  intro request v q hq hD hI
  unfold Cond.rewriter
  rw [hq]
  by_cases hrw : Cond.rewriteDomain (order 0) (extractDomain q.name) ≠ extractDomain q.name
  · have hrq : Cond.rewriteQuestions order 0 [q] [] =
        ([{ q with name := fqdn (Cond.rewriteDomain (order 0) (extractDomain q.name)) }], true,
          AMap.put [] (fqdn (Cond.rewriteDomain (order 0) (extractDomain q.name))) q.name) := by
      simp [Cond.rewriteQuestions, hrw]
    have hlead : Leads c (bare q.name) (bare (fqdn (Cond.rewriteDomain (order 0) (extractDomain q.name)))) := by
      rw [bare_fqdn]
      rcases rewriteDomain_cases (order 0) (extractDomain q.name) with ⟨p, k, v, hm, hd, hx⟩ | ⟨_, hx⟩
      · have := hrule p k v hm
        rw [← hd, bare_extractDomain, ← hx] at this
        exact this
      · exact absurd hx hrw
    rw [hrq]
    simp only [if_true]
    generalize fqdn (Cond.rewriteDomain (order 0) (extractDomain q.name)) = nn at *
    have hg := hi { request with req := { request.req with question := [{ q with name := nn }] } } v { q with name := nn } rfl hD hI
    generalize inner { request with req := { request.req with question := [{ q with name := nn }] } } v = x at hg
    obtain ⟨o, m, v'⟩ := x
    have hnext := (hn request v' q hq hD hg.inv).after hg.grows
    cases o with
    | panic => exact Told.fail hg.grows hg.inv (fun _ h => nomatch h) (fun _ h => nomatch h) (fun h => absurd rfl h)
    | noResponse => exact hnext
    | err e =>
      simp only
      split
      · exact hnext
      · exact ⟨hg.grows, hg.inv, (fun _ h => nomatch h), fun e' m' he hm => (hg.err e' m' (by cases he; rfl) hm).lead hlead rfl,
          fun _ => ⟨q, hq, rfl, rfl⟩⟩
    | ok r =>
      simp only
      split
      · exact hnext
      · refine ⟨hg.grows, hg.inv, ?_, (fun _ _ h => nomatch h), fun _ => ⟨q, hq, rfl, rfl⟩⟩
        intro y hy
        cases hy
        refine Known.data ((hg.ok r rfl).lead hlead rfl) ?_
        intro rr hr
        simp only [Cond.revert, List.mem_map] at hr
        obtain ⟨a, ha, rfl⟩ := hr
        exact ⟨a, ha, rfl⟩
  · have hrq : Cond.rewriteQuestions order 0 [q] [] = ([q], false, []) := by
      simp [Cond.rewriteQuestions, hrw]
    rw [hrq]
    simp only [Bool.false_eq_true, if_false]
    have hg := hi request v q hq hD hI
    generalize inner request v = x at hg
    obtain ⟨o, m, v'⟩ := x
    by_cases hp : o = .panic
    · subst hp
      exact hg
    obtain ⟨q', hq', hb, ht⟩ := hg.msg hp
    simp only at hq'
    have hnext := ((hn { request with req := m } v' q' hq' (by rw [ht]; exact hD) hg.inv).after hg.grows).lead hb ht
    cases o with
    | panic => exact hg
    | noResponse => exact hnext
    | err e =>
      simp only
      split
      · exact hnext
      · exact hg
    | ok r =>
      simp only
      split
      · exact hnext
      · exact hg

theorem tells_newRewriter (cfg : Cond.RewriteCfg) (order : Nat → List (Str × Str))
    (hrule : cfg.rewrite ≠ [] → ∀ p k v, (k, v) ∈ order 0 → Leads c (bare (p ++ '.' :: k)) (bare (p ++ '.' :: v)))
    {inner : Cond.MResolver V → Cond.MResolver V} {next : Cond.MResolver V}
    (hi : ∀ {n}, TellsM c asUp said proj I D n → TellsM c asUp said proj I D (inner n))
    (hn : TellsM c asUp said proj I D next) : TellsM c asUp said proj I D (Cond.newRewriter cfg order inner next) := by
  unfold Cond.newRewriter
  split
  · exact hi hn
  · rename_i hlen
    exact tells_rewriter _ order (hrule (fun h => hlen (by rw [h]; rfl))) (hi tells_noop) hn

theorem tells_cond {up : Resolver W} (hu : Records asUp said up)
    (hup : ∀ d r, c.condMapping.get d = some r → Records asUp said r) :
    Tells c asUp said id (fun _ => True) (fun _ => True) (Chain.cond c up) :=
  tells_ofM (tells_newRewriter _ _ (fun h _ _ _ hm => .conditional .self h hm) (fun h => tells_conditional (fun d r h => (hup d r h).everywhere) h)
    (tells_toM (tells_sudn (tells_liftUp hu.everywhere))))

/-! The cache -/

/-- The data of all cached records have origins. -/
def CacheKnown (c : Chain.Config E W) (said : W → Str → Nat → RData → Prop) (w : W) (items : List (Str × Element Msg)) : Prop :=
  ∀ x ∈ items, ∀ t n, Caching.extractKey x.1 = some (t, n) → ∀ rr ∈ x.2.val.answer, Origin c (said w) (bare n) t rr.data

/-- The invariant of the world behind the cache. -/
def CacheInv (c : Chain.Config E W) (said : W → Str → Nat → RData → Prop) (v : Caching.CState × W) : Prop :=
  CacheKnown c said v.2 v.1.main.cache.items

theorem CacheKnown.grow {w w' : W} {items : List (Str × Element Msg)} (h : CacheKnown c said w items) (hg : Grows said w w') :
    CacheKnown c said w' items := fun x hx t n he rr hr => (h x hx t n he rr hr).mono hg

theorem CacheKnown.sub {w : W} {items items' : List (Str × Element Msg)} (h : CacheKnown c said w items)
    (hs : ∀ x ∈ items', x ∈ items) : CacheKnown c said w items' := fun x hx => h x (hs x hx)

theorem CacheKnown.add {w : W} {s : Cache Msg} (h : CacheKnown c said w s.items) (k : Str) (el : Element Msg)
    (ha : ∀ t n, Caching.extractKey k = some (t, n) → ∀ rr ∈ el.val.answer, Origin c (said w) (bare n) t rr.data) :
    CacheKnown c said w (s.add k el).items := by
  have hall : CacheKnown c said w ((k, el) :: s.items) := by
    intro x hx
    rcases List.mem_cons.1 hx with rfl | hx
    · exact ha
    · exact h x hx
  refine hall.sub ?_
  intro x hx
  unfold Cache.add at hx
  split at hx
  · rcases List.mem_cons.1 hx with rfl | hx
    · exact List.mem_cons_self
    · exact List.mem_cons_of_mem _ (List.mem_filter.1 hx).1
  · split at hx
    · exact List.dropLast_subset _ hx
    · exact hx

theorem CacheKnown.put {w : W} {s : Cache Msg} (h : CacheKnown c said w s.items) (now : Int) (k : Str) (m : Msg) (ttl : Int)
    (ha : ∀ t n, Caching.extractKey k = some (t, n) → ∀ rr ∈ m.answer, Origin c (said w) (bare n) t rr.data) :
    CacheKnown c said w (s.put now k m ttl).items := by
  unfold Cache.put
  split
  · exact h
  · exact h.add k _ ha

theorem touch_sub (s : Cache Msg) (k : Str) : ∀ x ∈ (s.touch k).items, x ∈ s.items := by
  intro x hx
  unfold Cache.touch at hx
  split at hx
  · exact hx
  · rename_i el hp
    rcases List.mem_cons.1 hx with rfl | hx
    · exact AMap.get_eq_some_mem hp
    · exact (List.mem_filter.1 hx).1

theorem get_sub (s : Cache Msg) (now : Int) (k : Str) : ∀ x ∈ (s.get now k).2.items, x ∈ s.items := by
  unfold Cache.get
  split
  · exact touch_sub s k
  · exact fun _ h => h

theorem cacheGet_sub (cfg : Caching.Cfg) (s : Caching.CState) (k : Str) :
    ∀ x ∈ (Caching.cacheGet cfg s k).2.main.cache.items, x ∈ s.main.cache.items := by
  unfold Caching.cacheGet
  cases cfg.prefetching <;> exact get_sub s.main.cache _ k

theorem cacheGet_mem (cfg : Caching.Cfg) (s : Caching.CState) (k : Str) (m : Msg) (t : Int)
    (h : (Caching.cacheGet cfg s k).1 = some (m, t)) : ∃ el, (k, el) ∈ s.main.cache.items ∧ el.val = m := by
  have key : (s.main.cache.get s.main.now k).1 = some (m, t) := by
    unfold Caching.cacheGet at h
    cases hp : cfg.prefetching <;> rw [hp] at h <;> exact h
  unfold Cache.get at key
  split at key
  · rename_i el hp
    cases key
    exact ⟨el, AMap.get_eq_some_mem hp, rfl⟩
  · cases key

theorem adjust_data (cfg : Caching.Cfg) (a : List RR) : ∀ rr ∈ (Caching.adjustTTLs cfg a).1, ∃ rr' ∈ a, rr'.data = rr.data := by
  intro rr hr
  unfold Caching.adjustTTLs at hr
  split at hr
  · exact ⟨rr, hr, rfl⟩
  · simp only [List.mem_map] at hr
    obtain ⟨b, hb, rfl⟩ := hr
    exact ⟨b, hb, rfl⟩

theorem tells_caching (env : Caching.Env) (cfg : Caching.Cfg) {next : Chain.MR W}
    (h : Tells c asUp said id (fun _ => True) (fun _ => True) next) :
    Tells c asUp said Prod.snd (CacheInv c said) (fun t => t < 65536) (Chain.caching env cfg next) := by
  intro request w q hq hD hw hi
  have hg := h request (w.1, w.2.2) q hq trivial hw trivial
  unfold Chain.caching Caching.resolve
  by_cases hc : (!cfg.enabled || !Caching.isRequestCacheable request.req) = true
  · rw [if_pos hc]
    generalize next request (w.1, w.2.2) = x at hg
    obtain ⟨o, m, w'⟩ := x
    exact ⟨hg.grows, CacheKnown.grow hi hg.grows, hg.ok, hg.err, hg.msg⟩
  · rw [if_neg hc, hq]
    simp only [Caching.resolveLoop]
    have hsub := cacheGet_sub cfg w.2.1 (Caching.questionKey q)
    have hmem := cacheGet_mem cfg w.2.1 (Caching.questionKey q)
    generalize Caching.cacheGet cfg w.2.1 (Caching.questionKey q) = x at hsub hmem
    obtain ⟨r, s1⟩ := x
    have hi1 : CacheKnown c said w.2.2 s1.main.cache.items := CacheKnown.sub hi hsub
    cases r with
    | some mt =>
      obtain ⟨m, t⟩ := mt
      simp only
      refine Told.after (v' := (s1, w.2.2)) (Told.reply (I := CacheInv c said) (w := (w.1, (s1, w.2.2))) hq hw hi1 _ ?_)
        (Grows.refl _)
      obtain ⟨el, h1, h2⟩ := hmem m t rfl
      have := hi _ h1 _ _ (C08_question_roundtrip q hD)
      intro rr hr
      simp only [Caching.hitResponse, Caching.setTTLs, List.mem_map] at hr
      obtain ⟨b, hb, rfl⟩ := hr
      have z := this b (by rw [h2]; exact hb)
      rw [bare_extractDomain] at z
      exact z
    | none =>
      simp only
      generalize next request (w.1, w.2.2) = x at hg
      obtain ⟨o, m, w'⟩ := x
      have hi2 : CacheKnown c said w' s1.main.cache.items := hi1.grow hg.grows
      cases o with
      | ok r =>
        refine ⟨hg.grows, ?_, ?_, (fun _ _ h => nomatch h), fun _ => hg.msg (fun h => nomatch h)⟩
        · have hk := hg.ok r rfl
          have ha : ∀ t n, Caching.extractKey (Caching.questionKey q) = some (t, n) →
              ∀ rr ∈ (removeEdns0Record (Caching.adjusted cfg r).res).answer, Origin c (said w') (bare n) t rr.data := by
            intro t n he rr hr
            rw [C08_question_roundtrip q hD] at he
            cases he
            rw [bare_extractDomain]
            exact hk.data (adjust_data cfg r.res.answer) rr hr
          show CacheKnown c said w' (run s1.main (Caching.putOps env cfg (Caching.questionKey q) (Caching.adjusted cfg r).res
            (Caching.adjustTTLs cfg r.res.answer).2)).cache.items
          unfold Caching.putOps
          simp only
          split
          · split
            · exact hi2.put _ _ _ _ ha
            · split
              · split
                · exact hi2.put _ _ _ _ ha
                · exact hi2
              · exact hi2
          · exact hi2
        · intro y hy
          cases hy
          exact (hg.ok r rfl).data (adjust_data cfg r.res.answer)
      | err e => exact ⟨hg.grows, hi2, (fun _ h => nomatch h), hg.err, hg.msg⟩
      | noResponse => exact Told.fail hg.grows hi2 (fun _ h => nomatch h) (fun _ h => nomatch h) (fun h => absurd rfl h)
      | panic => exact Told.fail hg.grows hi2 (fun _ h => nomatch h) (fun _ h => nomatch h) (fun h => absurd rfl h)

/-! Blocking -/

theorem block_data (hd : Blocking.Handler) (q : Question) (m : Msg) (hm : m.answer = []) :
    ∀ rr ∈ (hd.handleBlock q m).answer, ∃ ip, Sink hd ip ∧ OfFamily q.qtype ip ∧ rr.data = addressData q.qtype ip := by
  have hz : ∀ (ttl : UInt32) (m : Msg), m.answer = [] → ∀ rr ∈ (Blocking.handleZeroIP ttl q m).answer,
      ∃ ip, (ip = .v4 0 ∨ ip = .v6 0) ∧ OfFamily q.qtype ip ∧ rr.data = addressData q.qtype ip := by
    intro ttl m hm rr hr
    unfold Blocking.handleZeroIP at hr
    split at hr
    · rename_i ht
      simp only [hm, List.nil_append, List.mem_singleton] at hr
      subst hr
      exact ⟨.v6 0, .inr rfl, by rw [ht]; trivial, rfl⟩
    · split at hr
      · rename_i ht
        simp only [hm, List.nil_append, List.mem_singleton] at hr
        subst hr
        exact ⟨.v4 0, .inl rfl, by rw [ht]; trivial, rfl⟩
      · simp only [hm] at hr
        cases hr
  cases hd with
  | zeroIP ttl => exact hz ttl m hm
  | nxDomain =>
    intro rr hr
    simp only [Blocking.Handler.handleBlock, hm] at hr
    cases hr
  | ips dest ttl =>
    intro rr hr
    simp only [Blocking.Handler.handleBlock] at hr
    split at hr
    · rename_i hl
      have hn := List.length_eq_zero_iff.1 hl
      obtain ⟨ip, h1, h2, h3⟩ := hz ttl _ hn rr hr
      exact ⟨ip, .inr h1, h2, h3⟩
    · simp only [hm, List.nil_append, List.mem_map, Blocking.destinationsFor, List.mem_filter] at hr
      obtain ⟨ip, ⟨h1, h2⟩, rfl⟩ := hr
      refine ⟨ip, .inl h1, ?_, rfl⟩
      simp only [Bool.or_eq_true, Bool.and_eq_true, decide_eq_true_eq, Bool.not_eq_true'] at h2
      rcases h2 with ⟨ht, hv⟩ | ⟨ht, hv⟩
      · rw [ht]
        cases ip with
        | v4 a => cases hv
        | v6 a => trivial
      · rw [ht]
        cases ip with
        | v4 a => trivial
        | v6 a => cases hv

theorem denylist_question (bs : Blocking.BState E) (groups : List Str) (request : Request) (q : Question) (o : Outcome)
    (h : Blocking.handleDenylist bs groups request [q] = .blocked o) :
    ∃ reason, o = Blocking.handleBlocked bs.handler request q reason := by
  unfold Blocking.handleDenylist at h
  split at h
  · cases h
  · split at h
    · cases h; exact ⟨_, rfl⟩
    · split at h
      · cases h; exact ⟨_, rfl⟩
      · cases h

theorem checkAnswer_question (env : Blocking.Env) (bs : Blocking.BState E) (groups : List Str)
    (request : Request) (q : Question) (hq : request.req.question = [q]) (rrs : List RR) (o : Outcome)
    (h : Blocking.checkAnswer env bs groups request rrs = some o) :
    ∃ reason, o = Blocking.handleBlocked bs.handler request q reason := by
  induction rrs with
  | nil => cases h
  | cons rr rrs ih =>
    simp only [Blocking.checkAnswer, hq] at h
    split at h
    · split at h
      · exact ih h
      · split at h
        · cases h; exact ⟨_, rfl⟩
        · exact ih h
    · exact ih h

theorem blocked_known (request : Request) (q : Question) (reason : Str) (w : W) (y : Response)
    (h : Blocking.handleBlocked c.blockState.handler request q reason = .ok y) : Known c said w q y.res.answer := by
  unfold Blocking.handleBlocked at h
  cases h
  intro rr hr
  obtain ⟨ip, h1, h2, h3⟩ := block_data c.blockState.handler q (({} : Msg).setReply request.req) rfl rr hr
  rw [h3]
  exact .sink h1 h2

theorem tells_blocking (env : Blocking.Env) {next : Chain.MR V}
    (h : Tells c asUp said proj I D next) : Tells c asUp said proj I D (Blocking.resolve env c.blockState next) := by
  intro request w q hq hD hw hi
  have hg := h request w q hq hD hw hi
  have hask : ∀ groups, Told c asUp said proj I q w.2 (Blocking.askNext env c.blockState groups next request w) := by
    intro groups
    unfold Blocking.askNext
    generalize next request w = x at hg
    obtain ⟨o, w'⟩ := x
    cases o with
    | ok r =>
      simp only
      split
      · cases hc : Blocking.checkAnswer env c.blockState groups request r.res.answer with
        | none => exact hg
        | some o =>
          obtain ⟨reason, rfl⟩ := checkAnswer_question env c.blockState groups request q hq _ o hc
          exact ⟨hg.grows, hg.inv, fun y hy => blocked_known request q reason _ y hy, (fun _ _ h => nomatch h),
            fun _ => hg.msg (fun h => nomatch h)⟩
      · exact hg
    | noResponse => exact hg
    | err e => exact hg
    | panic => exact hg
  unfold Blocking.resolve
  simp only
  split
  · cases hd : Blocking.handleDenylist c.blockState (Blocking.groupsToCheck env c.blockState.cgb c.blockState.fqdnIPs
      c.blockState.status request) request request.req.question with
    | allowed => exact hg
    | blocked o =>
      rw [hq] at hd
      obtain ⟨reason, rfl⟩ := denylist_question c.blockState _ request _ o hd
      exact ⟨Grows.refl _, hi, fun y hy => blocked_known request q reason _ y hy, (fun _ _ h => nomatch h),
        fun _ => ⟨q, by simp [hw, hq], rfl, rfl⟩⟩
    | no => exact hask _
  · exact hask _

/-! Hosts files -/

theorem findHost_mem (ip : IP) (l : List (Str × (IP × List Str))) (host : Str) (aliases : List Str)
    (h : HostsFile.findHost ip l = some (host, aliases)) : (host, (ip, aliases)) ∈ l := by
  induction l with
  | nil => cases h
  | cons x l ih =>
    obtain ⟨n, ip', al⟩ := x
    unfold HostsFile.findHost at h
    split at h
    · rename_i he
      cases h
      subst he
      exact List.mem_cons_self
    · exact List.mem_cons_of_mem _ (ih h)

theorem tells_hosts (cfg : HostsFile.Cfg) {next : Chain.MR V} (h : Tells c asUp said proj I D next) :
    Tells c asUp said proj I D (HostsFile.resolve c.hostsEnabled cfg c.hosts c.hostsOrder4 c.hostsOrder6 next) := by
  intro request w q hq hD hw hi
  unfold HostsFile.resolve
  split
  · exact h request w q hq hD hw hi
  · rename_i he
    have hen : c.hostsEnabled = true := by simpa using he
    rw [hq]
    simp only
    cases hx : HostsFile.handleReverse cfg c.hostsOrder4 c.hostsOrder6 request q with
    | some y =>
      simp only
      refine Told.reply hq hw hi y ?_
      unfold HostsFile.handleReverse at hx
      split at hx
      · cases hx
      · rename_i ht
        have ht : q.qtype = 12 := Decidable.not_not.1 ht
        split at hx
        · cases hx
        · rename_i ip hp
          split at hx
          · cases hx
          · split at hx
            · cases hx
            · rename_i host aliases hf
              cases hx
              intro rr hr
              obtain ⟨u, hu, rfl⟩ := List.mem_map.1 hr
              refine .hostReverse hen ht .self hp ?_ hu
              have := findHost_mem ip _ host aliases hf
              cases ip with
              | v4 a => exact List.mem_append_left _ this
              | v6 a => exact List.mem_append_right _ this
    | none =>
      simp only
      cases hg : c.hosts.getIP q.qtype (extractDomain q.name) with
      | some ip =>
        refine Told.reply hq hw hi _ ?_
        intro rr hr
        simp only [List.mem_singleton] at hr
        subst hr
        refine .host hen ?_ hg
        rw [bare_extractDomain]
        exact .self
      | none => exact h request w q hq hD hw hi

/-! Custom DNS -/

/-- What holds after a call for the target of an alias. -/
structure Inner (c : Chain.Config E W) (asUp : Str → Option Msg) (said : W → Str → Nat → RData → Prop) (proj : V → W)
    (I : V → Prop) (q : Question) (w : Msg × V) (x : Outcome × Msg × V) : Prop where
  grows : Grows said (proj w.2) (proj x.2.2)
  inv : I x.2.2
  ok : ∀ y, x.1 = .ok y → Known c said (proj x.2.2) q y.res.answer
  err : ∀ e m, x.1 = .err e → asUp e = some m → Known c said (proj x.2.2) q m.answer
  same : x.2.1 = w.1

/-- What holds after the records of a name have been processed. -/
structure InnerEntry (c : Chain.Config E W) (asUp : Str → Option Msg) (said : W → Str → Nat → RData → Prop) (proj : V → W)
    (I : V → Prop) (q : Question) (w : Msg × V) (x : CustomDns.Entry × Msg × V) : Prop where
  grows : Grows said (proj w.2) (proj x.2.2)
  inv : I x.2.2
  ok : ∀ rrs, x.1 = .ok rrs → Known c said (proj x.2.2) q rrs
  err : ∀ e m, x.1 = .err e → asUp e = some m → Known c said (proj x.2.2) q m.answer
  same : x.2.1 = w.1

theorem entry_inner (env : CustomDns.Env) (hloop : ∀ names, asUp (CustomDns.loopError names) = none)
    (hother : asUp (str! "unsupported customDNS RR type") = none)
    (recur : Request → List Str → Msg × V → Option (Outcome × Msg × V)) (request : Request) (resolved : List Str) (q : Question)
    {d z : Str} {es : List RR} (hd : bare d = bare q.name) (hz : InZone d z) (hes : c.customMapping.get z = some es) (e : RR)
    (he : e ∈ es) (w : Msg × V) (hi : I w.2)
    (hrec : ∀ t, e.data = .cname t → ∀ res x, recur (CustomDns.targetRequest env request (trimSuffixDot t) q.qtype res) res w = some x →
      Inner c asUp said proj I ⟨fqdn (trimSuffixDot t), q.qtype, 1⟩ w x)
    (y : CustomDns.Entry × Msg × V) (h : CustomDns.processEntry env recur request resolved q e w = some y) :
    InnerEntry c asUp said proj I q w y := by
  have hgive : ∀ (v : W) (x : RData), Gives q.qtype e x → Origin c (said v) (bare q.name) q.qtype x :=
    fun v x hx => .record (hd ▸ .self) hz hes he hx
  have hip : ∀ ip, (e.data = .a ip ∨ e.data = .aaaa ip) → ∀ v, Known c said v q (CustomDns.processIP ip q e.ttl) := by
    intro ip hdat v rr hr
    unfold CustomDns.processIP at hr
    split at hr
    · rename_i hs
      simp only [List.mem_singleton] at hr
      subst hr
      refine hgive v _ (.inl ⟨ip, hdat, ?_, rfl⟩)
      cases ip with
      | v4 a =>
        have : q.qtype = 1 := by simpa [CustomDns.isSupportedType, typeA] using hs
        rw [this]; trivial
      | v6 a =>
        have : q.qtype = 28 := by simpa [CustomDns.isSupportedType, typeAAAA] using hs
        rw [this]; trivial
    · cases hr
  have hplain : ∀ (rrs : List RR), (∀ v, Known c said v q rrs) → InnerEntry c asUp said proj I q w (.ok rrs, w) :=
    fun rrs hk => ⟨Grows.refl _, hi, fun rrs' hr => by cases hr; exact hk _, (fun _ _ h => nomatch h), rfl⟩
  have hfail : ∀ x, asUp x = none → InnerEntry c asUp said proj I q w (.err x, w) :=
    fun x hx => ⟨Grows.refl _, hi, (fun _ h => nomatch h), (fun e m h hm => by
      injection h with h; subst h; rw [hx] at hm; exact absurd hm (by simp)), rfl⟩
  unfold CustomDns.processEntry at h
  split at h
  · rename_i ip hdat
    cases h
    exact hplain _ (hip ip (.inl hdat))
  · rename_i ip hdat
    cases h
    exact hplain _ (hip ip (.inr hdat))
  · rename_i t hdat
    have hcn : ∀ v, Origin c (said v) (bare q.name) q.qtype (.cname (fqdn t)) :=
      fun v => hgive v _ (.inr (.inl ⟨t, hdat, rfl⟩))
    unfold CustomDns.processCNAME at h
    simp only at h
    split at h
    · cases h
      refine hplain _ ?_
      intro v rr hr
      simp only [List.mem_singleton] at hr
      subst hr
      exact hcn v
    · split at h
      · cases h
        exact hfail _ (hloop _)
      · have hr := hrec t hdat (resolved ++ [trimSuffixDot t])
        have hl : Leads c (bare q.name) (bare (fqdn (trimSuffixDot t))) := by
          rw [bare_fqdn, bare_trimSuffixDot]
          exact .alias (hd ▸ .self) hz hes he hdat
        split at h
        · cases h
        · rename_i hx
          cases h
          have hy := hr _ hx
          exact ⟨hy.grows, hy.inv, (fun _ h => nomatch h), fun e' m he' hm => (hy.err e' m (by cases he'; rfl) hm).lead hl rfl, hy.same⟩
        · rename_i hx
          cases h
          have hy := hr _ hx
          exact ⟨hy.grows, hy.inv, (fun _ h => nomatch h), (fun _ _ h => nomatch h), hy.same⟩
        · rename_i hx
          cases h
          have hy := hr _ hx
          exact ⟨hy.grows, hy.inv, (fun _ h => nomatch h), (fun _ _ h => nomatch h), hy.same⟩
        · rename_i r w' hx
          cases h
          have hy := hr _ hx
          refine ⟨hy.grows, hy.inv, ?_, (fun _ _ h => nomatch h), hy.same⟩
          intro rrs hrrs
          cases hrrs
          intro rr hrr
          rcases List.mem_cons.1 hrr with rfl | hrr
          · exact hcn _
          · exact ((hy.ok r rfl).lead hl rfl) rr hrr
  · split at h
    · cases h
      refine hplain _ ?_
      intro v rr hr
      unfold CustomDns.processPlain at hr
      split at hr
      · rename_i ht
        simp only [List.mem_singleton] at hr
        subst hr
        exact hgive v _ (.inr (.inr ⟨ht.symm, rfl⟩))
      · cases hr
    · cases h
      exact hfail _ hother

theorem entries_inner (env : CustomDns.Env) (hloop : ∀ names, asUp (CustomDns.loopError names) = none)
    (hother : asUp (str! "unsupported customDNS RR type") = none)
    (recur : Request → List Str → Msg × V → Option (Outcome × Msg × V)) (request : Request) (resolved : List Str) (q : Question)
    {d z : Str} {es : List RR} (hd : bare d = bare q.name) (hz : InZone d z) (hes : c.customMapping.get z = some es)
    (hrec : ∀ t, (∃ e ∈ es, e.data = .cname t) → ∀ w, I w.2 → ∀ res x,
      recur (CustomDns.targetRequest env request (trimSuffixDot t) q.qtype res) res w = some x →
      Inner c asUp said proj I ⟨fqdn (trimSuffixDot t), q.qtype, 1⟩ w x)
    (l : List RR) (hl : ∀ e ∈ l, e ∈ es) (acc : List RR) (w : Msg × V) (hi : I w.2) (hacc : Known c said (proj w.2) q acc)
    (y : CustomDns.Entry × Msg × V) (h : CustomDns.processEntries env recur request resolved q l acc w = some y) :
    InnerEntry c asUp said proj I q w y := by
  induction l generalizing acc w with
  | nil =>
    cases h
    exact ⟨Grows.refl _, hi, fun rrs hr => by cases hr; exact hacc, (fun _ _ h => nomatch h), rfl⟩
  | cons e l ih =>
    have hone := entry_inner (c := c) (asUp := asUp) (said := said) (proj := proj) (I := I) env hloop hother recur request
      resolved q hd hz hes e (hl e List.mem_cons_self) w hi
      (fun t ht res x hx => hrec t ⟨e, hl e List.mem_cons_self, ht⟩ w hi res x hx)
    unfold CustomDns.processEntries at h
    split at h
    · cases h
    · rename_i rrs w' hx
      have h1 := hone _ hx
      have h2 := ih (fun e he => hl e (List.mem_cons_of_mem _ he)) (acc ++ rrs) w' h1.inv
        ((hacc.grow h1.grows).append (h1.ok rrs rfl)) h
      exact ⟨h1.grows.trans h2.grows, h2.inv, h2.ok, h2.err, h2.same.trans h1.same⟩
    · rename_i hx
      cases h
      exact hone _ hx

theorem inner_tells (env : CustomDns.Env) (hloop : ∀ names, asUp (CustomDns.loopError names) = none)
    (hother : asUp (str! "unsupported customDNS RR type") = none) {next : Chain.MR V} (h : Tells c asUp said proj I D next)
    (depth : Nat) : ∀ (request : Request) (resolved : List Str) (w : Msg × V) (q : Question) (x : Outcome × Msg × V),
      request.internal = true → request.req.question = [q] → D q.qtype → I w.2 →
      CustomDns.processRequest env c.customMapping (innerNext next) depth request resolved w = some x →
      Inner c asUp said proj I q w x := by
  induction depth with
  | zero =>
    intro request resolved w q x _ _ _ _ hx
    cases hx
  | succ n ih =>
    intro request resolved w q x hint hq hD hi hx
    have hnext : ∀ w : Msg × V, I w.2 → Inner c asUp said proj I q w (innerNext next request w) := by
      intro w hi
      have hg := h request (request.req, w.2) q hq hD rfl hi
      unfold innerNext
      rw [if_pos hint]
      exact ⟨hg.grows, hg.inv, hg.ok, hg.err, rfl⟩
    unfold CustomDns.processRequest at hx
    rw [hq] at hx
    simp only at hx
    split at hx
    · cases hx; exact hnext w hi
    · rename_i z entries hw
      have hz := walk_some hw
      have hent := entries_inner (c := c) (asUp := asUp) (said := said) (proj := proj) (I := I) env hloop hother
        (CustomDns.processRequest env c.customMapping (innerNext next) n) request resolved q (bare_extractDomain q.name) hz.1 hz.2.2.1
        (by
          intro t _ w hi res x hx
          exact ih (CustomDns.targetRequest env request (trimSuffixDot t) q.qtype res) res w
            { name := fqdn (trimSuffixDot t), qtype := q.qtype } x rfl rfl hD hi hx)
        entries (fun _ h => h) [] w hi Known.nil
      split at hx
      · cases hx
      · rename_i hy
        cases hx
        have h1 := hent _ hy
        exact ⟨h1.grows, h1.inv, (fun _ h => nomatch h), fun e m he hm => h1.err e m (by cases he; rfl) hm, h1.same⟩
      · rename_i hy
        cases hx
        have h1 := hent _ hy
        exact ⟨h1.grows, h1.inv, (fun _ h => nomatch h), (fun _ _ h => nomatch h), h1.same⟩
      · rename_i rrs w' hy
        have h1 := hent _ hy
        split at hx
        · cases hx
          exact ⟨h1.grows, h1.inv, fun y hy => by cases hy; exact h1.ok rrs rfl, (fun _ _ h => nomatch h), h1.same⟩
        · split at hx
          · cases hx
            have h2 := hnext w' h1.inv
            exact ⟨h1.grows.trans h2.grows, h2.inv, h2.ok, h2.err, h2.same.trans h1.same⟩
          · cases hx
            exact ⟨h1.grows, h1.inv, fun y hy => by cases hy; exact Known.nil, (fun _ _ h => nomatch h), h1.same⟩

theorem tells_customDns (env : CustomDns.Env) (hloop : ∀ names, asUp (CustomDns.loopError names) = none)
    (hother : asUp (str! "unsupported customDNS RR type") = none) (depth : Nat) {next : Chain.MR V}
    (h : Tells c asUp said proj I D next) :
    Tells c asUp said proj I D (Chain.customDns env c.customMapping c.customReverse depth next) := by
  intro request w q hq hD hw hi
  have hmsg : ∃ q', w.1.question = [q'] ∧ bare q'.name = bare q.name ∧ q'.qtype = q.qtype := ⟨q, by rw [hw, hq], rfl, rfl⟩
  have hnx : ∀ w : Msg × V, w.1 = request.req → I w.2 → Told c asUp said proj I q w.2 (innerNext next request w) := by
    intro w hw hi
    unfold innerNext
    split
    · have hg := h request (request.req, w.2) q hq hD rfl hi
      exact ⟨hg.grows, hg.inv, hg.ok, hg.err, fun _ => ⟨q, by simp [hw, hq], rfl, rfl⟩⟩
    · exact h request w q hq hD hw hi
  unfold Chain.customDns
  change Told c asUp said proj I q w.2 (match CustomDns.resolve env c.customMapping c.customReverse (innerNext next) depth request w with
    | some x => x
    | none => (.panic, w))
  cases hx : CustomDns.resolve env c.customMapping c.customReverse (innerNext next) depth request w with
  | none => exact Told.fail (Grows.refl _) hi (fun _ h => nomatch h) (fun _ h => nomatch h) (fun _ => hmsg)
  | some x =>
    simp only
    unfold CustomDns.resolve at hx
    rw [hq] at hx
    simp only at hx
    cases hr : CustomDns.handleReverse env c.customReverse request q with
    | some y =>
      rw [hr] at hx
      cases hx
      refine Told.reply hq hw hi y ?_
      unfold CustomDns.handleReverse at hr
      split at hr
      · rename_i ht
        split at hr
        · rename_i urls hu
          cases hr
          intro rr hrr
          obtain ⟨u, hu', rfl⟩ := List.mem_map.1 hrr
          exact .reverse ht .self hu hu'
        · cases hr
      · cases hr
    | none =>
      rw [hr] at hx
      simp only at hx
      cases depth with
      | zero => cases hx
      | succ n =>
        unfold CustomDns.processRequest at hx
        rw [hq] at hx
        simp only at hx
        split at hx
        · cases hx; exact hnx w hw hi
        · rename_i z entries hwk
          have hz := walk_some hwk
          have hent := entries_inner (c := c) (asUp := asUp) (said := said) (proj := proj) (I := I) env hloop hother
            (CustomDns.processRequest env c.customMapping (innerNext next) n) request [] q (bare_extractDomain q.name) hz.1 hz.2.2.1
            (by
              intro t _ w hi res x hx
              exact inner_tells env hloop hother h n (CustomDns.targetRequest env request (trimSuffixDot t) q.qtype res) res w
                { name := fqdn (trimSuffixDot t), qtype := q.qtype } x rfl rfl hD hi hx)
            entries (fun _ h => h) [] w hi Known.nil
          split at hx
          · cases hx
          · rename_i hy
            cases hx
            have h1 := hent _ hy
            exact ⟨h1.grows, h1.inv, (fun _ h => nomatch h), fun e m he hm => h1.err e m (by cases he; rfl) hm,
              fun _ => by rw [h1.same]; exact hmsg⟩
          · rename_i hy
            cases hx
            have h1 := hent _ hy
            exact Told.fail h1.grows h1.inv (fun _ h => nomatch h) (fun _ h => nomatch h) (fun h => absurd rfl h)
          · rename_i rrs w' hy
            have h1 := hent _ hy
            have hm1 : ∃ q', w'.1.question = [q'] ∧ bare q'.name = bare q.name ∧ q'.qtype = q.qtype := by
              have := h1.same
              simp only at this
              rw [this]; exact hmsg
            split at hx
            · cases hx
              exact ⟨h1.grows, h1.inv, fun y hy => by cases hy; exact h1.ok rrs rfl, (fun _ _ h => nomatch h), fun _ => hm1⟩
            · split at hx
              · cases hx
                exact (hnx w' (h1.same.trans hw) h1.inv).after h1.grows
              · cases hx
                exact ⟨h1.grows, h1.inv, fun y hy => by cases hy; exact Known.nil, (fun _ _ h => nomatch h), fun _ => hm1⟩

/-! The rest of the chain -/

theorem tells_local {up : Resolver W} (hloop : ∀ names, asUp (CustomDns.loopError names) = none)
    (hother : asUp (str! "unsupported customDNS RR type") = none) (hu : Records asUp said up)
    (hup : ∀ d r, c.condMapping.get d = some r → Records asUp said r) :
    Tells c asUp said Prod.snd (CacheInv c said) (fun t => t < 65536) (Chain.local c up) :=
  tells_ofM (tells_newRewriter _ _ (fun h _ _ _ hm => .custom .self h hm)
    (fun h => tells_toM (tells_customDns _ hloop hother _ (tells_ofM h)))
    (tells_toM (tells_hosts _ (tells_blocking _ (tells_caching _ _ (tells_cond hu hup))))))

theorem tells_metrics (b : Bool) {next : Chain.MR V} (h : Tells c asUp said proj I D next) :
    Tells c asUp said proj I D (Chain.metrics b next) := by
  intro request w q hq hD hw hi
  have hg := h request w q hq hD hw hi
  have hfail := Told.fail (c := c) (asUp := asUp) (q := q) (m := (next request w).2.1) (o := .panic) hg.grows hg.inv
    (fun _ h => nomatch h) (fun _ h => nomatch h) (fun h => absurd rfl h)
  unfold Chain.metrics
  generalize next request w = x at hg hfail
  obtain ⟨o, m, v⟩ := x
  cases o with
  | panic => exact hg
  | noResponse =>
    simp only
    split
    · cases m.question <;> exact hfail
    · exact hg
  | ok r =>
    simp only
    split
    · cases m.question
      · exact hfail
      · exact hg
    · exact hg
  | err e =>
    simp only
    split
    · cases m.question
      · exact hfail
      · exact hg
    · exact hg

theorem tells_queryLog (cfg : QueryLog.Cfg) (env : QueryLog.Env) (s d : Int) {next : Chain.MR V}
    (h : Tells c asUp said proj I D next) :
    Tells c asUp said (fun x => proj x.2) (fun x => I x.2) D (Chain.queryLog cfg env s d next) := by
  apply tells_ofM
  intro request w q hq hD hi
  unfold QueryLog.resolve
  have hg := tells_toM h request w.2 q hq hD hi
  generalize Chain.toM next request w.2 = x at hg
  obtain ⟨o, m, v⟩ := x
  cases o with
  | panic => exact ⟨hg.grows, hg.inv, hg.ok, hg.err, hg.msg⟩
  | noResponse => exact Told.fail hg.grows hg.inv (fun _ h => nomatch h) (fun _ h => nomatch h) (fun h => absurd rfl h)
  | err e => exact ⟨hg.grows, hg.inv, hg.ok, hg.err, hg.msg⟩
  | ok r =>
    simp only
    split
    · exact Told.fail hg.grows hg.inv (fun _ h => nomatch h) (fun _ h => nomatch h) (fun h => absurd rfl h)
    · split
      · exact ⟨hg.grows, hg.inv, hg.ok, hg.err, hg.msg⟩
      · exact ⟨hg.grows, hg.inv, hg.ok, hg.err, hg.msg⟩

theorem tells_ede (b : Bool) {next : Chain.MR V} (h : Tells c asUp said proj I D next) :
    Tells c asUp said proj I D (Small.ede b next) := by
  intro request w q hq hD hw hi
  unfold Small.ede
  split
  · exact h request w q hq hD hw hi
  · have hg := h request w q hq hD hw hi
    generalize next request w = x at hg
    obtain ⟨o, m, v⟩ := x
    cases o with
    | ok r =>
      refine ⟨hg.grows, hg.inv, ?_, (fun _ _ h => nomatch h), fun _ => hg.msg (fun h => nomatch h)⟩
      intro y hy
      injection hy with hy
      subst hy
      have hk := hg.ok r rfl
      have hm := (C29_only_opt_changes r.res (.ede (Small.toExtendedErrorCode r.rtype) r.reason) 0).1.1
      unfold SameOutsideExtra at hm
      have e := congrArg Msg.answer hm
      simp only at e
      have ha : (Small.addExtraReasoning r).res.answer = r.res.answer := by
        unfold Small.addExtraReasoning
        by_cases hz : Small.toExtendedErrorCode r.rtype = 0
        · simp [hz]
        · simp only [hz, if_false]; exact e
      rw [ha]
      exact hk
    | noResponse => exact hg
    | err e => exact hg
    | panic => exact hg

theorem tells_clientNames (cfg : ClientNames.Cfg) (l : Option (ClientNames.Lookup V))
    (hl : ∀ ask, l = some ask → ∀ ip v, I v → I (ask ip v).2 ∧ Grows said (proj v) (proj (ask ip v).2)) {next : Chain.MR V}
    (h : Tells c asUp said proj I D next) :
    Tells c asUp said (fun x => proj x.2) (fun x => I x.2) D (Chain.clientNames cfg l next) := by
  intro request w q hq hD hw hi
  have hk := withNames_keeps cfg l (fun v => I v ∧ Grows said (proj w.2.2) (proj v))
    (fun ask ha ip v hv => ⟨(hl ask ha ip v hv.1).1, hv.2.trans (hl ask ha ip v hv.1).2⟩) request w.2.1 w.2.2 ⟨hi, Grows.refl _⟩
  have hr := withNames_req cfg l request w.2.1 w.2.2
  unfold Chain.clientNames
  generalize ClientNames.withNames cfg l request w.2.1 w.2.2 = x at hk hr
  obtain ⟨r1, cn, v1⟩ := x
  simp only at hk hr ⊢
  have hg := (h r1 (w.1, v1) q (by rw [hr]; exact hq) hD (by rw [hr]; exact hw) hk.1).after hk.2
  generalize next r1 (w.1, v1) = y at hg
  obtain ⟨o, m, v2⟩ := y
  exact ⟨hg.grows, hg.inv, hg.ok, hg.err, hg.msg⟩

theorem tells_ecs (cfg : Ecs.Cfg) {next : Chain.MR V} (h : Tells c asUp said proj I D next) :
    Tells c asUp said proj I D (Chain.ecs cfg next) := by
  intro request w q hq hD hw hi
  unfold Chain.ecs
  cases hr : Ecs.transform cfg request with
  | none => exact Told.fail (Grows.refl _) hi (fun _ h => nomatch h) (fun _ h => nomatch h) (fun h => absurd rfl h)
  | some r =>
    simp only
    have hm := (C28_rest_unchanged cfg request r hr).1
    unfold SameOutsideExtra at hm
    have e3 := congrArg Msg.question hm
    simp only at e3
    exact h r (r.req, w.2) q (e3.trans hq) hD rfl hi

theorem tells_fqdnOnly (b : Bool) {next : Chain.MR V} (h : Tells c asUp said proj I D next) :
    Tells c asUp said proj I D (Small.fqdnOnly b next) := by
  intro request w q hq hD hw hi
  unfold Small.fqdnOnly
  split
  · rw [hq]
    simp only
    split
    · exact Told.reply hq hw hi _ Known.nil
    · exact h request w q hq hD hw hi
  · exact h request w q hq hD hw hi

theorem tells_filtering (types : List Nat) {next : Chain.MR V} (h : Tells c asUp said proj I D next) :
    Tells c asUp said proj I D (Small.filtering types next) := by
  intro request w q hq hD hw hi
  unfold Small.filtering
  rw [hq]
  simp only
  split
  · exact Told.reply hq hw hi _ Known.nil
  · exact h request w q hq hD hw hi

/-- What the origins of records are relative to: whatever upstreams answer is recorded, and looking up names of
clients leaves the cache alone. The errors of custom DNS itself carry no message. -/
structure Recorded (senv : Server.Env) (c : Chain.Config E W) (up : Resolver W) (said : W → Str → Nat → RData → Prop) : Prop where
  up : Records senv.asUpstream said up
  cond : ∀ d r, c.condMapping.get d = some r → Records senv.asUpstream said r
  loop : ∀ names, senv.asUpstream (CustomDns.loopError names) = none
  other : senv.asUpstream (str! "unsupported customDNS RR type") = none
  names : ∀ l, c.namesLookup = some l → ∀ ip v, (l ip v).2.1 = v.1 ∧ Grows said v.2 (l ip v).2.2

theorem tells_whole {senv : Server.Env} {up : Resolver W} (h : Recorded senv c up said) :
    Tells c senv.asUpstream said (fun x => x.2.2.2) (fun x => CacheInv c said x.2.2) (fun t => t < 65536) (Chain.whole c up) := by
  refine tells_filtering _ (tells_fqdnOnly _ (tells_ecs _ ?_))
  refine tells_clientNames (proj := fun (x : QueryLog.Queue × Caching.CState × W) => x.2.2)
    (I := fun x => CacheInv c said x.2) c.names _ ?_
    (tells_ede _ (tells_queryLog (proj := Prod.snd) (I := CacheInv c said) _ _ _ _
      (tells_metrics _ (tells_local h.loop h.other h.up h.cond))))
  intro ask ha ip v hv
  cases hl : c.namesLookup with
  | none => rw [hl] at ha; cases ha
  | some l =>
    rw [hl] at ha
    cases ha
    obtain ⟨h1, h2⟩ := h.names l hl ip v.2
    refine ⟨?_, h2⟩
    show CacheKnown c said (l ip v.2).2.2 (l ip v.2).2.1.main.cache.items
    rw [h1]
    exact CacheKnown.grow hv h2

/-- A query as clients send them. -/
def OneQuestion (msg : Msg) : Prop := ∀ q ∈ msg.question, msg.question = [q] ∧ q.qtype < 65536

theorem finish_data (senv : Server.Env) {len : Msg → Nat} (ht : TruncContract len senv.trunc) (req : Msg) (p : Proto) (m : Msg) :
    ∀ rr ∈ (Server.finish senv req p m).answer, rr ∈ m.answer :=
  fun _ hr => (ht.sections (Server.getMaxResponseSize req p) { m with recursionAvailable := req.recursionDesired }).1.subset hr

theorem serve_tells {senv : Server.Env} {len : Msg → Nat} (ht : TruncContract len senv.trunc) {up : Resolver W}
    (h : Recorded senv c up said) (remote : Server.Addr) (sni : Option Str) (msg : Msg) (hm : OneQuestion msg) (w : Chain.World W)
    (hi : CacheInv c said w.2.2) :
    Grows said w.2.2.2 (Chain.serve senv c up remote sni msg w).2.2.2.2 ∧
    CacheInv c said (Chain.serve senv c up remote sni msg w).2.2.2 ∧
    ∀ m ∈ (Chain.serve senv c up remote sni msg w).1, ∀ rr ∈ m.answer, ∃ q, msg.question = [q] ∧
      Origin c (said (Chain.serve senv c up remote sni msg w).2.2.2.2) (bare q.name) q.qtype rr.data := by
  cases hq : msg.question with
  | nil =>
    have hreq : (Server.newRequestFromDNS remote sni msg).req.question = [] := hq
    unfold Chain.serve Server.onRequest Server.handleReq Server.resolve
    rw [hreq]
    simp only
    refine ⟨Grows.refl _, hi, ?_⟩
    intro m hm rr hr
    rw [List.mem_singleton] at hm
    subst hm
    cases finish_data senv ht _ _ _ rr hr
  | cons q qs =>
    obtain ⟨h1, h2⟩ := hm q (by rw [hq]; exact List.mem_cons_self)
    have hqs : qs = [] := by rw [hq] at h1; simpa using h1
    subst hqs
    have hg := tells_whole h (Server.newRequestFromDNS remote sni msg) (msg, w) q hq h2 rfl hi
    have hreq : (Server.newRequestFromDNS remote sni msg).req = msg := rfl
    unfold Chain.serve Server.onRequest Server.handleReq Server.resolve
    rw [hreq, hq]
    simp only
    have hto : Chain.toM (Chain.whole c up) (Server.newRequestFromDNS remote sni msg) w =
      Chain.whole c up (Server.newRequestFromDNS remote sni msg) (msg, w) := rfl
    rw [hto]
    generalize Chain.whole c up (Server.newRequestFromDNS remote sni msg) (msg, w) = x at hg
    obtain ⟨o, m', w'⟩ := x
    have hsf : ∀ m ∈ [({} : Msg).setRcode m' rcodeServFail], ∀ rr ∈ m.answer, ∃ q0, [q] = [q0] ∧
        Origin c (said w'.2.2.2) (bare q0.name) q0.qtype rr.data := by
      intro m hm rr hr
      rw [List.mem_singleton] at hm
      subst hm
      cases hr
    cases o with
    | ok r =>
      refine ⟨hg.grows, hg.inv, ?_⟩
      intro m hm rr hr
      rw [List.mem_singleton] at hm
      subst hm
      exact ⟨q, rfl, hg.ok r rfl rr (finish_data senv ht _ _ _ rr hr)⟩
    | err e =>
      simp only
      cases hum : senv.asUpstream e with
      | none => exact ⟨hg.grows, hg.inv, hsf⟩
      | some um =>
        refine ⟨hg.grows, hg.inv, ?_⟩
        intro m hm rr hr
        rw [List.mem_singleton] at hm
        subst hm
        exact ⟨q, rfl, hg.err e um rfl hum rr (finish_data senv ht _ _ _ rr hr)⟩
    | noResponse => exact ⟨hg.grows, hg.inv, hsf⟩
    | panic => exact ⟨hg.grows, hg.inv, hsf⟩

/-! Cleaning up -/

theorem reload_tellsIn (env : Caching.Env) (cfg : Caching.Cfg) {next : Chain.MR W}
    (h : Tells c asUp said id J (fun _ => True) next)
    (hmsg : ∀ r m w, (next r (m, w)).1 = (next r (r.req, w)).1 ∧ (next r (m, w)).2.2 = (next r (r.req, w)).2.2)
    (key : Str) (w : Msg × W) (hj : J w.2) :
    Grows said w.2 (Caching.reload env cfg next key w).2.2 ∧ J (Caching.reload env cfg next key w).2.2 ∧
    ∀ m ttl, (Caching.reload env cfg next key w).1 = some (some (m, ttl)) → ∀ t n, Caching.extractKey key = some (t, n) →
      ∀ rr ∈ m.answer, Origin c (said (Caching.reload env cfg next key w).2.2) (bare n) t rr.data := by
  unfold Caching.reload
  cases hk : Caching.extractKey key with
  | none => exact ⟨Grows.refl _, hj, fun _ _ h => nomatch h⟩
  | some tn =>
    obtain ⟨t, n⟩ := tn
    simp only
    have hg := h (Caching.reloadRequest env t n) ((Caching.reloadRequest env t n).req, w.2) ⟨fqdn (fqdn n), t, 1⟩ rfl trivial rfl hj
    have hm := hmsg (Caching.reloadRequest env t n) w.1 w.2
    rw [show ((w.1, w.2) : Msg × W) = w from rfl] at hm
    generalize next (Caching.reloadRequest env t n) ((Caching.reloadRequest env t n).req, w.2) = x at hg hm
    generalize next (Caching.reloadRequest env t n) w = y at hm
    obtain ⟨o, m, v⟩ := x
    obtain ⟨o', m', v'⟩ := y
    obtain ⟨e1, e2⟩ := hm
    simp only at e1 e2
    subst e1 e2
    cases o' with
    | ok r =>
      simp only
      split
      · split
        · refine ⟨hg.grows, hg.inv, ?_⟩
          intro m ttl hmt t' n' htn rr hr
          cases hmt
          cases htn
          have := hg.ok r rfl rr hr
          simp only [bare_fqdn] at this
          exact this
        · exact ⟨hg.grows, hg.inv, fun _ _ h => nomatch h⟩
      · exact ⟨hg.grows, hg.inv, fun _ _ h => nomatch h⟩
    | err e => exact ⟨hg.grows, hg.inv, fun _ _ h => nomatch h⟩
    | noResponse => exact ⟨hg.grows, hg.inv, fun _ _ h => nomatch h⟩
    | panic => exact ⟨hg.grows, hg.inv, fun _ _ h => nomatch h⟩

theorem reload_tells (env : Caching.Env) (cfg : Caching.Cfg) {next : Chain.MR W}
    (h : Tells c asUp said id (fun _ => True) (fun _ => True) next)
    (hmsg : ∀ r m w, (next r (m, w)).1 = (next r (r.req, w)).1 ∧ (next r (m, w)).2.2 = (next r (r.req, w)).2.2)
    (key : Str) (w : Msg × W) :
    Grows said w.2 (Caching.reload env cfg next key w).2.2 ∧
    ∀ m ttl, (Caching.reload env cfg next key w).1 = some (some (m, ttl)) → ∀ t n, Caching.extractKey key = some (t, n) →
      ∀ rr ∈ m.answer, Origin c (said (Caching.reload env cfg next key w).2.2) (bare n) t rr.data :=
  ⟨(reload_tellsIn (c := c) env cfg h hmsg key w trivial).1, (reload_tellsIn (c := c) env cfg h hmsg key w trivial).2.2⟩

theorem onExpired_tells (env : Caching.Env) (cfg : Caching.Cfg) {next : Chain.MR W}
    (h : Tells c asUp said id (fun _ => True) (fun _ => True) next)
    (hmsg : ∀ r m w, (next r (m, w)).1 = (next r (r.req, w)).1 ∧ (next r (m, w)).2.2 = (next r (r.req, w)).2.2)
    (s : Caching.CState) (w : Msg × W) (key : Str) :
    Grows said w.2 (Caching.onExpired env cfg next s w key).2.2.2 ∧
    (Caching.onExpired env cfg next s w key).2.1.main = s.main ∧
    ∀ m ttl, (Caching.onExpired env cfg next s w key).1 = some (some (m, ttl)) → ∀ t n, Caching.extractKey key = some (t, n) →
      ∀ rr ∈ m.answer, Origin c (said (Caching.onExpired env cfg next s w key).2.2.2) (bare n) t rr.data := by
  have hs : (Caching.shouldPrefetch cfg s key).2.main = s.main := by
    unfold Caching.shouldPrefetch
    split <;> rfl
  have hr := reload_tells (c := c) env cfg h hmsg key w
  unfold Caching.onExpired
  split
  · split
    · exact ⟨hr.1, hs, hr.2⟩
    · exact ⟨Grows.refl _, hs, fun _ _ h => nomatch h⟩
  · exact ⟨Grows.refl _, rfl, fun _ _ h => nomatch h⟩

theorem reloadLoop_tells (env : Caching.Env) (cfg : Caching.Cfg) {next : Chain.MR W}
    (h : Tells c asUp said id (fun _ => True) (fun _ => True) next)
    (hmsg : ∀ r m w, (next r (m, w)).1 = (next r (r.req, w)).1 ∧ (next r (m, w)).2.2 = (next r (r.req, w)).2.2)
    (ks : List Str) : ∀ (del : List Str) (s : Caching.CState) (w : Msg × W), CacheKnown c said w.2 s.main.cache.items →
      ∀ del' s' w', Caching.reloadLoop env cfg next ks del s w = (some (del', s'), w') →
      Grows said w.2 w'.2 ∧ CacheKnown c said w'.2 s'.main.cache.items := by
  induction ks with
  | nil =>
    intro del s w hi del' s' w' hr
    cases hr
    exact ⟨Grows.refl _, hi⟩
  | cons k ks ih =>
    intro del s w hi del' s' w' hr
    have ho := onExpired_tells (c := c) env cfg h hmsg s w k
    unfold Caching.reloadLoop at hr
    generalize Caching.onExpired env cfg next s w k = x at ho hr
    obtain ⟨r, s1, w1⟩ := x
    obtain ⟨h1, h2, h3⟩ := ho
    simp only at h1 h2 h3
    have hi1 : CacheKnown c said w1.2 s1.main.cache.items := by rw [h2]; exact hi.grow h1
    cases r with
    | none => cases hr
    | some r =>
      cases r with
      | none =>
        have := ih _ s1 w1 hi1 _ _ _ hr
        exact ⟨h1.trans this.1, this.2⟩
      | some mt =>
        obtain ⟨m, ttl⟩ := mt
        have := ih _ _ w1 (hi1.put s1.main.now k m ttl (h3 m ttl rfl)) _ _ _ hr
        exact ⟨h1.trans this.1, this.2⟩

theorem removes_sub (del : List Str) : ∀ (s : St Msg), ∀ x ∈ (run s (del.map Op.remove)).cache.items, x ∈ s.cache.items := by
  induction del with
  | nil => exact fun _ _ h => h
  | cons k ks ih =>
    intro s x hx
    have := ih (step s (.remove k)) x hx
    exact (List.mem_filter.1 this).1

theorem cleanUp_tells (env : Caching.Env) (cfg : Caching.Cfg) {next : Chain.MR W}
    (h : Tells c asUp said id (fun _ => True) (fun _ => True) next)
    (hmsg : ∀ r m w, (next r (m, w)).1 = (next r (r.req, w)).1 ∧ (next r (m, w)).2.2 = (next r (r.req, w)).2.2)
    (s : Caching.CState) (w : Msg × W) (hi : CacheKnown c said w.2 s.main.cache.items) (s' : Caching.CState) (w' : Msg × W)
    (hr : Caching.cleanUpCache env cfg next s w = (some s', w')) :
    Grows said w.2 w'.2 ∧ CacheKnown c said w'.2 s'.main.cache.items := by
  unfold Caching.cleanUpCache at hr
  split at hr
  · rename_i del s1 w1 hx
    cases hr
    have := reloadLoop_tells env cfg h hmsg _ _ _ _ hi _ _ _ hx
    exact ⟨this.1, this.2.sub (removes_sub del _)⟩
  · cases hr

/-! ### Histories -/

/-- A sequence of events that clients and time may bring about: all queries have (at most) one question. -/
def OneEach (es : List Event) : Prop := ∀ e ∈ es, ∀ remote sni msg, e = .query remote sni msg → OneQuestion msg

/-- The worlds a server gets into, beginning with the given one. -/
inductive ReachedBy (senv : Server.Env) (c : Chain.Config E W) (up : Resolver W) (w0 : Chain.World W) :
    List Event → Chain.World W → Prop
  | start : ReachedBy senv c up w0 [] w0
  | step {es w e w'} : ReachedBy senv c up w0 es w → (happen senv c up w e).2 = some w' → ReachedBy senv c up w0 (es ++ [e]) w'

theorem happen_tells {senv : Server.Env} {len : Msg → Nat} (ht : TruncContract len senv.trunc) {up : Resolver W}
    (h : Recorded senv c up said) (e : Event) (he : ∀ remote sni msg, e = .query remote sni msg → OneQuestion msg)
    (w w' : Chain.World W) (hi : CacheInv c said w.2.2) (hw : (happen senv c up w e).2 = some w') :
    Grows said w.2.2.2 w'.2.2.2 ∧ CacheInv c said w'.2.2 := by
  cases e with
  | query remote sni msg =>
    cases hw
    have := serve_tells ht h remote sni msg (he _ _ _ rfl) w hi
    exact ⟨this.1, this.2.1⟩
  | pass ms =>
    cases hw
    exact ⟨Grows.refl _, hi⟩
  | cleanUp =>
    have hc := cleanUp_tells (c := c) c.cacheEnv c.cache (tells_cond h.up h.cond) (fun _ _ _ => ⟨rfl, rfl⟩) w.2.2.1 ({}, w.2.2.2) hi
    unfold happen at hw
    simp only at hw
    generalize Caching.cleanUpCache c.cacheEnv c.cache (Chain.cond c up) w.2.2.1 ({}, w.2.2.2) = x at hc hw
    obtain ⟨s, mw⟩ := x
    cases s with
    | none => cases hw
    | some s =>
      cases hw
      exact hc s mw rfl

theorem reached_tells {senv : Server.Env} {len : Msg → Nat} (ht : TruncContract len senv.trunc) {up : Resolver W}
    (h : Recorded senv c up said) {w0 w : Chain.World W} {es : List Event} (hr : ReachedBy senv c up w0 es w) (hes : OneEach es)
    (h0 : w0.2.2.1.main.cache.items = []) : CacheInv c said w.2.2 := by
  induction hr with
  | start =>
    intro x hx
    rw [h0] at hx
    cases hx
  | step _ hw ih =>
    have h1 := ih (fun e he => hes e (List.mem_append_left _ he))
    exact (happen_tells ht h _ (fun remote sni msg hq => hes _ (by simp) remote sni msg hq) _ _ h1 hw).2

/-- **C103.** Whatever has happened before - queries of any clients, time passing, cleaning up with prefetching -,
the data of every record in an answer come from: an answer of an upstream to a query of that type for the name, or
for a name it leads to by configured rewriting or aliases; a custom record of such a name; the hosts file; the
addresses for blocked names; or the address of localhost. -/
theorem C103_origin {senv : Server.Env} {len : Msg → Nat} (ht : TruncContract len senv.trunc) {up : Resolver W}
    {said : W → Str → Nat → RData → Prop} (h : Recorded senv c up said) {w0 w : Chain.World W} {es : List Event}
    (h0 : w0.2.2.1.main.cache.items = []) (hr : ReachedBy senv c up w0 es w) (hes : OneEach es) (remote : Server.Addr)
    (sni : Option Str) (msg : Msg) (hm : OneQuestion msg) :
    ∀ m ∈ (Chain.serve senv c up remote sni msg w).1, ∀ rr ∈ m.answer, ∃ q, msg.question = [q] ∧
      Origin c (said (Chain.serve senv c up remote sni msg w).2.2.2.2) (bare q.name) q.qtype rr.data :=
  (serve_tells ht h remote sni msg hm w (reached_tells ht h hr hes h0)).2.2

/-! ### Writing down what upstreams answer -/

/-- An answer of an upstream: the name and the type of the query, and the data of a record. -/
structure Saying where
  name : Str
  qtype : Nat
  data : RData

/-- The message in what a resolver returns: the answer, or one carried by the error. -/
def messageIn (asUp : Str → Option Msg) : Outcome → Option Msg
  | .ok r => some r.res
  | .err e => asUp e
  | _ => none

/-- What is written down about a query and what came back. (Answers to messages with several questions are not
answers for a name.) -/
def sayings (asUp : Str → Option Msg) (request : Request) (o : Outcome) : List Saying :=
  match messageIn asUp o, request.req.question with
  | some m, [q] => m.answer.map (fun rr => ⟨q.name, q.qtype, rr.data⟩)
  | _, _ => []

/-- An upstream whose answers are written down; nothing else changes. -/
def writingDown (asUp : Str → Option Msg) (up : Resolver W) : Resolver (W × List Saying) := fun request w =>
  ((up request w.1).1, ((up request w.1).2, sayings asUp request (up request w.1).1 ++ w.2))

/-- It has been written down that an upstream has been asked for the name and the type and has answered with the
data. -/
def Said (w : W × List Saying) (n : Str) (t : Nat) (d : RData) : Prop := ∃ x ∈ w.2, bare x.name = n ∧ x.qtype = t ∧ x.data = d

theorem sayings_mem {asUp : Str → Option Msg} {request : Request} {o : Outcome} {m : Msg} {q : Question}
    (hq : request.req.question = [q]) (hm : messageIn asUp o = some m) {rr : RR} (hr : rr ∈ m.answer) :
    ⟨q.name, q.qtype, rr.data⟩ ∈ sayings asUp request o := by
  unfold sayings
  rw [hm, hq]
  exact List.mem_map.2 ⟨rr, hr, rfl⟩

theorem writingDown_records (asUp : Str → Option Msg) (up : Resolver W) : Records asUp Said (writingDown asUp up) where
  grows := fun _ _ _ _ _ ⟨x, hx, h⟩ => ⟨x, List.mem_append_right _ hx, h⟩
  ok := fun r w q y hq hy rr hr =>
    ⟨_, List.mem_append_left _ (sayings_mem hq (by
      have : (up r w.1).1 = .ok y := hy
      rw [this]; rfl) hr), rfl, rfl, rfl⟩
  err := fun r w q e m hq he hm rr hr =>
    ⟨_, List.mem_append_left _ (sayings_mem hq (by
      have : (up r w.1).1 = .err e := he
      rw [this]; exact hm) hr), rfl, rfl, rfl⟩

/-- **C103**, with the answers of all upstreams written down from the beginning. -/
theorem C103_written {senv : Server.Env} {len : Msg → Nat} (ht : TruncContract len senv.trunc)
    (c : Chain.Config E (W × List Saying)) (up : Resolver W)
    (hcond : ∀ d r, c.condMapping.get d = some r → ∃ r0, r = writingDown senv.asUpstream r0)
    (hloop : ∀ names, senv.asUpstream (CustomDns.loopError names) = none)
    (hother : senv.asUpstream (str! "unsupported customDNS RR type") = none)
    (hnames : ∀ l, c.namesLookup = some l → ∀ ip v, (l ip v).2.1 = v.1 ∧ ∀ x ∈ v.2.2, x ∈ (l ip v).2.2.2)
    {w0 w : Chain.World (W × List Saying)} {es : List Event} (h0 : w0.2.2.1.main.cache.items = [])
    (hr : ReachedBy senv c (writingDown senv.asUpstream up) w0 es w) (hes : OneEach es) (remote : Server.Addr)
    (sni : Option Str) (msg : Msg) (hm : OneQuestion msg) :
    ∀ m ∈ (Chain.serve senv c (writingDown senv.asUpstream up) remote sni msg w).1, ∀ rr ∈ m.answer, ∃ q,
      msg.question = [q] ∧
      Origin c (Said (Chain.serve senv c (writingDown senv.asUpstream up) remote sni msg w).2.2.2.2) (bare q.name) q.qtype rr.data :=
  C103_origin ht
    { up := writingDown_records _ _
      cond := fun d r hd => by obtain ⟨r0, rfl⟩ := hcond d r hd; exact writingDown_records _ _
      loop := hloop
      other := hother
      names := fun l hl ip v => ⟨(hnames l hl ip v).1, fun _ _ _ ⟨x, hx, h⟩ => ⟨x, (hnames l hl ip v).2 x hx, h⟩⟩ }
    h0 hr hes remote sni msg hm

/-- **C103**: without rewriting and aliases, what upstreams have answered shows up in answers for the names they
have been asked for only: what an upstream answers for one name never gets into answers for another one. -/
theorem C103_not_elsewhere {said : Str → Nat → RData → Prop} {n : Str} {t : Nat} {d : RData} (ho : Origin c said n t d)
    (h1 : c.customRewrite.rewrite = []) (h2 : c.condRewrite.rewrite = [])
    (h3 : ∀ z es, c.customMapping.get z = some es → ∀ e ∈ es, ∀ target, e.data ≠ .cname target) :
    said n t d ∨ Origin c (fun _ _ _ => False) n t d := by
  have hl : ∀ m, Leads c n m → m = n := by
    intro m hm
    induction hm with
    | self => rfl
    | custom _ h => exact absurd h1 h
    | conditional _ h => exact absurd h2 h
    | alias _ _ hg he hd => exact absurd hd (h3 _ _ hg _ he _)
  cases ho with
  | upstream h1 h2 => exact .inl (hl _ h1 ▸ h2)
  | record h1 h2 h3 h4 h5 => exact .inr (.record h1 h2 h3 h4 h5)
  | reverse h1 h2 h3 h4 => exact .inr (.reverse h1 h2 h3 h4)
  | host h1 h2 h3 => exact .inr (.host h1 h2 h3)
  | hostReverse h1 h2 h3 h4 h5 h6 => exact .inr (.hostReverse h1 h2 h3 h4 h5 h6)
  | sink h1 h2 => exact .inr (.sink h1 h2)
  | localhost4 h1 h2 h3 h4 => exact .inr (.localhost4 h1 h2 h3 h4)
  | localhost6 h1 h2 h3 h4 => exact .inr (.localhost6 h1 h2 h3 h4)

/-! ### Concrete servers -/

/-- The sample server with its upstreams written down. -/
def writtenConfig : Chain.Config prefixEngine (Nat × List Saying) :=
  { sampleConfig with
    ecs := {}
    namesLookup := none
    condMapping := [(str! "broken", writingDown sampleServer.asUpstream countingUp)] }

def writtenWorld : Chain.World (Nat × List Saying) := (⟨⟨10, []⟩, 0⟩, {}, ⟨⟨⟨10, []⟩, 0⟩, ⟨10, []⟩⟩, (0, []))

abbrev writtenUp : Resolver (Nat × List Saying) := writingDown sampleServer.asUpstream countingUp


theorem sample_loop (names : List Str) : sampleServer.asUpstream (CustomDns.loopError names) = none := by
  have : CustomDns.loopError names ≠ str! "servfail" := by
    unfold CustomDns.loopError
    intro h
    cases h
  unfold sampleServer
  simp only
  rw [if_neg this]

theorem query_one (n : Str) : OneQuestion (query n) := by
  intro q hq
  have : q = ⟨n, 1, 1⟩ := by simpa [query, typeA] using hq
  subst this
  exact ⟨rfl, show 1 < 65536 by decide⟩

theorem written_cond (d : Str) (r : Resolver (Nat × List Saying)) (h : writtenConfig.condMapping.get d = some r) :
    ∃ r0, r = writingDown sampleServer.asUpstream r0 := by
  have h' : AMap.get [(str! "broken", writingDown sampleServer.asUpstream countingUp)] d = some r := h
  unfold AMap.get at h'
  split at h'
  · cases h'; exact ⟨_, rfl⟩
  · cases h'

theorem sample_other : sampleServer.asUpstream (str! "unsupported customDNS RR type") = none := by decide +kernel

/-- The hypotheses of `C103_written` are met by the sample server after a query, some time, and cleaning up. -/
example (w : Chain.World (Nat × List Saying))
    (hr : ReachedBy sampleServer writtenConfig writtenUp writtenWorld
      [.query (.udp (some (.v4 1#32))) none (query (str! "www.org.")), .pass 5000, .cleanUp] w) (msg : Msg) (hm : OneQuestion msg) :
    ∀ m ∈ (Chain.serve sampleServer writtenConfig writtenUp (.udp (some (.v4 1#32))) none msg w).1,
      ∀ rr ∈ m.answer, ∃ q, msg.question = [q] ∧
        Origin writtenConfig (Said (Chain.serve sampleServer writtenConfig writtenUp (.udp (some (.v4 1#32))) none
          msg w).2.2.2.2) (bare q.name) q.qtype rr.data := by
  have hes : OneEach [.query (.udp (some (.v4 1#32))) none (query (str! "www.org.")), .pass 5000, .cleanUp] := by
    intro e he remote sni msg hm
    subst hm
    simp only [List.mem_cons, List.not_mem_nil, or_false, reduceCtorEq] at he
    injection he with _ _ he
    rw [he]
    exact query_one _
  exact C103_written sample_contract writtenConfig countingUp written_cond sample_loop sample_other (fun _ h => nomatch h)
    rfl hr hes _ _ msg hm

/-- The world after a history. -/
def afterEvents (senv : Server.Env) (c : Chain.Config E W) (up : Resolver W) : List Event → Chain.World W → Option (Chain.World W)
  | [], w => some w
  | e :: es, w =>
    match (happen senv c up w e).2 with
    | some w' => afterEvents senv c up es w'
    | none => none

/-- The data in the answers, whether the cache answered (the number of queries to upstreams), and the names asked
for at upstreams. -/
def glance (x : List Msg × Chain.World (Nat × List Saying)) : List (List RData) × Nat × List (Str × Nat) :=
  (x.1.map (fun m => m.answer.map RR.data), x.2.2.2.2.1, x.2.2.2.2.2.map (fun s => (s.name, s.qtype)))

-- such a history exists; the second query is answered from the cache, with data the upstream has given before
example : (afterEvents sampleServer writtenConfig writtenUp
    [.query (.udp (some (.v4 1#32))) none (query (str! "www.org.")), .pass 5000, .cleanUp] writtenWorld).map (fun w =>
      glance (Chain.serve sampleServer writtenConfig writtenUp (.udp (some (.v4 1#32))) none (query (str! "WWW.org.")) w)) =
    some ([[.a (.v4 0x01020304#32)]], 1, [(str! "www.org.", 1)]) := by decide +kernel

-- custom records, and the address for blocked names
example : glance (Chain.serve sampleServer writtenConfig writtenUp (.udp (some (.v4 1#32))) none (query (str! "nas.lan."))
    writtenWorld) = ([[.a (.v4 0x0a000001#32)]], 0, []) := by decide +kernel
example : glance (Chain.serve sampleServer writtenConfig writtenUp (.udp (some (.v4 1#32))) none (query (str! "ads.org."))
    writtenWorld) = ([[.a (.v4 0#32)]], 0, []) := by decide +kernel

/-! ### Messages with several questions -/

/-- An upstream that looks at the first question only, as most name servers do. -/
def firstOnly : Resolver Nat := fun request n =>
  match request.req.question with
  | [] => (.err (str! "no question"), n + 1)
  | q :: _ => (.ok { res := { ({} : Msg).setReply request.req with
      answer := [⟨q.name, 1, 1, 300, .a (.v4 (if q.name = str! "evil.org." then 0x06060606#32 else 0x01010101#32))⟩] } }, n + 1)

/-- The sample server without rewriting, custom DNS and conditional upstreams. -/
def bareConfig : Chain.Config prefixEngine (Nat × List Saying) :=
  { sampleConfig with
    ecs := {}
    namesLookup := none
    customMapping := []
    condRewrite := ⟨[], false⟩
    condMapping := [] }

/-- One message with two questions. -/
def twoQuestions : Msg := { id := 5, recursionDesired := true, question := [⟨str! "evil.org.", 1, 1⟩, ⟨str! "bank.org.", 1, 1⟩] }

/-- The world after that message. -/
def poisonedWorld : Chain.World (Nat × List Saying) :=
  (Chain.serve sampleServer bareConfig (writingDown sampleServer.asUpstream firstOnly) .other none twoQuestions writtenWorld).2

/-- **C103 is false after messages with several questions** (possible over HTTPS). Somebody sends one with the
questions "evil.org" and "bank.org"; the upstream answers the first one. Then another client asks for "bank.org" and
gets this answer - which is no answer any upstream has given for "bank.org" -, although the upstream would answer
"bank.org" differently. -/
theorem C103_two_questions_false :
    glance (Chain.serve sampleServer bareConfig (writingDown sampleServer.asUpstream firstOnly) (.udp (some (.v4 1#32))) none
      (query (str! "bank.org.")) poisonedWorld) = ([[.a (.v4 0x06060606#32)]], 2, []) ∧
    glance (Chain.serve sampleServer bareConfig (writingDown sampleServer.asUpstream firstOnly) (.udp (some (.v4 1#32))) none
      (query (str! "bank.org.")) writtenWorld) = ([[.a (.v4 0x01010101#32)]], 1, [(str! "bank.org.", 1)]) ∧
    ¬ Origin bareConfig (Said (Chain.serve sampleServer bareConfig (writingDown sampleServer.asUpstream firstOnly)
      (.udp (some (.v4 1#32))) none (query (str! "bank.org.")) poisonedWorld).2.2.2.2) (str! "bank.org") 1 (.a (.v4 0x06060606#32)) := by
  refine ⟨by decide +kernel, by decide +kernel, ?_⟩
  intro ho
  have hsaid : (Chain.serve sampleServer bareConfig (writingDown sampleServer.asUpstream firstOnly)
      (.udp (some (.v4 1#32))) none (query (str! "bank.org.")) poisonedWorld).2.2.2.2.2.map (fun s => (s.name, s.qtype)) = [] := by
    decide +kernel
  have hs := C103_not_elsewhere ho rfl rfl (fun _ _ h => nomatch h)
  rcases hs with ⟨x, hx, _⟩ | ho
  · rw [List.map_eq_nil_iff] at hsaid
    rw [hsaid] at hx
    cases hx
  · generalize hd : RData.a (.v4 0x06060606#32) = d at ho
    cases ho with
    | upstream _ h => exact h
    | record _ _ h => cases h
    | reverse _ _ h => cases h
    | host _ _ h => cases h
    | hostReverse _ _ _ _ h => cases h
    | @sink ip h1 h2 =>
      have h1' : ip = .v4 0 ∨ ip = .v6 0 := h1
      rcases h1' with rfl | rfl <;> revert hd <;> decide
    | localhost4 => revert hd; decide
    | localhost6 => revert hd; decide

end Verif.Props
