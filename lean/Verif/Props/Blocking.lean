/-
C15, C16, C17, C21: the blocking decision.
-/
import Verif.Spec.Blocking
import Verif.Props.StringCache

namespace Verif.Props
open Spec Dns Blocking StringCache

/-! ### C17 -/

theorem get_appendGroups (m : AMap Str (List Str)) (k k' : Str) (gs : List Str) (g : Str) :
    (∃ l, (appendGroups m k gs).get k' = some l ∧ g ∈ l) ↔
      (∃ l, m.get k' = some l ∧ g ∈ l) ∨ (k' = k ∧ g ∈ gs) := by
  unfold appendGroups
  cases hk : m.get k with
  | none =>
    simp only [AMap.get_put]
    by_cases h : k = k'
    · subst h; simp [hk]
    · simp [h, Ne.symm h]
  | some old =>
    simp only [AMap.get_put]
    by_cases h : k = k'
    · subst h; simp [hk]
    · simp [h, Ne.symm h]

theorem uniq_appendGroups {m : AMap Str (List Str)} (h : AMap.Uniq m) (k : Str) (gs : List Str) :
    AMap.Uniq (appendGroups m k gs) := by
  unfold appendGroups
  split <;> exact h.put _ _

theorem foldl_appendGroups (parts : List Str) (m : AMap Str (List Str)) (gs : List Str) (k g : Str)
    (hu : AMap.Uniq m) :
    AMap.Uniq (parts.foldl (fun m part => appendGroups m part gs) m) ∧
    ((∃ l, AMap.get (parts.foldl (fun m part => appendGroups m part gs) m) k = some l ∧ g ∈ l) ↔
      (∃ l, m.get k = some l ∧ g ∈ l) ∨ (k ∈ parts ∧ g ∈ gs)) := by
  induction parts generalizing m with
  | nil => exact ⟨hu, by simp⟩
  | cons p ps ih =>
    obtain ⟨h1, h2⟩ := ih (appendGroups m p gs) (uniq_appendGroups hu p gs)
    refine ⟨h1, ?_⟩
    simp only [List.foldl_cons]
    rw [h2, get_appendGroups]
    simp only [List.mem_cons]
    constructor
    · rintro ((h | ⟨h, h'⟩) | ⟨h, h'⟩)
      · exact .inl h
      · exact .inr ⟨.inl h, h'⟩
      · exact .inr ⟨.inr h, h'⟩
    · rintro (h | ⟨h | h, h'⟩)
      · exact .inl (.inl h)
      · exact .inl (.inr ⟨h, h'⟩)
      · exact .inr ⟨h, h'⟩

/-- The map built from the configuration: for each identifier the groups of all entries naming it. -/
theorem clientGroupsBlock_spec (c : BCfg) (k g : Str) :
    AMap.Uniq (clientGroupsBlock c) ∧
    ((∃ l, (clientGroupsBlock c).get k = some l ∧ g ∈ l) ↔ ∃ gs, HasEntry c k gs ∧ g ∈ gs) := by
  unfold clientGroupsBlock HasEntry
  suffices ∀ (es : List (Str × List Str)) (m : AMap Str (List Str)), AMap.Uniq m →
      AMap.Uniq (es.foldl (fun m e =>
        (splitChar ',' (lower e.1)).foldl (fun m part => appendGroups m part e.2) m) m) ∧
      ((∃ l, AMap.get (es.foldl (fun m e =>
        (splitChar ',' (lower e.1)).foldl (fun m part => appendGroups m part e.2) m) m) k = some l ∧
          g ∈ l) ↔
        (∃ l, m.get k = some l ∧ g ∈ l) ∨
          ∃ gs, (∃ e ∈ es, k ∈ splitChar ',' (lower e.1) ∧ gs = e.2) ∧ g ∈ gs) by
    obtain ⟨h1, h2⟩ := this c.clientGroupsBlock [] AMap.uniq_nil
    exact ⟨h1, h2.trans (by simp)⟩
  intro es
  induction es with
  | nil => intro m hm; exact ⟨hm, by simp⟩
  | cons e es ih =>
    intro m hm
    obtain ⟨f1, f2⟩ := foldl_appendGroups (splitChar ',' (lower e.1)) m e.2 k g hm
    obtain ⟨h1, h2⟩ := ih _ f1
    refine ⟨h1, ?_⟩
    simp only [List.foldl_cons]
    rw [h2, f2]
    constructor
    · rintro ((h | ⟨h, h'⟩) | ⟨gs, ⟨e', he', h⟩, h'⟩)
      · exact .inl h
      · exact .inr ⟨e.2, ⟨e, by simp, h, rfl⟩, h'⟩
      · exact .inr ⟨gs, ⟨e', by simp [he'], h⟩, h'⟩
    · rintro (h | ⟨gs, ⟨e', he', h, rfl⟩, h'⟩)
      · exact .inl (.inl h)
      · rcases List.mem_cons.1 he' with rfl | he'
        · exact .inl (.inr ⟨h, h'⟩)
        · exact .inr ⟨e'.2, ⟨e', he', h, rfl⟩, h'⟩

theorem mem_matchedGroups (env : Blocking.Env) (c : BCfg) (fqdnIPs : Str → Option (List IP))
    (request : Request) (g : Str) :
    g ∈ matchedGroups env (clientGroupsBlock c) fqdnIPs request ↔ Assigned env c fqdnIPs request g := by
  have hu : AMap.Uniq (clientGroupsBlock c) := (clientGroupsBlock_spec c [] []).1
  have hent : ∀ k, (∃ e ∈ clientGroupsBlock c, e.1 = k ∧ g ∈ e.2) ↔ ∃ gs, HasEntry c k gs ∧ g ∈ gs := by
    intro k
    rw [← (clientGroupsBlock_spec c k g).2]
    constructor
    · rintro ⟨⟨k', l⟩, he, rfl, hg⟩; exact ⟨l, hu.get_of_mem he, hg⟩
    · rintro ⟨l, hl, hg⟩; exact ⟨(k, l), AMap.get_eq_some_mem hl, rfl, hg⟩
  unfold matchedGroups Assigned StandsFor
  simp only [List.mem_append, List.mem_flatMap]
  constructor
  · rintro ((⟨n, hn, e, he, hg⟩ | hg) | ⟨e, he, hg⟩)
    · split at hg
      · rename_i hm
        obtain ⟨gs, h1, h2⟩ := (hent e.1).1 ⟨e, he, rfl, hg⟩
        exact ⟨e.1, gs, h1, .inl ⟨n, hn, hm⟩, h2⟩
      · simp at hg
    · unfold orEmpty at hg
      split at hg
      · rename_i gs hgs
        obtain ⟨gs', h1, h2⟩ := (clientGroupsBlock_spec c _ g).2.1 ⟨gs, hgs, hg⟩
        exact ⟨_, gs', h1, .inr (.inl rfl), h2⟩
      · simp at hg
    · split at hg
      · rename_i hm
        obtain ⟨gs, h1, h2⟩ := (hent e.1).1 ⟨e, he, rfl, hg⟩
        exact ⟨e.1, gs, h1, .inr (.inr (.inl hm)), h2⟩
      · split at hg
        · rename_i hf
          split at hg
          · rename_i ips hips
            obtain ⟨ip, hip, hg⟩ := List.mem_flatMap.1 hg
            obtain ⟨gs, h1, h2⟩ := (hent e.1).1 ⟨e, he, rfl, hg⟩
            simp only [List.mem_filter, ipEqual, beq_iff_eq] at hip
            exact ⟨e.1, gs, h1, .inr (.inr (.inr ⟨hf, ips, ip, hips, hip.1, hip.2⟩)), h2⟩
          · simp at hg
        · simp at hg
  · rintro ⟨ident, gs, h1, h2, h3⟩
    obtain ⟨e, he, rfl, hg⟩ := (hent ident).2 ⟨gs, h1, h3⟩
    rcases h2 with ⟨n, hn, hm⟩ | hip | hc | ⟨hf, ips, ip, hips, hin, hcl⟩
    · exact .inl (.inl ⟨n, hn, e, he, by rw [if_pos (show env.nameMatches e.1 n = true from hm)]; exact hg⟩)
    · refine .inl (.inr ?_)
      rw [← hip, hu.get_of_mem (show (e.1, e.2) ∈ clientGroupsBlock c from he)]
      exact hg
    · exact .inr ⟨e, he, by rw [if_pos hc]; exact hg⟩
    · refine .inr ⟨e, he, ?_⟩
      by_cases hc : env.cidrContains e.1 request.clientIP = true
      · rw [if_pos hc]; exact hg
      · rw [if_neg hc, if_pos hf, hips]
        exact List.mem_flatMap.2 ⟨ip, by simp [hin, ipEqual, hcl], hg⟩

/-- **C17.** The groups checked for a client are exactly the active ones: those of all identifiers
that stand for the client, the default ones if that gives none, without the disabled ones. The order
in which the configuration map is iterated does not matter. (An identifier with an empty list of
groups does not count as assigning groups, see `C17_exempt_client_gets_default`.) -/
theorem C17_groups_of_client (env : Blocking.Env) (c : BCfg) (fqdnIPs : Str → Option (List IP)) (s : Status)
    (request : Request) (g : Str) :
    g ∈ groupsToCheck env (clientGroupsBlock c) fqdnIPs s request ↔
      Active env c fqdnIPs s.disabledGroups request g := by
  unfold groupsToCheck Active
  simp only [mem_sortStr, List.mem_filter]
  have hd : (!isGroupDisabled s g) = true ↔ g ∉ s.disabledGroups := by
    simp [isGroupDisabled]
    constructor
    · intro h hm; exact h g hm rfl
    · rintro h x hx rfl; exact h hx
  rw [hd]
  have hnone : (matchedGroups env (clientGroupsBlock c) fqdnIPs request).length = 0 ↔
      ¬ ∃ g', Assigned env c fqdnIPs request g' := by
    rw [List.length_eq_zero_iff, List.eq_nil_iff_forall_not_mem]
    simp only [mem_matchedGroups, not_exists]
  by_cases hm : (matchedGroups env (clientGroupsBlock c) fqdnIPs request).length = 0
  · rw [if_pos hm]
    have hno := hnone.1 hm
    have hdef : g ∈ orEmpty ((clientGroupsBlock c).get (str! "default")) ↔
        ∃ gs, HasEntry c (str! "default") gs ∧ g ∈ gs := by
      rw [← (clientGroupsBlock_spec c (str! "default") g).2]
      cases (clientGroupsBlock c).get (str! "default") <;> simp [orEmpty]
    rw [hdef]
    constructor
    · rintro ⟨h1, h2⟩; exact ⟨h2, .inr ⟨hno, h1⟩⟩
    · rintro ⟨h2, h | ⟨_, h1⟩⟩
      · exact absurd ⟨g, h⟩ hno
      · exact ⟨h1, h2⟩
  · rw [if_neg hm, mem_matchedGroups]
    have hyes : ∃ g', Assigned env c fqdnIPs request g' := by
      rcases Classical.em (∃ g', Assigned env c fqdnIPs request g') with h | h
      · exact h
      · exact absurd (hnone.2 h) hm
    constructor
    · rintro ⟨h1, h2⟩; exact ⟨h2, .inl h1⟩
    · rintro ⟨h2, h | ⟨h, _⟩⟩
      · exact ⟨h, h2⟩
      · exact absurd hyes h

/-- A library in which addresses print as "ip", no string is a subnet, and patterns match literally. -/
def plainEnv : Blocking.Env := ⟨fun _ => str! "ip", fun _ _ => false, fun p s => p == s⟩

/-- **C17 is false as stated.** A client that is listed with no groups (to exempt it from blocking)
is given the default groups. -/
theorem C17_exempt_client_gets_default :
    let c : BCfg := { clientGroupsBlock := [(str! "default", [str! "ads"]), (str! "laptop", [])] }
    groupsToCheck plainEnv (clientGroupsBlock c) (fun _ => none) {}
      { clientNames := [str! "laptop"], req := {} } = [str! "ads"] := by
  decide

-- Instances: a pattern with several identifiers, upper case, a disabled group, the default.
example :
    let c : BCfg := { clientGroupsBlock := [(str! "default", [str! "ads"]),
      (str! "Laptop,ip", [str! "kids", str! "ads"]), (str! "laptop", [str! "work"])] }
    groupsToCheck plainEnv (clientGroupsBlock c) (fun _ => none) { disabledGroups := [str! "ads"] }
      { clientNames := [str! "LAPTOP"], req := {} } =
        [str! "kids", str! "kids", str! "work"] := by
  decide

/-! ### C15 -/

/-- The blocker as configured: lists after histories of refreshes, status and resolved client names
arbitrary. -/
structure Setup (E : RegexEngine) where
  env : Blocking.Env
  cfg : BCfg
  handler : Handler
  denyHist : List (Str × List Str)
  allowHist : List (Str × List Str)
  deny : Caches E
  allow : Caches E
  hdeny : afterRefreshes E denyHist {} = some deny
  hallow : afterRefreshes E allowHist {} = some allow
  status : Status := {}
  fqdnIPs : Str → Option (List IP) := fun _ => none

variable {E : RegexEngine}

/-- The state of the resolver of a set-up (blocking_resolver.go 139-153). -/
def Setup.state (s : Setup E) : BState E where
  handler := s.handler
  deny := s.deny
  allow := s.allow
  allowOnly := allowlistOnlyGroups s.cfg
  cgb := clientGroupsBlock s.cfg
  status := s.status
  fqdnIPs := s.fqdnIPs

/-- A group in effect for the client. -/
def Setup.Act (s : Setup E) (request : Request) (g : Str) : Prop :=
  Active s.env s.cfg s.fqdnIPs s.status.disabledGroups request g

/-- The name or address is on an allowlist of one of the client's groups. -/
def Setup.Allowed (s : Setup E) (request : Request) (x : Str) : Prop :=
  ∃ g, s.Act request g ∧ ∃ e ∈ currentList g s.allowHist, EntryMatches E e x

/-- The name or address is on a denylist of one of the client's groups. -/
def Setup.Denied (s : Setup E) (request : Request) (x : Str) : Prop :=
  ∃ g, s.Act request g ∧ ∃ e ∈ currentList g s.denyHist, EntryMatches E e x

/-- One of the client's groups has allowlists only. -/
def Setup.OnlyAllowed (s : Setup E) (request : Request) : Prop :=
  ∃ g, s.Act request g ∧ AllowOnly s.cfg g

/-- No list says anything about the question. -/
def Setup.Open (s : Setup E) (request : Request) (q : Question) : Prop :=
  ¬ s.Allowed request (extractDomain q.name) ∧ ¬ s.OnlyAllowed request ∧
  ¬ s.Denied request (extractDomain q.name)

/-- The first question a list says something about is allowed. -/
def Setup.NameAllowed (s : Setup E) (request : Request) : Prop :=
  ∃ pre q post, request.req.question = pre ++ q :: post ∧ (∀ p ∈ pre, s.Open request p) ∧
    s.Allowed request (extractDomain q.name)

/-- The first question a list says something about, `q`, is blocked. -/
def Setup.NameBlocked (s : Setup E) (request : Request) (q : Question) : Prop :=
  ∃ pre post, request.req.question = pre ++ q :: post ∧ (∀ p ∈ pre, s.Open request p) ∧
    ¬ s.Allowed request (extractDomain q.name) ∧
    (s.OnlyAllowed request ∨ s.Denied request (extractDomain q.name))

/-- What an answer record is checked for: its address or the alias it points to. -/
def Checked (env : Blocking.Env) (rr : RR) (x : Str) : Prop :=
  x ≠ [] ∧
  ((∃ ip, rr.data = .a ip ∧ x = env.ipString (some ip)) ∨
   (∃ ip, rr.data = .aaaa ip ∧ x = lower (env.ipString (some ip))) ∨
   (∃ t, rr.data = .cname t ∧ x = extractDomain t))

/-- The answer contains an address or alias that is denied and not allowed. -/
def Setup.AnswerBlocked (s : Setup E) (request : Request) (answer : List RR) : Prop :=
  ∃ rr ∈ answer, ∃ x, Checked s.env rr x ∧ ¬ s.Allowed request x ∧ s.Denied request x

/-- The groups the model computes for a request. -/
def Setup.groups (s : Setup E) (request : Request) : List Str :=
  groupsToCheck s.env s.state.cgb s.state.fqdnIPs s.state.status request

theorem Setup.mem_groups (s : Setup E) (request : Request) (g : Str) :
    g ∈ s.groups request ↔ s.Act request g :=
  C17_groups_of_client s.env s.cfg s.fqdnIPs s.status request g

theorem length_pos_iff_mem {α : Type} {l : List α} : l.length > 0 ↔ ∃ x, x ∈ l := by
  rw [gt_iff_lt, List.length_pos_iff_exists_mem]

theorem matches_pos (groups : List Str) (m : Caches E) (x : Str) :
    («matches» groups m x).length > 0 ↔ ∃ g, g ∈ m.contains E x groups := by
  unfold «matches»
  by_cases h : groups.length > 0
  · rw [if_pos h, length_pos_iff_mem]
  · rw [if_neg h]
    have h0 : groups = [] := List.length_eq_zero_iff.1 (by omega)
    simp only [List.length_nil, gt_iff_lt, Nat.lt_irrefl, false_iff, not_exists]
    intro g hg
    rw [(contains_iff m x groups).2] at hg
    simp [h0] at hg

theorem Setup.allow_iff (s : Setup E) (request : Request) (x : Str) :
    («matches» (s.groups request) s.allow x).length > 0 ↔ s.Allowed request x := by
  rw [matches_pos]
  simp only [(C03_lookup_union E _ _ s.hallow x (s.groups request)).2, s.mem_groups]
  rfl

theorem Setup.deny_iff (s : Setup E) (request : Request) (x : Str) :
    («matches» (s.groups request) s.deny x).length > 0 ↔ s.Denied request x := by
  rw [matches_pos]
  simp only [(C03_lookup_union E _ _ s.hdeny x (s.groups request)).2, s.mem_groups]
  rfl

theorem mem_allowlistOnlyGroups (c : BCfg) (g : Str) : g ∈ allowlistOnlyGroups c ↔ AllowOnly c g := by
  unfold allowlistOnlyGroups AllowOnly
  simp only [List.mem_map, List.mem_filter, Bool.and_eq_true, decide_eq_true_eq, Bool.not_eq_true',
    List.contains_eq_mem, decide_eq_false_iff_not]
  constructor
  · rintro ⟨⟨g', n⟩, ⟨h1, h2, h3⟩, rfl⟩; exact ⟨⟨n, h1, h2⟩, h3⟩
  · rintro ⟨⟨n, h1, h2⟩, h3⟩; exact ⟨(g, n), ⟨h1, h2, h3⟩, rfl⟩

theorem Setup.only_iff (s : Setup E) (request : Request) :
    hasAllowlistOnlyAllowed s.state (s.groups request) = true ↔ s.OnlyAllowed request := by
  unfold hasAllowlistOnlyAllowed Setup.OnlyAllowed
  simp only [List.any_eq_true, s.mem_groups, List.contains_eq_mem, decide_eq_true_eq]
  constructor
  · rintro ⟨g, h1, h2⟩; exact ⟨g, h1, (mem_allowlistOnlyGroups _ _).1 h2⟩
  · rintro ⟨g, h1, h2⟩; exact ⟨g, h1, (mem_allowlistOnlyGroups _ _).2 h2⟩

/-- A block answer for question `q`. -/
def IsBlockAnswer (s : Setup E) (request : Request) (q : Question) (o : Outcome) : Prop :=
  ∃ reason, o = .ok { res := s.handler.handleBlock q (({} : Msg).setReply request.req),
                      rtype := .blocked, reason := reason }

theorem handleDenylist_spec (s : Setup E) (request : Request) (qs : List Question) :
    match handleDenylist s.state (s.groups request) request qs with
    | .allowed => ∃ pre q post, qs = pre ++ q :: post ∧ (∀ p ∈ pre, s.Open request p) ∧
        s.Allowed request (extractDomain q.name)
    | .blocked o => ∃ pre q post, qs = pre ++ q :: post ∧ (∀ p ∈ pre, s.Open request p) ∧
        ¬ s.Allowed request (extractDomain q.name) ∧
        (s.OnlyAllowed request ∨ s.Denied request (extractDomain q.name)) ∧
        IsBlockAnswer s request q o
    | .no => ∀ q ∈ qs, s.Open request q := by
  induction qs with
  | nil => simp [handleDenylist]
  | cons q qs ih =>
    unfold handleDenylist
    by_cases ha : («matches» (s.groups request) s.state.allow (extractDomain q.name)).length > 0
    · rw [if_pos ha]
      exact ⟨[], q, qs, rfl, by simp, (s.allow_iff request _).1 ha⟩
    · rw [if_neg ha]
      have ha' := fun h => ha ((s.allow_iff request _).2 h)
      by_cases ho : hasAllowlistOnlyAllowed s.state (s.groups request) = true
      · rw [if_pos ho]
        exact ⟨[], q, qs, rfl, by simp, ha', .inl ((s.only_iff request).1 ho), _, rfl⟩
      · rw [if_neg ho]
        have ho' := fun h => ho ((s.only_iff request).2 h)
        by_cases hd : («matches» (s.groups request) s.state.deny (extractDomain q.name)).length > 0
        · rw [if_pos hd]
          exact ⟨[], q, qs, rfl, by simp, ha', .inr ((s.deny_iff request _).1 hd), _, rfl⟩
        · rw [if_neg hd]
          have hd' := fun h => hd ((s.deny_iff request _).2 h)
          have hopen : s.Open request q := ⟨ha', ho', hd'⟩
          revert ih
          cases handleDenylist s.state (s.groups request) request qs with
          | allowed =>
            rintro ⟨pre, p, post, h1, h2, h3⟩
            exact ⟨q :: pre, p, post, by rw [h1]; rfl, by simpa [hopen] using h2, h3⟩
          | blocked o =>
            rintro ⟨pre, p, post, h1, h2, h3⟩
            exact ⟨q :: pre, p, post, by rw [h1]; rfl, by simpa [hopen] using h2, h3⟩
          | no => intro h; simpa [hopen] using h

/-- The first question that is not open is unique. -/
theorem first_unique {s : Setup E} {request : Request} {pre pre' post post' : List Question}
    {q q' : Question} (h : pre ++ q :: post = pre' ++ q' :: post')
    (h1 : ∀ p ∈ pre, s.Open request p) (h2 : ∀ p ∈ pre', s.Open request p)
    (hq : ¬ s.Open request q) (hq' : ¬ s.Open request q') : q = q' := by
  induction pre generalizing pre' with
  | nil =>
    cases pre' with
    | nil => simpa using (List.cons.inj h).1
    | cons a pre' =>
      have : q = a := (List.cons.inj h).1
      exact absurd (h2 q (by simp [this])) hq
  | cons a pre ih =>
    cases pre' with
    | nil =>
      have : a = q' := (List.cons.inj h).1
      exact absurd (h1 q' (by simp [this])) hq'
    | cons b pre' =>
      exact ih (List.cons.inj h).2 (fun p hp => h1 p (by simp [hp])) (fun p hp => h2 p (by simp [hp]))

theorem checked_iff (env : Blocking.Env) (rr : RR) :
    (∀ x, Checked env rr x ↔ (x = (extractEntry env rr).1 ∧ x ≠ [])) := by
  intro x
  unfold Checked extractEntry
  cases rr.data <;> simp [and_comm] <;> intro h <;> simp [h]

theorem checkAnswer_spec (s : Setup E) (request : Request) (answer : List RR) :
    (∀ q qs, request.req.question = q :: qs → s.AnswerBlocked request answer →
      ∃ o, checkAnswer s.env s.state (s.groups request) request answer = some o ∧
        IsBlockAnswer s request q o) ∧
    (¬ s.AnswerBlocked request answer →
      checkAnswer s.env s.state (s.groups request) request answer = none) := by
  induction answer with
  | nil =>
    refine ⟨?_, fun _ => rfl⟩
    rintro q qs _ ⟨rr, h, _⟩
    simp at h
  | cons rr rrs ih =>
    unfold checkAnswer
    have hc := checked_iff s.env rr
    have hcons : s.AnswerBlocked request (rr :: rrs) ↔
        (∃ x, Checked s.env rr x ∧ ¬ s.Allowed request x ∧ s.Denied request x) ∨
          s.AnswerBlocked request rrs := by
      unfold Setup.AnswerBlocked
      simp [List.mem_cons, or_and_right, exists_or]
    simp only
    generalize hent : extractEntry s.env rr = ent at hc
    obtain ⟨entry, tName⟩ := ent
    simp only at hc ⊢
    have hskip : (¬ ∃ x, Checked s.env rr x ∧ ¬ s.Allowed request x ∧ s.Denied request x) →
        (s.AnswerBlocked request (rr :: rrs) ↔ s.AnswerBlocked request rrs) := by
      intro h; rw [hcons]; exact ⟨fun h' => h'.resolve_left h, .inr⟩
    by_cases hlen : entry.length > 0
    · rw [if_pos hlen]
      have hne : entry ≠ [] := by intro h; simp [h] at hlen
      by_cases ha : («matches» (s.groups request) s.state.allow entry).length > 0
      · rw [if_pos ha, hskip]
        · exact ih
        · rintro ⟨x, hx, h1, _⟩
          exact h1 (((hc x).1 hx).1 ▸ (s.allow_iff request _).1 ha)
      · rw [if_neg ha]
        by_cases hd : («matches» (s.groups request) s.state.deny entry).length > 0
        · rw [if_pos hd]
          refine ⟨?_, ?_⟩
          · intro q qs hq _
            rw [hq]
            exact ⟨_, rfl, _, rfl⟩
          · intro h
            exact absurd (hcons.2 (.inl ⟨entry, (hc entry).2 ⟨rfl, hne⟩,
              fun h => ha ((s.allow_iff request _).2 h), (s.deny_iff request _).1 hd⟩)) h
        · rw [if_neg hd, hskip]
          · exact ih
          · rintro ⟨x, hx, _, h2⟩
            exact hd ((s.deny_iff request _).2 (((hc x).1 hx).1 ▸ h2))
    · rw [if_neg hlen, hskip]
      · exact ih
      · rintro ⟨x, hx, _⟩
        have := (hc x).1 hx
        exact this.2 (this.1.trans (List.length_eq_zero_iff.1 (by omega)))

theorem no_groups_open (s : Setup E) (request : Request) (h : ¬ (s.groups request).length > 0) (x : Str) :
    ¬ s.Allowed request x ∧ ¬ s.Denied request x ∧ ¬ s.OnlyAllowed request := by
  have hno : ∀ g, ¬ s.Act request g := by
    intro g hg
    exact h (length_pos_iff_mem.2 ⟨g, (s.mem_groups request g).2 hg⟩)
  exact ⟨fun ⟨g, hg, _⟩ => hno g hg, fun ⟨g, hg, _⟩ => hno g hg, fun ⟨g, hg, _⟩ => hno g hg⟩

/-- **C15 / C16, blocked by name.** If the first question about which the client's lists say
something is blocked, the block answer is given, the next resolver is not called, and the world
(caches, upstreams) stays as it is. -/
theorem C15_blocked_by_name {W : Type} (s : Setup E) (next : Resolver W) (request : Request) (w : W)
    (q : Question) (h : s.NameBlocked request q) :
    ∃ o, resolve s.env s.state next request w = (o, w) ∧ IsBlockAnswer s request q o := by
  obtain ⟨pre, post, h1, h2, h3, h4⟩ := h
  have hlen : (s.groups request).length > 0 := by
    rcases Classical.em ((s.groups request).length > 0) with h | h
    · exact h
    · have := no_groups_open s request h (extractDomain q.name)
      rcases h4 with h4 | h4
      · exact absurd h4 this.2.2
      · exact absurd h4 this.2.1
  have hq : ¬ s.Open request q := by
    rintro ⟨_, h5, h6⟩
    rcases h4 with h4 | h4
    · exact h5 h4
    · exact h6 h4
  have hspec := handleDenylist_spec s request request.req.question
  unfold resolve
  simp only
  rw [show groupsToCheck s.env s.state.cgb s.state.fqdnIPs s.state.status request = s.groups request
    from rfl, if_pos hlen]
  revert hspec
  cases handleDenylist s.state (s.groups request) request request.req.question with
  | allowed =>
    rintro ⟨pre', p, post', g1, g2, g3⟩
    have hp : ¬ s.Open request p := fun h => h.1 g3
    have := first_unique (h1.symm.trans g1) h2 g2 hq hp
    exact absurd (this ▸ g3) h3
  | blocked o =>
    rintro ⟨pre', p, post', g1, g2, g3, g4, g5⟩
    have hp : ¬ s.Open request p := by
      rintro ⟨_, h5, h6⟩
      rcases g4 with g4 | g4
      · exact h5 g4
      · exact h6 g4
    have := first_unique (h1.symm.trans g1) h2 g2 hq hp
    subst this
    exact ⟨o, rfl, g5⟩
  | no =>
    intro h
    exact absurd (h q (by rw [h1]; simp)) hq

/-- **C15, allowed by name.** If the first question about which the lists say something is allowed,
the next resolver's outcome is passed on unchanged, whatever the answer contains. -/
theorem C15_allowed_by_name {W : Type} (s : Setup E) (next : Resolver W) (request : Request) (w : W)
    (h : s.NameAllowed request) : resolve s.env s.state next request w = next request w := by
  obtain ⟨pre, q, post, h1, h2, h3⟩ := h
  have hlen : (s.groups request).length > 0 := by
    rcases Classical.em ((s.groups request).length > 0) with h | h
    · exact h
    · exact absurd h3 (no_groups_open s request h (extractDomain q.name)).1
  have hq : ¬ s.Open request q := fun h => h.1 h3
  have hspec := handleDenylist_spec s request request.req.question
  unfold resolve
  simp only
  rw [show groupsToCheck s.env s.state.cgb s.state.fqdnIPs s.state.status request = s.groups request
    from rfl, if_pos hlen]
  revert hspec
  cases handleDenylist s.state (s.groups request) request request.req.question with
  | allowed => intro _; rfl
  | blocked o =>
    rintro ⟨pre', p, post', g1, g2, g3, g4, g5⟩
    have hp : ¬ s.Open request p := by
      rintro ⟨_, h5, h6⟩
      rcases g4 with g4 | g4
      · exact h5 g4
      · exact h6 g4
    have := first_unique (h1.symm.trans g1) h2 g2 hq hp
    exact absurd (this ▸ h3) g3
  | no =>
    intro h
    exact absurd (h q (by rw [h1]; simp)) hq

theorem resolve_open {W : Type} (s : Setup E) (next : Resolver W) (request : Request) (w : W)
    (h : ∀ q ∈ request.req.question, s.Open request q) :
    resolve s.env s.state next request w = askNext s.env s.state (s.groups request) next request w := by
  have hspec := handleDenylist_spec s request request.req.question
  unfold resolve
  simp only
  rw [show groupsToCheck s.env s.state.cgb s.state.fqdnIPs s.state.status request = s.groups request
    from rfl]
  split
  · revert hspec
    cases handleDenylist s.state (s.groups request) request request.req.question with
    | allowed =>
      rintro ⟨pre, q, post, g1, _, g3⟩
      exact absurd g3 (h q (by rw [g1]; simp)).1
    | blocked o =>
      rintro ⟨pre, q, post, g1, _, _, g4, _⟩
      have := h q (by rw [g1]; simp)
      rcases g4 with g4 | g4
      · exact absurd g4 this.2.1
      · exact absurd g4 this.2.2
    | no => intro _; rfl
  · rfl

/-- **C15, blocked by content.** If no list says anything about the questions, but the answer of the
next resolver contains a denied and not allowed address or alias, the block answer is given. -/
theorem C15_blocked_by_answer {W : Type} (s : Setup E) (next : Resolver W) (request : Request) (w w1 : W)
    (q : Question) (qs : List Question) (hq : request.req.question = q :: qs)
    (hopen : ∀ q ∈ request.req.question, s.Open request q) (r : Response)
    (hnext : next request w = (.ok r, w1)) (h : s.AnswerBlocked request r.res.answer) :
    ∃ o, resolve s.env s.state next request w = (o, w1) ∧ IsBlockAnswer s request q o := by
  rw [resolve_open s next request w hopen]
  unfold askNext
  rw [hnext]
  have hlen : (s.groups request).length > 0 := by
    rcases Classical.em ((s.groups request).length > 0) with h' | h'
    · exact h'
    · obtain ⟨rr, _, x, _, _, h3⟩ := h
      exact absurd h3 (no_groups_open s request h' x).2.1
  obtain ⟨o, h1, h2⟩ := (checkAnswer_spec s request r.res.answer).1 q qs hq h
  simp only [if_pos hlen, h1]
  exact ⟨o, rfl, h2⟩

/-- **C15, not blocked.** Otherwise the outcome of the next resolver is passed on unchanged. -/
theorem C15_passed {W : Type} (s : Setup E) (next : Resolver W) (request : Request) (w : W)
    (hopen : ∀ q ∈ request.req.question, s.Open request q)
    (h : ∀ r, (next request w).1 = .ok r → ¬ s.AnswerBlocked request r.res.answer) :
    resolve s.env s.state next request w = next request w := by
  rw [resolve_open s next request w hopen]
  unfold askNext
  generalize next request w = x at h
  obtain ⟨o, w1⟩ := x
  cases o with
  | ok r =>
    simp only
    rw [(checkAnswer_spec s request r.res.answer).2 (h r rfl)]
    simp
  | _ => rfl

/-- The three cases about the questions are exhaustive. -/
theorem C15_cases (s : Setup E) (request : Request) :
    (∃ q, s.NameBlocked request q) ∨ s.NameAllowed request ∨
      ∀ q ∈ request.req.question, s.Open request q := by
  have hspec := handleDenylist_spec s request request.req.question
  revert hspec
  cases handleDenylist s.state (s.groups request) request request.req.question with
  | allowed => rintro ⟨pre, q, post, h⟩; exact .inr (.inl ⟨pre, q, post, h⟩)
  | blocked o => rintro ⟨pre, q, post, h1, h2, h3, h4, _⟩; exact .inl ⟨q, pre, post, h1, h2, h3, h4⟩
  | no => intro h; exact .inr (.inr h)

/-! ### C16 -/

/-- **C16.** For a message with one question whose name is blocked, nothing behind the blocker is
consulted: the outcome is the same whatever is behind, and the world is unchanged. Missing: messages
with several questions, see `C16_second_question_leaks`. -/
theorem C16_blocked_not_asked_partial {W : Type} (s : Setup E) (next next' : Resolver W)
    (request : Request) (w : W) (q : Question) (hq : request.req.question = [q])
    (h1 : ¬ s.Allowed request (extractDomain q.name))
    (h2 : s.OnlyAllowed request ∨ s.Denied request (extractDomain q.name)) :
    resolve s.env s.state next request w = resolve s.env s.state next' request w ∧
    (resolve s.env s.state next request w).2 = w := by
  have hb : s.NameBlocked request q := ⟨[], [], by rw [hq]; rfl, by simp, h1, h2⟩
  have hlen : (s.groups request).length > 0 := by
    rcases Classical.em ((s.groups request).length > 0) with h | h
    · exact h
    · have := no_groups_open s request h (extractDomain q.name)
      rcases h2 with h2 | h2
      · exact absurd h2 this.2.2
      · exact absurd h2 this.2.1
  obtain ⟨o, ho, _⟩ := C15_blocked_by_name s next request w q hb
  refine ⟨?_, by rw [ho]⟩
  obtain ⟨o', ho', _⟩ := C15_blocked_by_name s next' request w q hb
  have hspec := handleDenylist_spec s request request.req.question
  revert hspec
  unfold resolve
  simp only
  rw [show groupsToCheck s.env s.state.cgb s.state.fqdnIPs s.state.status request = s.groups request
    from rfl, if_pos hlen, if_pos hlen]
  cases hd : handleDenylist s.state (s.groups request) request request.req.question with
  | allowed =>
    rintro ⟨pre, p, post, g1, _, g3⟩
    rw [hq] at g1
    cases pre with
    | nil => cases g1; exact absurd g3 h1
    | cons a pre => simp at g1
  | blocked o => intro _; rfl
  | no =>
    intro h
    have := h q (by rw [hq]; simp)
    rcases h2 with h2 | h2
    · exact absurd h2 this.2.1
    · exact absurd h2 this.2.2

/-! ### Concrete cases -/

/-- Default group with a denylist `/ads/` and an allowlist `/good/`; prefix "engine". -/
def demoSetup : Setup prefixEngine where
  env := plainEnv
  cfg := { denyGroups := [str! "g"], allowGroups := [(str! "g", 1)],
           clientGroupsBlock := [(str! "default", [str! "g"])] }
  handler := .zeroIP 60
  denyHist := [(str! "g", [str! "/ads/"])]
  allowHist := [(str! "g", [str! "/good/"])]
  deny := { regex := [(str! "g", [str! "ads"])] }
  allow := { regex := [(str! "g", [str! "good"])] }
  hdeny := rfl
  hallow := rfl

/-- The next resolver: counts how often it is called and answers with an alias. -/
def countingNext (target : Str) : Resolver Nat := fun req n =>
  (.ok { res := { ({} : Msg).setReply req.req with
      answer := [{ name := str! "x.", rtype := 5, ttl := 60, data := .cname target }] } }, n + 1)

/-- A request with questions of type A. -/
def askFor (names : List Str) : Request := { req := { question := names.map (fun n => { name := n, qtype := 1 }) } }

/-- Response type and number of calls of the next resolver. -/
def verdict (x : Outcome × Nat) : Option RType × Nat :=
  (match x.1 with | .ok r => some r.rtype | _ => none, x.2)

-- blocked by name, allowed by name, blocked by alias, passed
example :
    verdict (resolve plainEnv demoSetup.state (countingNext (str! "t.")) (askFor [str! "ads.com."]) 0)
      = (some .blocked, 0) ∧
    verdict (resolve plainEnv demoSetup.state (countingNext (str! "ads.com.")) (askFor [str! "good.com."]) 0)
      = (some .resolved, 1) ∧
    verdict (resolve plainEnv demoSetup.state (countingNext (str! "ads.com.")) (askFor [str! "x.com."]) 0)
      = (some .blocked, 1) ∧
    verdict (resolve plainEnv demoSetup.state (countingNext (str! "t.")) (askFor [str! "x.com."]) 0)
      = (some .resolved, 1) := by
  decide

/-- **C16 is false for messages with several questions.** A message that asks for an allowlisted name
first and a denylisted name second is passed on to the upstream. -/
theorem C16_second_question_leaks :
    verdict (resolve plainEnv demoSetup.state (countingNext (str! "t."))
      (askFor [str! "good.com.", str! "ads.com."]) 0) = (some .resolved, 1) ∧
    verdict (resolve plainEnv demoSetup.state (countingNext (str! "t."))
      (askFor [str! "ads.com."]) 0) = (some .blocked, 0) := by
  decide

/-- The hypotheses of the C15 theorems are met by the demo set-up. -/
example : demoSetup.NameBlocked (askFor [str! "ads.com."]) ⟨str! "ads.com.", 1, 1⟩ := by
  have hact : demoSetup.Act (askFor [str! "ads.com."]) (str! "g") :=
    (demoSetup.mem_groups _ _).1 (by decide)
  refine ⟨[], [], rfl, by simp, ?_, .inr ⟨str! "g", hact, str! "/ads/", by decide,
    .inl ⟨str! "ads", str! "ads", rfl, rfl, by decide⟩⟩⟩
  rw [← demoSetup.allow_iff]
  decide

end Verif.Props
