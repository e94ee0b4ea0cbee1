/-
C128: blocking while lists are refreshed and groups are disabled or enabled.
-/
import Verif.Model.Live
import Verif.Props.ListRefresh
import Verif.Props.Blocking

namespace Verif.Props
open Verif.Dns Verif.Spec Verif.StringCache Verif.Trie Verif.Blocking Verif.Live

variable {E : RegexEngine}

/-! ### What the claim is about -/

/-- A query begins, in a set-up as in C15; `later` is what changes while it is handled. -/
def amid (s : Setup E) (later : List (List Change)) : Live E := ⟨⟨s.deny, s.allow, s.status⟩, later⟩

/-- A version of a group's list that is in use at some time of the query: the one in use as it begins, or one that comes into use, at least
in part. -/
def Version (s : Setup E) (later : List (List Change)) (allow : Bool) (g : Str) (es : List Str) : Prop :=
  es = currentList g (if allow then s.allowHist else s.denyHist) ∨ ∃ kind, Change.replace allow kind g es ∈ later.flatten

/-- A status at some time of the query. -/
def StatusThen (s : Setup E) (later : List (List Change)) (st : Status) : Prop := st = s.status ∨ Change.status st ∈ later.flatten

/-- The group is one of the client's, disabled or not. -/
def OfClient (s : Setup E) (request : Request) (g : Str) : Prop := Active s.env s.cfg s.fqdnIPs [] request g

/-! ### Lists -/

/-- What an entry of one kind matches. -/
def KindMatches (E : RegexEngine) (kind : Live.Kind) (e x : Str) : Prop :=
  match kind with
  | .regex => RegexEntryMatches E e x
  | .wildcard => ¬ IsRegexEntry e ∧ '*' ∈ e ∧ WildcardEntryMatches e x
  | .string => ¬ IsRegexEntry e ∧ '*' ∉ e ∧ PlainEntryMatches e x

theorem matches_kind (e x : Str) : EntryMatches E e x ↔ ∃ kind, KindMatches E kind e x := by
  constructor
  · rintro (h | h | h)
    · exact ⟨.regex, h⟩
    · exact ⟨.wildcard, h⟩
    · exact ⟨.string, h⟩
  · rintro ⟨kind, h⟩
    cases kind with
    | regex => exact .inl h
    | wildcard => exact .inr (.inl h)
    | string => exact .inr (.inr h)

theorem has_replace (c : Caches E) (kind : Live.Kind) (g : Str) {es : List Str} {f : Factory E} (hf : Factory.addAll E {} es = some f)
    (kind' : Live.Kind) (g' x : Str) :
    has (Live.replace c kind g f) kind' g' x = true ↔
      if kind = kind' ∧ g = g' then ∃ e ∈ es, KindMatches E kind e x else has c kind' g' x = true := by
  have h : CInv f es := by simpa using CInv.addAll (E := E) CInv.init hf
  have h1 : foundContains (regexContains E) x
      (if f.regex = [] then none else some f.regex) = true ↔ ∃ e ∈ es, RegexEntryMatches E e x := by
    rw [← h.regex]
    by_cases hf : f.regex = []
    · rw [if_pos hf, hf]; simp [regexContains, foundContains]
    · rw [if_neg hf]; rfl
  have h2 : foundContains WildcardFactory.contains x f.wildcard.create = true ↔
        ∃ e ∈ es, ¬ IsRegexEntry e ∧ '*' ∈ e ∧ WildcardEntryMatches e x := by
    obtain ⟨keys, k1, k2, k3, k4⟩ := h.wkeys
    rw [← k4]
    unfold WildcardFactory.create
    by_cases hc : f.wildcard.cnt = 0
    · rw [if_pos hc]
      have : keys = [] := List.length_eq_zero_iff.1 (by omega)
      simp [this, foundContains]
    · rw [if_neg hc]
      simp only [foundContains, WildcardFactory.contains, k1]
      rw [hasParentOf_build keys k3]
      simp only [rl, List.reverse_prefix, IsWithin]
  have h3 : foundContains StringMap.contains x f.string.create = true ↔
        ∃ e ∈ es, ¬ IsRegexEntry e ∧ '*' ∉ e ∧ PlainEntryMatches e x := by
    obtain ⟨ps, p1, p2⟩ := h.string
    rw [contains_create p1]
    unfold Added PlainEntryMatches
    constructor
    · rintro ⟨_, e, q1, q2, q3⟩
      have := (p2 e).1 q1
      exact ⟨e, this.1, this.2.1, this.2.2, q2, q3⟩
    · rintro ⟨e, q1, q2, q3, q4, q5⟩
      refine ⟨?_, e, (p2 e).2 ⟨q1, q2, q3⟩, q4, q5⟩
      rintro rfl
      apply q4
      have := congrArg List.length q5
      simpa using this
  by_cases hk : kind = kind' ∧ g = g'
  · rw [if_pos hk]
    obtain ⟨rfl, rfl⟩ := hk
    cases kind with
    | regex => simp only [has, Live.replace, get_setOrDelete, if_true]; exact h1
    | wildcard => simp only [has, Live.replace, get_setOrDelete, if_true]; exact h2
    | string => simp only [has, Live.replace, get_setOrDelete, if_true]; exact h3
  · rw [if_neg hk]
    cases kind <;> cases kind' <;> simp only [has, Live.replace, get_setOrDelete] <;>
      first
        | rfl
        | (rw [if_neg (fun h => hk ⟨rfl, h⟩)])

theorem finish_replace (c : Caches E) (g : Str) (f : Factory E) :
    c.finish E g f = Live.replace (Live.replace (Live.replace c .regex g f) .wildcard g f) .string g f := rfl

theorem has_loaded (hist : List (Str × List Str)) (c c' : Caches E) (h : afterRefreshes E hist c = some c') (kind : Live.Kind) (g x : Str) :
    has c' kind g x = true ↔
      if g ∈ hist.map Prod.fst then ∃ e ∈ currentList g hist, KindMatches E kind e x else has c kind g x = true := by
  induction hist generalizing c with
  | nil => cases h; simp
  | cons y rest ih =>
    obtain ⟨g', es⟩ := y
    unfold afterRefreshes at h
    split at h
    · cases h
    · next f hf =>
      rw [ih _ h]
      by_cases hg : g ∈ rest.map Prod.fst
      · simp only [hg, if_true, currentList, List.map_cons, List.mem_cons, or_true]
      · simp only [hg, if_false, currentList, List.map_cons, List.mem_cons, or_false]
        rw [finish_replace]
        by_cases hgg : g' = g
        · subst hgg
          simp only [if_true]
          cases kind <;> simp [has_replace _ _ _ hf]
        · rw [if_neg (fun h => hgg h.symm)]
          cases kind <;> simp [has_replace _ _ _ hf, hgg]

theorem has_version (hist : List (Str × List Str)) (c : Caches E) (h : afterRefreshes E hist {} = some c) (kind : Live.Kind) (g x : Str) :
    has c kind g x = true ↔ ∃ e ∈ currentList g hist, KindMatches E kind e x := by
  rw [has_loaded hist {} c h]
  by_cases hg : g ∈ hist.map Prod.fst
  · rw [if_pos hg]
  · rw [if_neg hg]
    have h3 : currentList g hist = [] := by
      clear h
      induction hist with
      | nil => rfl
      | cons x rest ih =>
        obtain ⟨g', es⟩ := x
        simp only [List.map_cons, List.mem_cons, not_or] at hg
        simp only [currentList]
        rw [if_neg hg.2, if_neg (fun h => hg.1 h.symm)]
    rw [h3]
    cases kind <;> simp [has, foundContains]

/-! ### What stays true -/

/-- It holds now and whatever comes. -/
def Stays (P : Shared E → Prop) (l : Live E) : Prop := P l.now ∧ ∀ c ∈ l.later.flatten, ∀ s, P s → P (s.after c)

theorem stays_look {P : Shared E → Prop} {l : Live E} (h : Stays P l) : P l.look.1 ∧ Stays P l.look.2 := by
  obtain ⟨now, later⟩ := l
  cases later with
  | nil => exact ⟨h.1, h⟩
  | cons cs rest =>
    have : P (cs.foldl Shared.after now) := by
      have h2 : ∀ c ∈ cs, ∀ s, P s → P (s.after c) := fun c hc => h.2 c (by simp [hc])
      have h1 : P now := h.1
      clear h
      induction cs generalizing now with
      | nil => exact h1
      | cons c cs ih => exact ih _ (fun c hc => h2 c (List.mem_cons_of_mem _ hc)) (h2 c List.mem_cons_self _ h1)
    exact ⟨this, this, fun c hc => h.2 c (by
      show c ∈ (cs :: rest).flatten
      rw [List.flatten_cons]; exact List.mem_append_right _ hc)⟩

theorem stays_lookKind {P : Shared E → Prop} (allow : Bool) (kind : Live.Kind) (x : Str) (groups : List Str) : ∀ l : Live E, Stays P l →
    Stays P (lookKind allow kind x groups l).2 := by
  induction groups with
  | nil => exact fun l h => h
  | cons g gs ih => exact fun l h => ih _ (stays_look h).2

theorem stays_looked {P : Shared E → Prop} (groups : List Str) (allow : Bool) (x : Str) (l : Live E) (h : Stays P l) : Stays P (look groups allow x l).2 :=
  stays_lookKind _ _ _ _ _ (stays_lookKind _ _ _ _ _ (stays_lookKind _ _ _ _ _ h))

theorem mem_look (groups : List Str) (allow : Bool) (x : Str) (l : Live E) (g : Str) :
    g ∈ (look groups allow x l).1 ↔
      g ∈ (lookKind allow .regex x groups l).1 ∨ g ∈ (lookKind allow .wildcard x groups (lookKind allow .regex x groups l).2).1 ∨
        g ∈ (lookKind allow .string x groups (lookKind allow .wildcard x groups (lookKind allow .regex x groups l).2).2).1 := by
  unfold look
  simp only
  rw [(foldl_insertSorted _ [] List.Pairwise.nil).2]
  simp only [List.mem_append, List.not_mem_nil, or_false, or_assoc]

theorem lookKind_found {allow : Bool} {kind : Live.Kind} {x g : Str} (groups : List Str) : ∀ l : Live E,
    Stays (fun s => has (s.lists allow) kind g x = true) l → g ∈ groups → g ∈ (lookKind allow kind x groups l).1 := by
  induction groups with
  | nil => exact fun l _ h => nomatch h
  | cons g' gs ih =>
    intro l h hg
    have h1 := stays_look h
    unfold lookKind
    simp only
    rcases List.mem_cons.1 hg with rfl | hg
    · rw [if_pos h1.1]; exact List.mem_cons_self
    · have := ih _ h1.2 hg
      split
      · exact List.mem_cons_of_mem _ this
      · exact this

theorem lookKind_none {allow : Bool} {kind : Live.Kind} {x : Str} {G : Str → Prop} (groups : List Str) (hG : ∀ g ∈ groups, G g) : ∀ l : Live E,
    Stays (fun s => ∀ kind g, G g → has (s.lists allow) kind g x = false) l → (lookKind allow kind x groups l).1 = [] := by
  induction groups with
  | nil => exact fun l _ => rfl
  | cons g' gs ih =>
    intro l h
    have h1 := stays_look h
    unfold lookKind
    simp only
    rw [if_neg (by rw [h1.1 kind g' (hG g' List.mem_cons_self)]; decide)]
    exact ih (fun g hg => hG g (List.mem_cons_of_mem _ hg)) _ h1.2

theorem look_found {allow : Bool} {kind : Live.Kind} {x g : Str} (groups : List Str) (l : Live E)
    (h : Stays (fun s => has (s.lists allow) kind g x = true) l) (hg : g ∈ groups) : (look groups allow x l).1.length > 0 := by
  refine length_pos_iff_mem.2 ⟨g, (mem_look _ _ _ _ _).2 ?_⟩
  cases kind with
  | regex => exact .inl (lookKind_found groups l h hg)
  | wildcard => exact .inr (.inl (lookKind_found groups _ (stays_lookKind _ _ _ _ _ h) hg))
  | string => exact .inr (.inr (lookKind_found groups _ (stays_lookKind _ _ _ _ _ (stays_lookKind _ _ _ _ _ h)) hg))

theorem look_none {allow : Bool} {x : Str} {G : Str → Prop} (groups : List Str) (hG : ∀ g ∈ groups, G g) (l : Live E)
    (h : Stays (fun s => ∀ kind g, G g → has (s.lists allow) kind g x = false) l) : ¬ (look groups allow x l).1.length > 0 := by
  rw [length_pos_iff_mem]
  rintro ⟨g, hg⟩
  rcases (mem_look _ _ _ _ _).1 hg with hg | hg | hg
  · rw [lookKind_none groups hG l h] at hg; cases hg
  · rw [lookKind_none groups hG _ (stays_lookKind _ _ _ _ _ h)] at hg; cases hg
  · rw [lookKind_none groups hG _ (stays_lookKind _ _ _ _ _ (stays_lookKind _ _ _ _ _ h))] at hg; cases hg

/-- An entry in all versions is found at any time. -/
theorem stays_kept (s : Setup E) (later : List (List Change)) (allow : Bool) (g e : Str) (he : ∀ es, Version s later allow g es → e ∈ es) (kind : Live.Kind)
    (x : Str) (hm : KindMatches E kind e x) : Stays (fun sh => has (sh.lists allow) kind g x = true) (amid s later) := by
  constructor
  · have h0 := he _ (.inl rfl)
    cases allow with
    | true => exact (has_version s.allowHist s.allow s.hallow kind g x).2 ⟨e, h0, hm⟩
    | false => exact (has_version s.denyHist s.deny s.hdeny kind g x).2 ⟨e, h0, hm⟩
  · intro c hc sh hP
    cases c with
    | status st => cases allow <;> exact hP
    | replace allow' kind' g' es =>
      unfold Shared.after
      simp only
      cases hf : Factory.addAll E {} es with
      | none => exact hP
      | some f =>
        simp only
        by_cases ha : allow' = allow
        · subst ha
          have hnew : has (Live.replace (sh.lists allow') kind' g' f) kind g x = true := by
            rw [has_replace _ _ _ hf]
            split
            · rename_i hk
              obtain ⟨rfl, rfl⟩ := hk
              exact ⟨e, he es (.inr ⟨kind', hc⟩), hm⟩
            · exact hP
          cases allow' <;> exact hnew
        · cases allow <;> cases allow' <;> first | exact absurd rfl ha | exact hP

/-- What no version matches is not found at any time. -/
theorem stays_never (s : Setup E) (later : List (List Change)) (allow : Bool) (G : Str → Prop) (x : Str)
    (hno : ∀ g, G g → ∀ es, Version s later allow g es → ∀ e ∈ es, ¬ EntryMatches E e x) :
    Stays (fun sh => ∀ kind g, G g → has (sh.lists allow) kind g x = false) (amid s later) := by
  have hnot : ∀ g, G g → ∀ es, Version s later allow g es → ∀ kind, ¬ ∃ e ∈ es, KindMatches E kind e x := by
    rintro g hg es hes kind ⟨e, h1, h2⟩
    exact hno g hg es hes e h1 ((matches_kind e x).2 ⟨kind, h2⟩)
  constructor
  · intro kind g hg
    rw [Bool.eq_false_iff]
    have h0 := hnot g hg _ (.inl rfl) kind
    cases allow with
    | true => exact fun h => h0 ((has_version s.allowHist s.allow s.hallow kind g x).1 h)
    | false => exact fun h => h0 ((has_version s.denyHist s.deny s.hdeny kind g x).1 h)
  · intro c hc sh hP
    cases c with
    | status st => cases allow <;> exact hP
    | replace allow' kind' g' es =>
      unfold Shared.after
      simp only
      cases hf : Factory.addAll E {} es with
      | none => exact hP
      | some f =>
        simp only
        by_cases ha : allow' = allow
        · subst ha
          have hnew : ∀ kind g, G g → has (Live.replace (sh.lists allow') kind' g' f) kind g x = false := by
            intro kind g hg
            rw [Bool.eq_false_iff]
            intro h
            rw [has_replace _ _ _ hf] at h
            split at h
            · rename_i hk
              obtain ⟨rfl, rfl⟩ := hk
              exact hnot _ hg es (.inr ⟨kind', hc⟩) _ h
            · rw [hP kind g hg] at h; cases h
          cases allow' <;> exact hnew
        · cases allow <;> cases allow' <;> first | exact absurd rfl ha | exact hP

/-- The groups are determined by a status of some time. -/
theorem status_then (s : Setup E) (later : List (List Change)) : StatusThen s later (amid s later).look.1.status := by
  have : Stays (fun sh => StatusThen s later sh.status) (amid s later) := by
    refine ⟨.inl rfl, fun c hc sh hP => ?_⟩
    cases c with
    | status st => exact .inr hc
    | replace allow kind g es =>
      unfold Shared.after
      simp only
      split
      · exact hP
      · split <;> exact hP
  exact (stays_look this).1

/-- The groups checked. -/
def checked (s : Setup E) (later : List (List Change)) (request : Request) : List Str :=
  groupsToCheck s.env s.state.cgb s.state.fqdnIPs (amid s later).look.1.status request

theorem mem_checked (s : Setup E) (later : List (List Change)) (request : Request) (g : Str) :
    g ∈ checked s later request ↔ Active s.env s.cfg s.fqdnIPs (amid s later).look.1.status.disabledGroups request g :=
  C17_groups_of_client s.env s.cfg s.fqdnIPs _ request g

theorem checked_ofClient (s : Setup E) (later : List (List Change)) (request : Request) : ∀ g ∈ checked s later request, OfClient s request g := by
  intro g hg
  have := (mem_checked s later request g).1 hg
  exact ⟨(fun h => nomatch h), this.2⟩

theorem allowOnly_iff (s : Setup E) (groups : List Str) : hasAllowlistOnlyAllowed s.state groups = true ↔ ∃ g ∈ groups, AllowOnly s.cfg g := by
  unfold hasAllowlistOnlyAllowed
  rw [List.any_eq_true]
  constructor
  · rintro ⟨g, h1, h2⟩; exact ⟨g, h1, (mem_allowlistOnlyGroups _ _).1 (List.contains_iff_mem.1 h2)⟩
  · rintro ⟨g, h1, h2⟩; exact ⟨g, h1, List.contains_iff_mem.2 ((mem_allowlistOnlyGroups _ _).2 h2)⟩

theorem resolve_eq {W : Type} (s : Setup E) (later : List (List Change)) (next : Resolver W) (request : Request) (w : W) :
    Live.resolve s.env s.state next request w (amid s later) =
      if (checked s later request).length > 0 then
        match Live.handleDenylist s.state (checked s later request) request request.req.question (amid s later).look.2 with
        | (.allowed, l) => ((next request w).1, (next request w).2, l)
        | (.blocked o, l) => (o, w, l)
        | (.no, l) => Live.askNext s.env s.state (checked s later request) next request w l
      else Live.askNext s.env s.state (checked s later request) next request w (amid s later).look.2 := rfl

/-- **C128, entries that stay.** While a list is refreshed, an entry that is in the old and in all new versions of a denylist blocks: the first
question of a message is blocked, and nothing behind is asked, if it is matched by such an entry of one of the client's groups that is not
disabled at any time of the query, and by no entry of any version of the client's allowlists. -/
theorem C128_kept_blocks {W : Type} (s : Setup E) (later : List (List Change)) (next : Resolver W) (request : Request) (w : W) (q : Question)
    (qs : List Question) (hq : request.req.question = q :: qs) (g : Str)
    (hg : ∀ st, StatusThen s later st → Active s.env s.cfg s.fqdnIPs st.disabledGroups request g) (e : Str)
    (he : ∀ es, Version s later false g es → e ∈ es) (hm : EntryMatches E e (extractDomain q.name))
    (hno : ∀ g, OfClient s request g → ∀ es, Version s later true g es → ∀ e ∈ es, ¬ EntryMatches E e (extractDomain q.name)) :
    ∃ o l, Live.resolve s.env s.state next request w (amid s later) = (o, w, l) ∧ IsBlockAnswer s request q o := by
  obtain ⟨kind, hm⟩ := (matches_kind _ _).1 hm
  have hin : g ∈ checked s later request := (mem_checked s later request g).2 (hg _ (status_then s later))
  have h1 := look_none (checked s later request) (checked_ofClient s later request) _ (stays_look (stays_never s later true (OfClient s request) _ hno)).2
  have h2 := look_found (checked s later request) _ (stays_looked (checked s later request) true (extractDomain q.name) _
    (stays_look (stays_kept s later false g e he kind _ hm)).2) hin
  rw [resolve_eq, if_pos (length_pos_iff_mem.2 ⟨g, hin⟩), hq]
  unfold Live.handleDenylist
  simp only
  rw [if_neg h1]
  by_cases ho : hasAllowlistOnlyAllowed s.state (checked s later request) = true
  · rw [if_pos ho]
    exact ⟨_, _, rfl, _, rfl⟩
  · rw [if_neg ho, if_pos h2]
    exact ⟨_, _, rfl, _, rfl⟩

/-- **C128, allowlists.** In the same way, an entry in all versions of an allowlist lets the first question pass at any time. -/
theorem C128_kept_allows {W : Type} (s : Setup E) (later : List (List Change)) (next : Resolver W) (request : Request) (w : W) (q : Question)
    (qs : List Question) (hq : request.req.question = q :: qs) (g : Str)
    (hg : ∀ st, StatusThen s later st → Active s.env s.cfg s.fqdnIPs st.disabledGroups request g) (e : Str)
    (he : ∀ es, Version s later true g es → e ∈ es) (hm : EntryMatches E e (extractDomain q.name)) :
    ∃ l, Live.resolve s.env s.state next request w (amid s later) = ((next request w).1, (next request w).2, l) := by
  obtain ⟨kind, hm⟩ := (matches_kind _ _).1 hm
  have hin : g ∈ checked s later request := (mem_checked s later request g).2 (hg _ (status_then s later))
  have h1 := look_found (checked s later request) _ (stays_look (stays_kept s later true g e he kind _ hm)).2 hin
  rw [resolve_eq, if_pos (length_pos_iff_mem.2 ⟨g, hin⟩), hq]
  unfold Live.handleDenylist
  simp only
  rw [if_pos h1]
  exact ⟨_, rfl⟩

theorem handle_cases (s : Setup E) (groups : List Str) (request : Request) (qs : List Question) : ∀ l : Live E,
    (Live.handleDenylist s.state groups request qs l).1 = .allowed ∨
    (∃ o, (Live.handleDenylist s.state groups request qs l).1 = .blocked o ∧ ∃ q ∈ qs, IsBlockAnswer s request q o) ∨
    (Live.handleDenylist s.state groups request qs l).1 = .no := by
  induction qs with
  | nil => exact fun l => .inr (.inr rfl)
  | cons q qs ih =>
    intro l
    unfold Live.handleDenylist
    simp only
    split
    · exact .inl rfl
    · split
      · exact .inr (.inl ⟨_, rfl, q, List.mem_cons_self, _, rfl⟩)
      · split
        · exact .inr (.inl ⟨_, rfl, q, List.mem_cons_self, _, rfl⟩)
        · rcases ih (look groups false (extractDomain q.name) (look groups true (extractDomain q.name) l).2).2 with h | ⟨o, h1, p, h2, h3⟩ | h
          · exact .inl h
          · exact .inr (.inl ⟨o, h1, p, List.mem_cons_of_mem _ h2, h3⟩)
          · exact .inr (.inr h)

theorem check_cases (s : Setup E) (groups : List Str) (request : Request) {q : Question} {qs : List Question} (hq : request.req.question = q :: qs)
    (rrs : List RR) : ∀ l : Live E, (Live.checkAnswer s.env s.state groups request rrs l).1 = none ∨
      ∃ o, (Live.checkAnswer s.env s.state groups request rrs l).1 = some o ∧ IsBlockAnswer s request q o := by
  induction rrs with
  | nil => exact fun l => .inl rfl
  | cons rr rrs ih =>
    intro l
    unfold Live.checkAnswer
    simp only
    split
    · split
      · exact ih _
      · split
        · rw [hq]
          exact .inr ⟨_, rfl, _, rfl⟩
        · exact ih _
    · exact ih _

theorem stays_handle {P : Shared E → Prop} (s : Setup E) (groups : List Str) (request : Request) (qs : List Question) : ∀ l : Live E, Stays P l →
    Stays P (Live.handleDenylist s.state groups request qs l).2 := by
  induction qs with
  | nil => exact fun l h => h
  | cons q qs ih =>
    intro l h
    have h1 := stays_looked groups true (extractDomain q.name) l h
    have h2 := stays_looked groups false (extractDomain q.name) _ h1
    unfold Live.handleDenylist
    simp only
    split
    · exact h1
    · split
      · exact h1
      · split
        · exact h2
        · exact ih _ h2

theorem handle_open (s : Setup E) (groups : List Str) {G : Str → Prop} (hG : ∀ g ∈ groups, G g) (request : Request)
    (ho : ¬ hasAllowlistOnlyAllowed s.state groups = true) (qs : List Question) : ∀ l : Live E,
    (∀ q ∈ qs, Stays (fun sh => ∀ kind g, G g → has (sh.lists false) kind g (extractDomain q.name) = false) l) →
    (Live.handleDenylist s.state groups request qs l).1 = .allowed ∨ (Live.handleDenylist s.state groups request qs l).1 = .no := by
  induction qs with
  | nil => exact fun l _ => .inr rfl
  | cons q qs ih =>
    intro l h
    unfold Live.handleDenylist
    simp only
    split
    · exact .inl rfl
    · rw [if_neg (look_none groups hG _ (stays_looked _ _ _ _ (h q List.mem_cons_self)))]
      exact ih _ (fun p hp => stays_looked _ _ _ _ (stays_looked _ _ _ _ (h p (List.mem_cons_of_mem _ hp))))

theorem handle_closed (s : Setup E) (groups : List Str) {G : Str → Prop} (hG : ∀ g ∈ groups, G g) (request : Request) (qs : List Question) : ∀ l : Live E,
    (∀ q ∈ qs, Stays (fun sh => ∀ kind g, G g → has (sh.lists true) kind g (extractDomain q.name) = false) l) →
    (Live.handleDenylist s.state groups request qs l).1 ≠ .allowed := by
  induction qs with
  | nil => exact fun l _ h => nomatch h
  | cons q qs ih =>
    intro l h
    unfold Live.handleDenylist
    simp only
    rw [if_neg (look_none groups hG _ (h q List.mem_cons_self))]
    split
    · exact fun h => nomatch h
    · split
      · exact fun h => nomatch h
      · exact ih _ (fun p hp => stays_looked _ _ _ _ (stays_looked _ _ _ _ (h p (List.mem_cons_of_mem _ hp))))

theorem check_open (s : Setup E) (groups : List Str) {G : Str → Prop} (hG : ∀ g ∈ groups, G g) (request : Request) (rrs : List RR) : ∀ l : Live E,
    (∀ rr ∈ rrs, ∀ x, Checked s.env rr x → Stays (fun sh => ∀ kind g, G g → has (sh.lists false) kind g x = false) l) →
    (Live.checkAnswer s.env s.state groups request rrs l).1 = none := by
  induction rrs with
  | nil => exact fun l _ => rfl
  | cons rr rrs ih =>
    intro l h
    unfold Live.checkAnswer
    simp only
    split
    · rename_i hlen
      have hx : Checked s.env rr (extractEntry s.env rr).1 := (checked_iff s.env rr _).2 ⟨rfl, List.length_pos_iff.1 hlen⟩
      split
      · exact ih _ (fun r hr x hc => stays_looked _ _ _ _ (h r (List.mem_cons_of_mem _ hr) x hc))
      · rw [if_neg (look_none groups hG _ (stays_looked _ _ _ _ (h rr List.mem_cons_self _ hx)))]
        exact ih _ (fun r hr x hc => stays_looked _ _ _ _ (stays_looked _ _ _ _ (h r (List.mem_cons_of_mem _ hr) x hc)))
    · exact ih _ (fun r hr x hc => h r (List.mem_cons_of_mem _ hr) x hc)

theorem check_found (s : Setup E) (groups : List Str) {G : Str → Prop} (hG : ∀ g ∈ groups, G g) (request : Request) {g : Str} (hg : g ∈ groups)
    {kind : Live.Kind} {x : Str} (rrs : List RR) : ∀ l : Live E, (∃ rr ∈ rrs, Checked s.env rr x) →
    Stays (fun sh => has (sh.lists false) kind g x = true) l → Stays (fun sh => ∀ kind g, G g → has (sh.lists true) kind g x = false) l →
    (Live.checkAnswer s.env s.state groups request rrs l).1 ≠ none := by
  induction rrs with
  | nil => rintro l ⟨rr, h, _⟩; cases h
  | cons rr rrs ih =>
    rintro l ⟨rr', hr, hc⟩ hd ha
    unfold Live.checkAnswer
    simp only
    by_cases hrr : (extractEntry s.env rr).1 = x
    · have hx : x ≠ [] := hc.1
      rw [hrr, if_pos (List.length_pos_iff.2 hx), if_neg (look_none groups hG _ ha), if_pos (look_found groups _ (stays_looked _ _ _ _ hd) hg)]
      split
      · exact fun h => nomatch h
      · exact fun h => nomatch h
    · have hin : ∃ rr ∈ rrs, Checked s.env rr x := by
        rcases List.mem_cons.1 hr with rfl | hr
        · exact absurd ((checked_iff s.env _ x).1 hc).1.symm hrr
        · exact ⟨rr', hr, hc⟩
      split
      · split
        · exact ih _ hin (stays_looked _ _ _ _ hd) (stays_looked _ _ _ _ ha)
        · split
          · split
            · exact fun h => nomatch h
            · exact fun h => nomatch h
          · exact ih _ hin (stays_looked _ _ _ _ (stays_looked _ _ _ _ hd)) (stays_looked _ _ _ _ (stays_looked _ _ _ _ ha))
      · exact ih _ hin hd ha

/-- **C128, either or.** Whatever changes meanwhile, a query is blocked, with the block answer for one of its questions, or it gets exactly
what is behind. -/
theorem C128_either {W : Type} (s : Setup E) (later : List (List Change)) (next : Resolver W) (request : Request) (w : W)
    (hq : request.req.question ≠ []) :
    (∃ l, Live.resolve s.env s.state next request w (amid s later) = ((next request w).1, (next request w).2, l)) ∨
    ∃ o w' l, Live.resolve s.env s.state next request w (amid s later) = (o, w', l) ∧ (w' = w ∨ w' = (next request w).2) ∧
      ∃ q ∈ request.req.question, IsBlockAnswer s request q o := by
  have hask : ∀ l : Live E,
      (∃ l', Live.askNext s.env s.state (checked s later request) next request w l = ((next request w).1, (next request w).2, l')) ∨
      ∃ o w' l', Live.askNext s.env s.state (checked s later request) next request w l = (o, w', l') ∧ (w' = w ∨ w' = (next request w).2) ∧
        ∃ q ∈ request.req.question, IsBlockAnswer s request q o := by
    intro l
    unfold Live.askNext
    generalize next request w = y
    obtain ⟨o, w1⟩ := y
    cases o with
    | ok r =>
      simp only
      split
      · obtain ⟨q, qs, hq⟩ := List.exists_cons_of_ne_nil hq
        have := check_cases s (checked s later request) request hq r.res.answer l
        generalize Live.checkAnswer s.env s.state (checked s later request) request r.res.answer l = z at this
        obtain ⟨o, l'⟩ := z
        rcases this with h | ⟨o', h1, h2⟩
        · simp only at h
          subst h
          exact .inl ⟨l', rfl⟩
        · simp only at h1
          subst h1
          exact .inr ⟨_, _, _, rfl, .inr rfl, q, by rw [hq]; exact List.mem_cons_self, h2⟩
      · exact .inl ⟨l, rfl⟩
    | _ => exact .inl ⟨l, rfl⟩
  rw [resolve_eq]
  split
  · have := handle_cases s (checked s later request) request request.req.question (amid s later).look.2
    generalize Live.handleDenylist s.state (checked s later request) request request.req.question (amid s later).look.2 = z at this
    obtain ⟨h, l⟩ := z
    rcases this with h' | ⟨o, h', h2⟩ | h'
    · simp only at h'; subst h'; exact .inl ⟨l, rfl⟩
    · simp only at h'; subst h'; exact .inr ⟨o, w, l, rfl, .inl rfl, h2⟩
    · simp only at h'; subst h'; exact hask l
  · exact hask _

/-- **C128, names that are never listed.** A query passes, and its answer is passed on, if no version of the client's denylists matches a
name asked for or an address or alias in the answer, and the client has no group with allowlists only. -/
theorem C128_never_listed {W : Type} (s : Setup E) (later : List (List Change)) (next : Resolver W) (request : Request) (w : W)
    (ho : ∀ g, OfClient s request g → ¬ AllowOnly s.cfg g)
    (hno : ∀ x, ((∃ q ∈ request.req.question, x = extractDomain q.name) ∨
        ∃ r rr, (next request w).1 = .ok r ∧ rr ∈ r.res.answer ∧ Checked s.env rr x) →
      ∀ g, OfClient s request g → ∀ es, Version s later false g es → ∀ e ∈ es, ¬ EntryMatches E e x) :
    ∃ l, Live.resolve s.env s.state next request w (amid s later) = ((next request w).1, (next request w).2, l) := by
  have hst := fun x h => (stays_look (stays_never s later false (OfClient s request) x (hno x h))).2
  have honly : ¬ hasAllowlistOnlyAllowed s.state (checked s later request) = true := by
    rw [allowOnly_iff]
    rintro ⟨g, h1, h2⟩
    exact ho g (checked_ofClient s later request g h1) h2
  have hask : ∀ l : Live E, (∀ x, ((∃ q ∈ request.req.question, x = extractDomain q.name) ∨
        ∃ r rr, (next request w).1 = .ok r ∧ rr ∈ r.res.answer ∧ Checked s.env rr x) →
        Stays (fun sh => ∀ kind g, OfClient s request g → has (sh.lists false) kind g x = false) l) →
      ∃ l', Live.askNext s.env s.state (checked s later request) next request w l = ((next request w).1, (next request w).2, l') := by
    intro l h
    unfold Live.askNext
    generalize next request w = y at h
    obtain ⟨o, w1⟩ := y
    cases o with
    | ok r =>
      simp only
      split
      · have := check_open s (checked s later request) (checked_ofClient s later request) request r.res.answer l
          (fun rr hrr x hx => h x (.inr ⟨r, rr, rfl, hrr, hx⟩))
        generalize Live.checkAnswer s.env s.state (checked s later request) request r.res.answer l = z at this
        obtain ⟨o, l'⟩ := z
        simp only at this
        subst this
        exact ⟨l', rfl⟩
      · exact ⟨l, rfl⟩
    | _ => exact ⟨l, rfl⟩
  rw [resolve_eq]
  split
  · have h1 := handle_open s (checked s later request) (checked_ofClient s later request) request honly request.req.question (amid s later).look.2
      (fun q hq => hst _ (.inl ⟨q, hq, rfl⟩))
    have h2 := fun x h => stays_handle s (checked s later request) request request.req.question _ (hst x h)
    generalize Live.handleDenylist s.state (checked s later request) request request.req.question (amid s later).look.2 = z at h1 h2
    obtain ⟨h, l⟩ := z
    rcases h1 with h' | h'
    · simp only at h'; subst h'; exact ⟨l, rfl⟩
    · simp only at h'; subst h'; exact hask l h2
  · exact hask _ hst

/-- **C128, answers.** An entry that stays on a denylist also blocks answers with the address or alias it matches. -/
theorem C128_kept_answer {W : Type} (s : Setup E) (later : List (List Change)) (next : Resolver W) (request : Request) (w : W)
    (hq : request.req.question ≠ []) (g : Str)
    (hg : ∀ st, StatusThen s later st → Active s.env s.cfg s.fqdnIPs st.disabledGroups request g) (e : Str)
    (he : ∀ es, Version s later false g es → e ∈ es) (x : Str) (hm : EntryMatches E e x) (r : Response) (hr : (next request w).1 = .ok r)
    (hx : ∃ rr ∈ r.res.answer, Checked s.env rr x)
    (hno : ∀ y, (y = x ∨ ∃ q ∈ request.req.question, y = extractDomain q.name) →
      ∀ g, OfClient s request g → ∀ es, Version s later true g es → ∀ e ∈ es, ¬ EntryMatches E e y) :
    ∃ o w' l, Live.resolve s.env s.state next request w (amid s later) = (o, w', l) ∧ ∃ q ∈ request.req.question, IsBlockAnswer s request q o := by
  obtain ⟨kind, hm⟩ := (matches_kind _ _).1 hm
  have hin : g ∈ checked s later request := (mem_checked s later request g).2 (hg _ (status_then s later))
  have hlen : (checked s later request).length > 0 := length_pos_iff_mem.2 ⟨g, hin⟩
  have hkept := (stays_look (stays_kept s later false g e he kind _ hm)).2
  have hst := fun x h => (stays_look (stays_never s later true (OfClient s request) x (hno x h))).2
  rw [resolve_eq, if_pos hlen]
  have h1 := handle_cases s (checked s later request) request request.req.question (amid s later).look.2
  have h2 := handle_closed s (checked s later request) (checked_ofClient s later request) request request.req.question (amid s later).look.2
      (fun q hq => hst _ (.inr ⟨q, hq, rfl⟩))
  have h3 := stays_handle s (checked s later request) request request.req.question _ hkept
  have h4 := stays_handle s (checked s later request) request request.req.question _ (hst x (.inl rfl))
  generalize Live.handleDenylist s.state (checked s later request) request request.req.question (amid s later).look.2 = z at h1 h2 h3 h4
  obtain ⟨h, l⟩ := z
  rcases h1 with h' | ⟨o, h', h5⟩ | h'
  · exact absurd h' h2
  · simp only at h'; subst h'; exact ⟨o, w, l, rfl, h5⟩
  · simp only at h'; subst h'
    simp only
    unfold Live.askNext
    generalize next request w = y at hr
    obtain ⟨o, w1⟩ := y
    simp only at hr
    subst hr
    simp only
    rw [if_pos hlen]
    obtain ⟨q, qs, hq⟩ := List.exists_cons_of_ne_nil hq
    have h5 := check_cases s (checked s later request) request hq r.res.answer l
    have h6 := check_found s (checked s later request) (checked_ofClient s later request) request hin r.res.answer l hx h3 h4
    generalize Live.checkAnswer s.env s.state (checked s later request) request r.res.answer l = z at h5 h6
    obtain ⟨o, l'⟩ := z
    rcases h5 with h | ⟨o', h1, h2⟩
    · exact absurd h h6
    · simp only at h1
      subst h1
      exact ⟨_, _, _, rfl, q, by rw [hq]; exact List.mem_cons_self, h2⟩

/-- **C128, disabled groups.** A client all of whose groups are disabled all the time gets what is behind. -/
theorem C128_disabled {W : Type} (s : Setup E) (later : List (List Change)) (next : Resolver W) (request : Request) (w : W)
    (h : ∀ st, StatusThen s later st → ∀ g, ¬ Active s.env s.cfg s.fqdnIPs st.disabledGroups request g) :
    ∃ l, Live.resolve s.env s.state next request w (amid s later) = ((next request w).1, (next request w).2, l) := by
  have hno : ¬ (checked s later request).length > 0 := by
    rw [length_pos_iff_mem]
    rintro ⟨g, hg⟩
    exact h _ (status_then s later) g ((mem_checked s later request g).1 hg)
  rw [resolve_eq, if_neg hno]
  unfold Live.askNext
  generalize next request w = y
  obtain ⟨o, w1⟩ := y
  cases o with
  | ok r => simp only [if_neg hno]; exact ⟨_, rfl⟩
  | _ => exact ⟨_, rfl⟩

/-! ### Without changes -/

theorem lookKind_now (s : Shared E) (allow : Bool) (kind : Live.Kind) (x : Str) (groups : List Str) :
    lookKind allow kind x groups ⟨s, []⟩ = (groups.filter (fun g => has (s.lists allow) kind g x), ⟨s, []⟩) := by
  induction groups with
  | nil => rfl
  | cons g gs ih =>
    unfold lookKind
    rw [show (⟨s, []⟩ : Live E).look = (s, ⟨s, []⟩) from rfl]
    simp only [ih, List.filter_cons]

theorem look_now (s : Setup E) (allow : Bool) (x : Str) (groups : List Str) (h : groups.length > 0) :
    look groups allow x (amid s []) = («matches» groups (if allow then s.allow else s.deny) x, amid s []) := by
  unfold look amid
  simp only [lookKind_now]
  unfold «matches» Caches.contains
  rw [if_pos h]
  cases allow <;> rfl

theorem handle_now (s : Setup E) (groups : List Str) (h : groups.length > 0) (request : Request) (qs : List Question) :
    Live.handleDenylist s.state groups request qs (amid s []) = (Blocking.handleDenylist s.state groups request qs, amid s []) := by
  induction qs with
  | nil => rfl
  | cons q qs ih =>
    unfold Live.handleDenylist Blocking.handleDenylist
    simp only [look_now s _ _ _ h, ih]
    rw [show s.state.allow = s.allow from rfl, show s.state.deny = s.deny from rfl]
    simp only [if_true, Bool.false_eq_true, if_false]
    split
    · rfl
    · split
      · rfl
      · split <;> rfl

theorem check_now (s : Setup E) (groups : List Str) (h : groups.length > 0) (request : Request) (rrs : List RR) :
    Live.checkAnswer s.env s.state groups request rrs (amid s []) = (Blocking.checkAnswer s.env s.state groups request rrs, amid s []) := by
  induction rrs with
  | nil => rfl
  | cons rr rrs ih =>
    unfold Live.checkAnswer Blocking.checkAnswer
    simp only [look_now s _ _ _ h, ih]
    rw [show s.state.allow = s.allow from rfl, show s.state.deny = s.deny from rfl]
    simp only [if_true, Bool.false_eq_true, if_false]
    split
    · split
      · rfl
      · split
        · cases request.req.question <;> rfl
        · rfl
    · rfl

/-- **C128, nothing changes.** Then a query is handled as in C15. -/
theorem C128_unchanged {W : Type} (s : Setup E) (next : Resolver W) (request : Request) (w : W) :
    Live.resolve s.env s.state next request w (amid s []) =
      ((Blocking.resolve s.env s.state next request w).1, (Blocking.resolve s.env s.state next request w).2, amid s []) := by
  have hask : Live.askNext s.env s.state (checked s [] request) next request w (amid s []) =
      ((Blocking.askNext s.env s.state (checked s [] request) next request w).1,
        (Blocking.askNext s.env s.state (checked s [] request) next request w).2, amid s []) := by
    unfold Live.askNext Blocking.askNext
    generalize next request w = y
    obtain ⟨o, w1⟩ := y
    cases o with
    | ok r =>
      simp only
      split
      · rename_i h
        rw [check_now s _ h]
        cases Blocking.checkAnswer s.env s.state (checked s [] request) request r.res.answer <;> rfl
      · rfl
    | _ => rfl
  rw [resolve_eq]
  unfold Blocking.resolve
  simp only
  rw [show groupsToCheck s.env s.state.cgb s.state.fqdnIPs s.state.status request = checked s [] request from rfl]
  split
  · rename_i h
    rw [show (amid s []).look.2 = amid s [] from rfl, handle_now s _ h]
    cases Blocking.handleDenylist s.state (checked s [] request) request request.req.question with
    | allowed => rfl
    | blocked o => rfl
    | no => exact hask
  · exact hask

/-! ### Completed refreshes -/

theorem afterRefreshes_snoc (hist : List (Str × List Str)) (g : Str) (es : List Str) (f : Factory E) (hf : Factory.addAll E {} es = some f) :
    ∀ c c' : Caches E, afterRefreshes E hist c = some c' → afterRefreshes E (hist ++ [(g, es)]) c = some (c'.finish E g f) := by
  induction hist with
  | nil =>
    intro c c' h
    cases h
    simp only [List.nil_append, afterRefreshes, hf]
  | cons x hist ih =>
    intro c c' h
    obtain ⟨g0, es0⟩ := x
    simp only [List.cons_append, afterRefreshes] at h ⊢
    cases hx : Factory.addAll E {} es0 with
    | none => rw [hx] at h; cases h
    | some f0 =>
      rw [hx] at h
      exact ih _ _ h

/-- **C128, completed refreshes.** When the caches of a group have been replaced one after the other, its list is the new version: a name is found in
the group exactly if an entry of that version matches, whatever the old one said. The lists of other groups, those of the other type and
the disabled groups are what they were. -/
theorem C128_refresh_completes (hist : List (Str × List Str)) (allow : Bool) (g : Str) (es : List Str) (sh : Shared E)
    (h : afterRefreshes E hist {} = some (sh.lists allow)) (hes : ∃ f, Factory.addAll E {} es = some f) :
    (((refreshed allow g es).foldl Shared.after sh).lists (!allow) = sh.lists (!allow)) ∧
    ((refreshed allow g es).foldl Shared.after sh).status = sh.status ∧
    ∀ x groups g', g' ∈ (((refreshed allow g es).foldl Shared.after sh).lists allow).contains E x groups ↔
      g' ∈ groups ∧ ∃ e ∈ (if g' = g then es else currentList g' hist), EntryMatches E e x := by
  obtain ⟨f, hf⟩ := hes
  have hcur : ∀ (hist : List (Str × List Str)) g', currentList g' (hist ++ [(g, es)]) = if g' = g then es else currentList g' hist := by
    intro hist g'
    induction hist with
    | nil =>
      simp only [List.nil_append, currentList, List.map_nil, List.not_mem_nil, if_false]
      by_cases hg : g' = g
      · rw [if_pos hg.symm, if_pos hg]
      · rw [if_neg (fun h => hg h.symm), if_neg hg]
    | cons y hist ih =>
      obtain ⟨g0, es0⟩ := y
      simp only [List.cons_append, currentList, List.map_append, List.mem_append, List.map_cons, List.map_nil, List.mem_singleton]
      by_cases hg : g' = g
      · rw [if_pos (.inr hg), ih, if_pos hg, if_pos hg]
      · rw [if_neg hg]
        by_cases hm : g' ∈ hist.map Prod.fst
        · rw [if_pos (.inl hm), if_pos hm, ih, if_neg hg]
        · rw [if_neg (fun h => h.elim hm hg), if_neg hm]
  have hlists : ((refreshed allow g es).foldl Shared.after sh).lists allow = (sh.lists allow).finish E g f ∧
      ((refreshed allow g es).foldl Shared.after sh).lists (!allow) = sh.lists (!allow) ∧
      ((refreshed allow g es).foldl Shared.after sh).status = sh.status := by
    simp only [refreshed, List.foldl_cons, List.foldl_nil, Shared.after, hf]
    cases allow <;> exact ⟨rfl, rfl, rfl⟩
  refine ⟨hlists.2.1, hlists.2.2, ?_⟩
  intro x groups g'
  have := (C03_lookup_union E (hist ++ [(g, es)]) _ (afterRefreshes_snoc hist g es f hf _ _ h) x groups).2 g'
  rw [hlists.1, this, hcur]

-- the denylist of the demo set-up is replaced by one of another kind
example : ((((refreshed false (str! "g") [str! "bad.com"]).foldl Shared.after ⟨demoSetup.deny, demoSetup.allow, {}⟩).lists false).contains prefixEngine
      (str! "bad.com") [str! "g"], (((refreshed false (str! "g") [str! "bad.com"]).foldl Shared.after ⟨demoSetup.deny, demoSetup.allow, {}⟩).lists false).contains
      prefixEngine (str! "ads.com") [str! "g"]) = ([str! "g"], []) := by decide +kernel

/-! ### Examples -/

/-- The list of the demo set-up is refreshed while a query is handled: its new version says the same with another kind of entry. The regular
expressions have been replaced as the query gets to look at them, plain names have not. -/
def exchange : List (List Change) :=
  [[], [], [], [], [.replace false .regex (str! "g") [str! "ads.com"]], [], [],
    [.replace false .wildcard (str! "g") [str! "ads.com"], .replace false .string (str! "g") [str! "ads.com"]]]

/-- The new version keeps the old entry. -/
def extended : List (List Change) :=
  [[], [], [], [], [.replace false .regex (str! "g") [str! "/ads/", str! "bad.com"]], [], [],
    [.replace false .wildcard (str! "g") [str! "/ads/", str! "bad.com"], .replace false .string (str! "g") [str! "/ads/", str! "bad.com"]]]

/-- Response type and number of calls of the next resolver. -/
def liveVerdict (x : Outcome × Nat × Live prefixEngine) : Option RType × Nat := verdict (x.1, x.2.1)

example : liveVerdict (Live.resolve plainEnv demoSetup.state (countingNext (str! "t.")) (askFor [str! "ads.com."]) 0 (amid demoSetup extended)) =
    (some .blocked, 0) := by decide +kernel

theorem demo_status (later : List (List Change)) (h : ∀ c ∈ later.flatten, ∃ a k g es, c = Change.replace a k g es) (names : List Str) (st : Status)
    (hst : StatusThen demoSetup later st) : Active demoSetup.env demoSetup.cfg demoSetup.fqdnIPs st.disabledGroups (askFor names) (str! "g") := by
  have : st = demoSetup.status := by
    rcases hst with h1 | h1
    · exact h1
    · obtain ⟨a, k, g, es, h2⟩ := h _ h1
      cases h2
  subst this
  refine (demoSetup.mem_groups _ _).1 ?_
  have : demoSetup.groups (askFor names) = [str! "g"] := by
    rfl
  rw [this]
  exact List.mem_singleton.2 rfl

theorem good_not_ads : ¬ EntryMatches prefixEngine (str! "/good/") (str! "ads.com") := by
  have hre : IsRegexEntry (str! "/good/") := ⟨str! "good", rfl⟩
  rintro (⟨body, r, h1, h2, h3⟩ | ⟨h, _⟩ | ⟨h, _⟩)
  · have hb : body = str! "good" := by
      have h4 : str! "good" ++ ['/'] = body ++ ['/'] := (List.cons.inj h1).2
      exact (List.append_cancel_right h4).symm
    subst hb
    have hr : r = trimSpace (str! "good") := by cases h2; rfl
    subst hr
    revert h3
    decide
  · exact h hre
  · exact h hre

/-- **C128 is false for entries that are replaced.** A name that both versions of a denylist match passes if the list is refreshed at the
wrong moment: the regular expressions are gone already as they are searched, the new plain names come after plain names have been searched. -/
theorem C128_replaced_false : ¬ ∀ (s : Setup prefixEngine) (later : List (List Change)) (next : Resolver Nat) (request : Request) (w : Nat) (q : Question),
    request.req.question = [q] → ∀ g, (∀ st, StatusThen s later st → Active s.env s.cfg s.fqdnIPs st.disabledGroups request g) →
    (∀ es, Version s later false g es → ∃ e ∈ es, EntryMatches prefixEngine e (extractDomain q.name)) →
    (∀ g, OfClient s request g → ∀ es, Version s later true g es → ∀ e ∈ es, ¬ EntryMatches prefixEngine e (extractDomain q.name)) →
    ∃ o l, Live.resolve s.env s.state next request w (amid s later) = (o, w, l) ∧ IsBlockAnswer s request q o := by
  intro h
  obtain ⟨o, l, h1, _⟩ := h demoSetup exchange (countingNext (str! "t.")) (askFor [str! "ads.com."]) 0 ⟨str! "ads.com.", 1, 1⟩ rfl (str! "g")
    (demo_status exchange (by
      intro c hc
      simp only [exchange, List.flatten_cons, List.flatten_nil, List.nil_append, List.cons_append, List.append_nil, List.mem_cons, List.not_mem_nil,
        or_false] at hc
      rcases hc with rfl | rfl | rfl <;> exact ⟨_, _, _, _, rfl⟩) _)
    (by
      rintro es (h | ⟨k, h⟩)
      · refine ⟨str! "/ads/", by rw [h]; decide, .inl ⟨str! "ads", str! "ads", rfl, rfl, by decide⟩⟩
      · have hes : es = [str! "ads.com"] := by
          simp only [exchange, List.flatten_cons, List.flatten_nil, List.nil_append, List.cons_append, List.append_nil, List.mem_cons, List.not_mem_nil,
            or_false, Change.replace.injEq] at h
          rcases h with h | h | h <;> exact h.2.2.2
        refine ⟨str! "ads.com", by rw [hes]; decide, .inr (.inr ⟨?_, by decide, by decide, by decide⟩)⟩
        rintro ⟨body, hb⟩
        have := congrArg List.head? hb
        simp at this)
    (by
      rintro g _ es (h | ⟨k, h⟩) e he
      · have he' : e = str! "/good/" := by
          rw [h] at he
          simp only [demoSetup, currentList, List.map_nil, List.not_mem_nil, if_false, if_true] at he
          split at he
          · exact List.mem_singleton.1 he
          · cases he
        subst he'
        exact good_not_ads
      · simp [exchange] at h)
  have h2 : (Live.resolve plainEnv demoSetup.state (countingNext (str! "t.")) (askFor [str! "ads.com."]) 0 (amid demoSetup exchange)).2.1 = 1 := by
    decide +kernel
  rw [show demoSetup.env = plainEnv from rfl] at h1
  rw [h1] at h2
  exact absurd (show (0 : Nat) = 1 from h2) (by decide)

/-- The hypotheses of `C128_kept_blocks` are met by the demo set-up whose list gets another entry. -/
example (next : Resolver Nat) (w : Nat) : ∃ o l, Live.resolve demoSetup.env demoSetup.state next (askFor [str! "ads.com."]) w (amid demoSetup extended) =
    (o, w, l) ∧ IsBlockAnswer demoSetup (askFor [str! "ads.com."]) ⟨str! "ads.com.", 1, 1⟩ o := by
  refine C128_kept_blocks demoSetup extended next _ w ⟨str! "ads.com.", 1, 1⟩ [] rfl (str! "g") (demo_status extended ?_ _) (str! "/ads/") ?_
    (.inl ⟨str! "ads", str! "ads", rfl, rfl, by decide⟩) ?_
  · intro c hc
    simp only [extended, List.flatten_cons, List.flatten_nil, List.nil_append, List.cons_append, List.append_nil, List.mem_cons, List.not_mem_nil,
      or_false] at hc
    rcases hc with rfl | rfl | rfl <;> exact ⟨_, _, _, _, rfl⟩
  · rintro es (h | ⟨k, h⟩)
    · rw [h]; decide
    · have hes : es = [str! "/ads/", str! "bad.com"] := by
        simp only [extended, List.flatten_cons, List.flatten_nil, List.nil_append, List.cons_append, List.append_nil, List.mem_cons, List.not_mem_nil,
          or_false, Change.replace.injEq] at h
        rcases h with h | h | h <;> exact h.2.2.2
      rw [hes]; decide
  · rintro g _ es (h | ⟨k, h⟩) e he
    · have he' : e = str! "/good/" := by
        rw [h] at he
        simp only [demoSetup, currentList, List.map_nil, List.not_mem_nil, if_false, if_true] at he
        split at he
        · exact List.mem_singleton.1 he
        · cases he
      subst he'
      exact good_not_ads
    · simp [extended] at h

/-- A name on the allowlist passes meanwhile, one that is on no list too; and a client whose group is disabled. -/
example :
    liveVerdict (Live.resolve plainEnv demoSetup.state (countingNext (str! "t.")) (askFor [str! "good.com."]) 0 (amid demoSetup exchange)) =
      (some .resolved, 1) ∧
    liveVerdict (Live.resolve plainEnv demoSetup.state (countingNext (str! "t.")) (askFor [str! "x.com."]) 0 (amid demoSetup exchange)) =
      (some .resolved, 1) ∧
    liveVerdict (Live.resolve plainEnv demoSetup.state (countingNext (str! "ads.org.")) (askFor [str! "x.com."]) 0 (amid demoSetup extended)) =
      (some .blocked, 1) ∧
    liveVerdict (Live.resolve plainEnv demoSetup.state (countingNext (str! "t.")) (askFor [str! "ads.com."]) 0
      (amid demoSetup [[.status ⟨false, [str! "g"]⟩]])) = (some .resolved, 1) := by
  decide +kernel

end Verif.Props
