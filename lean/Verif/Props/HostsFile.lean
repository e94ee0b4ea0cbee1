/-
C34: hosts files.
-/
import Verif.Model.HostsFile
import Verif.Spec.Reverse
import Verif.Props.Arpa

namespace Verif.Props
open Dns HostsFile Spec

/-- The record type for addresses of the family of an address. -/
def familyType : IP → Nat
  | .v4 _ => 1
  | .v6 _ => 28

/-- An entry lists an address for a name (as its name or an alias). -/
def Lists (e : Entry) (n : Str) (ip : IP) : Prop := e.ip = ip ∧ (e.name = n ∨ n ∈ e.aliases)

/-- The entry is in force for reverse lookups: no later entry of the same family has the same name. -/
def Current (es : List Entry) (e : Entry) : Prop :=
  ∃ pre post, es = pre ++ e :: post ∧ ∀ e' ∈ post, familyType e'.ip = familyType e.ip → e'.name ≠ e.name

theorem addAliases_get (ip : IP) (as : List Str) (m : AMap Str IP) (n : Str) :
    AMap.get (addAliases ip as m) n = if n ∈ as then some ip else AMap.get m n := by
  induction as generalizing m with
  | nil => simp [addAliases]
  | cons a as ih =>
    unfold addAliases
    rw [ih, AMap.get_put]
    by_cases h1 : n ∈ as
    · simp [h1]
    · by_cases h2 : a = n
      · simp [h2]
      · simp [h1, Ne.symm h2, h2]

/-- The data of one family. -/
def Hosts.data (h : Hosts) (t : Nat) : Data := if t = 1 then h.v4 else h.v6

theorem addAll_snoc (es : List Entry) (e : Entry) (h : Hosts) : addAll (es ++ [e]) h = (addAll es h).add e := by
  simp [addAll, List.foldl_append]

theorem add_data (h : Hosts) (e : Entry) (t : Nat) (ht : t = 1 ∨ t = 28) :
    Hosts.data (h.add e) t = if familyType e.ip = t then (Hosts.data h t).add e else Hosts.data h t := by
  unfold Hosts.add
  cases he : e.ip <;> rcases ht with rfl | rfl <;> simp [Hosts.data, familyType]

/-- Every list is empty or has a last element. -/
theorem snoc_cases {A : Type} (P : List A → Prop) (h0 : P []) (h1 : ∀ l a, P l → P (l ++ [a])) (l : List A) : P l := by
  have : ∀ n, ∀ l : List A, l.length = n → P l := by
    intro n
    induction n with
    | zero => intro l hl; rw [List.length_eq_zero_iff.1 hl]; exact h0
    | succ n ih =>
      intro l hl
      have hne : l ≠ [] := by rintro rfl; simp at hl
      rw [← List.dropLast_concat_getLast hne]
      exact h1 _ _ (ih _ (by simp [hl]))
  exact this _ l rfl

theorem current_snoc {es : List Entry} {e x : Entry} (h : Current (es ++ [e]) x) :
    (x = e) ∨ (Current es x ∧ (familyType e.ip = familyType x.ip → e.name ≠ x.name)) := by
  obtain ⟨pre, post, h1, h2⟩ := h
  rcases List.eq_nil_or_concat post with rfl | ⟨post', y, rfl⟩
  · have := List.append_inj' h1 rfl
    left
    have h3 := this.2
    simp at h3
    exact h3.symm
  · rw [List.concat_eq_append, ← List.cons_append, ← List.append_assoc] at h1
    obtain ⟨h3, h4⟩ := List.append_inj' h1 rfl
    have h5 : e = y := by simpa using h4
    subst h5
    exact .inr ⟨⟨pre, post', h3, fun e' he' => h2 e' (by simp [he'])⟩, fun hf => h2 e (by simp) hf⟩

theorem Current.snoc {es : List Entry} {e x : Entry} (h : Current es x)
    (hne : familyType e.ip = familyType x.ip → e.name ≠ x.name) : Current (es ++ [e]) x := by
  obtain ⟨pre, post, h1, h2⟩ := h
  refine ⟨pre, post ++ [e], by rw [h1]; simp, ?_⟩
  intro e' he'
  rcases List.mem_append.1 he' with he' | he'
  · exact h2 e' he'
  · rw [List.mem_singleton.1 he']
    exact hne

theorem current_last (es : List Entry) (e : Entry) : Current (es ++ [e]) e := ⟨es, [], by simp, by simp⟩

theorem Current.mem {es : List Entry} {e : Entry} (h : Current es e) : e ∈ es := by
  obtain ⟨pre, post, h1, _⟩ := h
  rw [h1]
  simp

/-- What the host map of a family holds. -/
theorem hosts_get (es : List Entry) (t : Nat) (ht : t = 1 ∨ t = 28) (n : Str) (ip : IP) (as : List Str) :
    AMap.get (Hosts.data (addAll es {}) t).hosts n = some (ip, as) ↔
      ∃ e, Current es e ∧ familyType e.ip = t ∧ e.name = n ∧ e.ip = ip ∧ e.aliases = as := by
  revert n ip as
  refine snoc_cases (fun es => ∀ n ip as, AMap.get (Hosts.data (addAll es {}) t).hosts n = some (ip, as) ↔
      ∃ e, Current es e ∧ familyType e.ip = t ∧ e.name = n ∧ e.ip = ip ∧ e.aliases = as) ?_ ?_ es
  · intro n ip as
    constructor
    · intro h
      rcases ht with rfl | rfl <;> simp [addAll, Hosts.data] at h
    · rintro ⟨e, h, _⟩
      have := h.mem
      simp at this
  · intro es e ih n ip as
    rw [addAll_snoc, add_data _ _ _ ht]
    by_cases hf : familyType e.ip = t
    · rw [if_pos hf]
      simp only [Data.add]
      rw [AMap.get_put]
      by_cases hn : e.name = n
      · simp only [hn, if_true]
        constructor
        · intro h
          simp only [Option.some.injEq, Prod.mk.injEq] at h
          exact ⟨e, current_last es e, hf, hn, h.1, h.2⟩
        · rintro ⟨x, hx, h1, h2, h3, h4⟩
          rcases current_snoc hx with rfl | ⟨_, hne⟩
          · rw [h3, h4]
          · exact absurd (hn.trans h2.symm) (hne (hf.trans h1.symm))
      · rw [if_neg hn]
        rw [ih]
        constructor
        · rintro ⟨x, hx, h1, h2, h3, h4⟩
          exact ⟨x, hx.snoc (fun _ h => hn (h.trans h2)), h1, h2, h3, h4⟩
        · rintro ⟨x, hx, h1, h2, h3, h4⟩
          rcases current_snoc hx with rfl | ⟨hx, _⟩
          · exact absurd h2 hn
          · exact ⟨x, hx, h1, h2, h3, h4⟩
    · rw [if_neg hf, ih]
      constructor
      · rintro ⟨x, hx, h1, h2⟩
        exact ⟨x, hx.snoc (fun h => absurd (h.trans h1) hf), h1, h2⟩
      · rintro ⟨x, hx, h1, h2⟩
        rcases current_snoc hx with rfl | ⟨hx, _⟩
        · exact absurd h1 hf
        · exact ⟨x, hx, h1, h2⟩

theorem aliases_get_some (es : List Entry) (t : Nat) (ht : t = 1 ∨ t = 28) (n : Str) :
    (∀ ip, AMap.get (Hosts.data (addAll es {}) t).aliases n = some ip →
      ∃ e ∈ es, familyType e.ip = t ∧ e.ip = ip ∧ n ∈ e.aliases) ∧
    (AMap.get (Hosts.data (addAll es {}) t).aliases n = none → ∀ e ∈ es, familyType e.ip = t → n ∉ e.aliases) := by
  refine snoc_cases (fun es => (∀ ip, AMap.get (Hosts.data (addAll es {}) t).aliases n = some ip →
      ∃ e ∈ es, familyType e.ip = t ∧ e.ip = ip ∧ n ∈ e.aliases) ∧
    (AMap.get (Hosts.data (addAll es {}) t).aliases n = none → ∀ e ∈ es, familyType e.ip = t → n ∉ e.aliases)) ?_ ?_ es
  · refine ⟨?_, by simp⟩
    intro ip h
    rcases ht with rfl | rfl <;> simp [addAll, Hosts.data] at h
  · intro es e ih
    rw [addAll_snoc, add_data _ _ _ ht]
    by_cases hf : familyType e.ip = t
    · rw [if_pos hf]
      simp only [Data.add]
      rw [addAliases_get]
      by_cases hn : n ∈ e.aliases
      · rw [if_pos hn]
        refine ⟨?_, by simp⟩
        intro ip h
        cases h
        exact ⟨e, by simp, hf, rfl, hn⟩
      · rw [if_neg hn]
        refine ⟨?_, ?_⟩
        · intro ip h
          obtain ⟨x, hx, h1⟩ := ih.1 ip h
          exact ⟨x, by simp [hx], h1⟩
        · intro h x hx hfx
          rcases List.mem_append.1 hx with hx | hx
          · exact ih.2 h x hx hfx
          · rw [List.mem_singleton.1 hx]; exact hn
    · rw [if_neg hf]
      refine ⟨?_, ?_⟩
      · intro ip h
        obtain ⟨x, hx, h1⟩ := ih.1 ip h
        exact ⟨x, by simp [hx], h1⟩
      · intro h x hx hfx
        rcases List.mem_append.1 hx with hx | hx
        · exact ih.2 h x hx hfx
        · rw [List.mem_singleton.1 hx] at hfx
          exact absurd hfx hf

theorem exists_current {es : List Entry} {e : Entry} (h : e ∈ es) :
    ∃ x, Current es x ∧ familyType x.ip = familyType e.ip ∧ x.name = e.name := by
  revert h
  refine snoc_cases (fun es => e ∈ es → ∃ x, Current es x ∧ familyType x.ip = familyType e.ip ∧ x.name = e.name) ?_ ?_ es
  · simp
  · intro es y ih h
    by_cases hy : familyType y.ip = familyType e.ip ∧ y.name = e.name
    · exact ⟨y, current_last es y, hy⟩
    · rcases List.mem_append.1 h with h | h
      · obtain ⟨x, hx, h1, h2⟩ := ih h
        exact ⟨x, hx.snoc (fun hf hn => hy ⟨hf.trans h1, hn.trans h2⟩), h1, h2⟩
      · exact absurd (by rw [List.mem_singleton.1 h]; exact ⟨rfl, rfl⟩) hy

theorem getIP_spec (es : List Entry) (t : Nat) (ht : t = 1 ∨ t = 28) (n : Str) :
    (∀ ip, (addAll es {}).getIP t n = some ip → familyType ip = t ∧ ∃ e ∈ es, Lists e n ip) ∧
    ((addAll es {}).getIP t n = none → ∀ e ∈ es, ∀ ip, familyType ip = t → ¬ Lists e n ip) := by
  have hg : (addAll es {}).getIP t n = (Hosts.data (addAll es {}) t).getIP n := by
    rcases ht with rfl | rfl <;> simp [Hosts.getIP, Hosts.data, typeA, typeAAAA]
  rw [hg]
  unfold Data.getIP
  have hal := aliases_get_some es t ht n
  cases hh : AMap.get (Hosts.data (addAll es {}) t).hosts n with
  | some x =>
    obtain ⟨ip, as⟩ := x
    obtain ⟨e, he, h1, h2, h3, _⟩ := (hosts_get es t ht n ip as).1 hh
    refine ⟨?_, by simp⟩
    intro ip' h
    cases h
    exact ⟨h3 ▸ h1, e, he.mem, h3, .inl h2⟩
  | none =>
    refine ⟨?_, ?_⟩
    · intro ip h
      obtain ⟨e, he, h1, h2, h3⟩ := hal.1 ip h
      exact ⟨h2 ▸ h1, e, he, h2, .inr h3⟩
    · intro h e he ip hf hl
      rcases hl.2 with hn | hn
      · obtain ⟨x, hx, h1, h2⟩ := exists_current he
        have := (hosts_get es t ht n x.ip x.aliases).2
          ⟨x, hx, by rw [h1, hl.1]; exact hf, by rw [h2]; exact hn, rfl, rfl⟩
        rw [hh] at this
        cases this
      · exact hal.2 h e he (by rw [hl.1]; exact hf) hn

/-- **C34, forward.** After a successful load a query of type A or AAAA is answered, with one record, if
an entry lists an address of that family for the name (compared in lower case with the name as
written in the file); the address is one so listed. Otherwise it is passed on. -/
theorem C34_forward_partial {W : Type} (cfg : Cfg) (received : List Entry) (old : Hosts)
    (order4 order6 : List (Str × (IP × List Str))) (next : Resolver W) (request : Request) (q : Question)
    (qs : List Question) (hq : request.req.question = q :: qs) (ht : q.qtype = 1 ∨ q.qtype = 28) (w : W) :
    let result := resolve true cfg (load false received old) order4 order6 next request w
    let name := extractDomain q.name
    ((∃ e ∈ received, ∃ ip, familyType ip = q.qtype ∧ Lists e name ip) →
      ∃ r ip, result = (.ok r, w) ∧ (∃ e ∈ received, Lists e name ip) ∧ r.rtype = .hostsfile ∧
        r.res.question = [q] ∧ r.res.rcode = 0 ∧ r.res.id = request.req.id ∧
        ((q.qtype = 1 ∧ r.res.answer = [⟨q.name, 1, 1, cfg.ttl, .a ip⟩]) ∨
         (q.qtype = 28 ∧ r.res.answer = [⟨q.name, 28, 1, cfg.ttl, .aaaa ip⟩]))) ∧
    ((∀ e ∈ received, ∀ ip, familyType ip = q.qtype → ¬ Lists e name ip) → result = next request w) := by
  have hrev : handleReverse cfg order4 order6 request q = none := by
    unfold handleReverse
    rw [if_pos]
    rcases ht with h | h <;> simp [h, typePTR]
  have hspec := getIP_spec received q.qtype ht (extractDomain q.name)
  simp only [load, Bool.false_eq_true, if_false, resolve, Bool.not_true, hq, hrev]
  cases hg : (addAll received {}).getIP q.qtype (extractDomain q.name) with
  | none =>
    refine ⟨?_, fun _ => rfl⟩
    rintro ⟨e, he, ip, hf, hl⟩
    exact absurd hl (hspec.2 hg e he ip hf)
  | some ip =>
    obtain ⟨hf, hl⟩ := hspec.1 ip hg
    refine ⟨?_, ?_⟩
    · intro _
      refine ⟨_, ip, rfl, hl, rfl, by simp [Msg.setReply, hq], rfl, rfl, ?_⟩
      rcases ht with h | h
      · left
        simp [h, createAnswer, typeA]
      · right
        simp [h, createAnswer, typeA]
    · intro h
      obtain ⟨e, he, hl⟩ := hl
      exact absurd hl (h e he ip hf)

/-- What a query finds in one family during a reload. -/
theorem torn_getIP (before after : List Entry) (seen : Seen) (t : Nat) (ht : t = 1 ∨ t = 28) (n : Str) :
    ∃ a b, ((a = before ∨ a = after) ∧ (b = before ∨ b = after)) ∧
      (torn (addAll before {}) (addAll after {}) seen).getIP t n =
        (match AMap.get (Hosts.data (addAll a {}) t).hosts n with
          | some (ip, _) => some ip
          | none => AMap.get (Hosts.data (addAll b {}) t).aliases n) := by
  rcases ht with rfl | rfl
  · refine ⟨if seen.hosts4 then after else before, if seen.aliases4 then after else before, ⟨?_, ?_⟩, ?_⟩
    · cases seen.hosts4 <;> simp
    · cases seen.aliases4 <;> simp
    · unfold Hosts.getIP Data.getIP torn Hosts.data typeA
      cases seen.hosts4 <;> cases seen.aliases4 <;> rfl
  · refine ⟨if seen.hosts6 then after else before, if seen.aliases6 then after else before, ⟨?_, ?_⟩, ?_⟩
    · cases seen.hosts6 <;> simp
    · cases seen.aliases6 <;> simp
    · unfold Hosts.getIP Data.getIP torn Hosts.data typeA typeAAAA
      cases seen.hosts6 <;> cases seen.aliases6 <;> rfl

/-- **C34, during a reload.** A query of type A or AAAA that comes while the data are being replaced is either
answered with an address listed for the name before or after the reload, or passed on; it is answered if the
name begins a line both before and after. Missing: names that are an alias in one of the two
(`C34_during_reload_false`). -/
theorem C34_during_reload_partial {W : Type} (cfg : Cfg) (before after : List Entry) (old : Hosts) (seen : Seen)
    (order4 order6 : List (Str × (IP × List Str))) (next : Resolver W) (request : Request) (q : Question)
    (qs : List Question) (hq : request.req.question = q :: qs) (ht : q.qtype = 1 ∨ q.qtype = 28) (w : W) :
    let result := resolve true cfg (torn (load false before old) (load false after (load false before old)) seen) order4 order6
      next request w
    let name := extractDomain q.name
    (∃ r ip, result = (.ok r, w) ∧ (∃ e, (e ∈ before ∨ e ∈ after) ∧ Lists e name ip) ∧ r.rtype = .hostsfile ∧
        r.res.question = [q] ∧ r.res.rcode = 0 ∧ r.res.id = request.req.id ∧
        ((q.qtype = 1 ∧ r.res.answer = [⟨q.name, 1, 1, cfg.ttl, .a ip⟩]) ∨
         (q.qtype = 28 ∧ r.res.answer = [⟨q.name, 28, 1, cfg.ttl, .aaaa ip⟩]))) ∨
    (result = next request w ∧
      ¬ ((∃ e ∈ before, familyType e.ip = q.qtype ∧ e.name = name) ∧ ∃ e ∈ after, familyType e.ip = q.qtype ∧ e.name = name)) := by
  have hrev : handleReverse cfg order4 order6 request q = none := by
    unfold handleReverse
    rw [if_pos]
    rcases ht with h | h <;> simp [h, typePTR]
  obtain ⟨a, b, ⟨ha, hb⟩, hg⟩ := torn_getIP before after seen q.qtype ht (extractDomain q.name)
  simp only [load, Bool.false_eq_true, if_false, resolve, Bool.not_true, hq, hrev]
  have hin : ∀ {e : Entry} {l : List Entry}, (l = before ∨ l = after) → e ∈ l → e ∈ before ∨ e ∈ after := by
    rintro e l (rfl | rfl) he
    · exact .inl he
    · exact .inr he
  have answered : ∀ ip, (torn (addAll before {}) (addAll after {}) seen).getIP q.qtype (extractDomain q.name) = some ip →
      (∃ e, (e ∈ before ∨ e ∈ after) ∧ Lists e (extractDomain q.name) ip) →
      (∃ r ip', (match (torn (addAll before {}) (addAll after {}) seen).getIP q.qtype (extractDomain q.name) with
          | some ip => ((Outcome.ok ⟨{ ({} : Msg).setReply request.req with answer := [createAnswer q ip cfg.ttl] },
              str! "HOSTS FILE", .hostsfile⟩, w) : Outcome × W)
          | none => next request w) = (.ok r, w) ∧
        (∃ e, (e ∈ before ∨ e ∈ after) ∧ Lists e (extractDomain q.name) ip') ∧ r.rtype = .hostsfile ∧
        r.res.question = [q] ∧ r.res.rcode = 0 ∧ r.res.id = request.req.id ∧
        ((q.qtype = 1 ∧ r.res.answer = [⟨q.name, 1, 1, cfg.ttl, .a ip'⟩]) ∨
         (q.qtype = 28 ∧ r.res.answer = [⟨q.name, 28, 1, cfg.ttl, .aaaa ip'⟩]))) := by
    intro ip hi hl
    rw [hi]
    refine ⟨_, ip, rfl, hl, rfl, by simp [Msg.setReply, hq], rfl, rfl, ?_⟩
    rcases ht with h | h
    · left; simp [h, createAnswer, typeA]
    · right; simp [h, createAnswer, typeA]
  cases hh : AMap.get (Hosts.data (addAll a {}) q.qtype).hosts (extractDomain q.name) with
  | some x =>
    obtain ⟨ip, as⟩ := x
    rw [hh] at hg
    obtain ⟨e, he, h1, h2, h3, _⟩ := (hosts_get a q.qtype ht _ ip as).1 hh
    exact .inl (answered ip hg ⟨e, hin ha he.mem, h3, .inl h2⟩)
  | none =>
    rw [hh] at hg
    dsimp only at hg
    cases hal : AMap.get (Hosts.data (addAll b {}) q.qtype).aliases (extractDomain q.name) with
    | some ip =>
      rw [hal] at hg
      obtain ⟨e, he, h1, h2, h3⟩ := (aliases_get_some b q.qtype ht _).1 ip hal
      exact .inl (answered ip hg ⟨e, hin hb he, h2, .inr h3⟩)
    | none =>
      rw [hal] at hg
      refine .inr ⟨by rw [hg], ?_⟩
      rintro ⟨⟨e, he, h1, h2⟩, ⟨e', he', h1', h2'⟩⟩
      have : ∃ e ∈ a, familyType e.ip = q.qtype ∧ e.name = extractDomain q.name := by
        rcases ha with rfl | rfl
        · exact ⟨e, he, h1, h2⟩
        · exact ⟨e', he', h1', h2'⟩
      obtain ⟨e, he, h1, h2⟩ := this
      obtain ⟨x, hx, g1, g2⟩ := exists_current he
      have := (hosts_get a q.qtype ht (extractDomain q.name) x.ip x.aliases).2
        ⟨x, hx, by rw [g1]; exact h1, by rw [g2]; exact h2, rfl, rfl⟩
      rw [hh] at this
      cases this

/-- **C34 is false during a reload.** A name listed both before and after the reload, by the same line with
its names in another order, can be missed: the query is passed on, to an upstream in the end. -/
theorem C34_during_reload_false :
    ∃ seen, resolve true ⟨60, false⟩ (torn (load false [⟨.v4 1, [], str! "nas", [str! "box"]⟩] {})
        (load false [⟨.v4 1, [], str! "box", [str! "nas"]⟩] {}) seen) [] []
        (fun _ (w : Nat) => (.err (str! "upstream"), w)) { req := { question := [⟨str! "nas.", 1, 1⟩] } } 0 =
      (.err (str! "upstream"), 0) :=
  ⟨⟨true, false, false, false⟩, rfl⟩

theorem findHost_spec (ip : IP) (l : List (Str × (IP × List Str))) :
    (∀ h as, findHost ip l = some (h, as) → (h, (ip, as)) ∈ l) ∧
    (findHost ip l = none → ∀ h as, (h, (ip, as)) ∉ l) := by
  induction l with
  | nil => simp [findHost]
  | cons x l ih =>
    obtain ⟨h, ip', as⟩ := x
    unfold findHost
    by_cases he : ip' = ip
    · subst he
      simp
    · rw [if_neg he]
      refine ⟨fun h' as' h1 => by simp [ih.1 h' as' h1], fun h1 h' as' hm => ?_⟩
      rcases List.mem_cons.1 hm with hm | hm
      · cases hm
        exact he rfl
      · exact ih.2 h1 h' as' hm

theorem data_uniq (es : List Entry) (t : Nat) (ht : t = 1 ∨ t = 28) :
    AMap.Uniq (Hosts.data (addAll es {}) t).hosts := by
  refine snoc_cases (fun es => AMap.Uniq (Hosts.data (addAll es {}) t).hosts) ?_ ?_ es
  · rcases ht with rfl | rfl <;> exact AMap.uniq_nil
  · intro es e ih
    rw [addAll_snoc, add_data _ _ _ ht]
    split
    · exact ih.put _ _
    · exact ih

/-- The loopback addresses: 127.0.0.0/8 (first byte 127) and ::1. -/
def Loopback : IP → Prop
  | .v4 a => ∃ rest : BitVec 24, a = 127#8 ++ rest
  | .v6 a => a = 1

theorem isLoopback_iff (ip : IP) : isLoopback ip = true ↔ Loopback ip := by
  cases ip with
  | v6 a => simp [isLoopback, Loopback]
  | v4 a =>
    simp only [isLoopback, Loopback, beq_iff_eq]
    constructor
    · intro h
      refine ⟨a.setWidth 24, BitVec.eq_of_toNat_eq ?_⟩
      rw [BitVec.toNat_append, ← Nat.shiftLeft_add_eq_or_of_lt (BitVec.isLt _), BitVec.toNat_setWidth,
        Nat.shiftLeft_eq]
      have := a.isLt
      simp only [BitVec.toNat_ofNat]
      omega
    · rintro ⟨rest, rfl⟩
      rw [BitVec.toNat_append, ← Nat.shiftLeft_add_eq_or_of_lt (BitVec.isLt _), Nat.shiftLeft_eq]
      have := rest.isLt
      simp only [BitVec.toNat_ofNat]
      omega

example : Loopback (.v4 0x7f010203#32) := ⟨0x010203#24, by decide⟩

/-- **C34, reverse.** A PTR query for an address (outside the filtered loopback range) is answered if an
entry that is in force lists the address: with the names of one such entry, in every order of the
map. Otherwise it is passed on. -/
theorem C34_reverse_partial {W : Type} (cfg : Cfg) (received : List Entry) (old : Hosts)
    (order4 order6 : List (Str × (IP × List Str)))
    (h4 : order4.Perm (load false received old).v4.hosts) (h6 : order6.Perm (load false received old).v6.hosts)
    (next : Resolver W) (request : Request) (q : Question) (qs : List Question)
    (hq : request.req.question = q :: qs) (ht : q.qtype = 12) (ip : IP) (hip : Arpa.parse q.name = some ip)
    (hloop : cfg.filterLoopback = true → ¬ Loopback ip) (w : W) :
    let result := resolve true cfg (load false received old) order4 order6 next request w
    ((∃ e, Current received e ∧ e.ip = ip) →
      ∃ r e, Current received e ∧ e.ip = ip ∧ result = (.ok r, w) ∧ r.rtype = .hostsfile ∧ r.reason = str! "HOSTS FILE" ∧ r.res.rcode = 0 ∧
        r.res.answer = (e.name :: e.aliases).map (fun n => ⟨q.name, 12, 1, cfg.ttl, .ptr (fqdn n)⟩)) ∧
    ((∀ e, Current received e → e.ip ≠ ip) → result = next request w) := by
  have hft : familyType ip = 1 ∨ familyType ip = 28 := by cases ip <;> simp [familyType]
  have horder : (match ip with | .v4 _ => order4 | .v6 _ => order6).Perm
      (Hosts.data (addAll received {}) (familyType ip)).hosts := by
    cases ip with
    | v4 a => exact h4
    | v6 a => exact h6
  have hmem : ∀ n as, (n, (ip, as)) ∈ (match ip with | .v4 _ => order4 | .v6 _ => order6) ↔
      ∃ e, Current received e ∧ familyType e.ip = familyType ip ∧ e.name = n ∧ e.ip = ip ∧ e.aliases = as := by
    intro n as
    rw [horder.mem_iff, ← hosts_get received (familyType ip) hft]
    exact ⟨fun h => (data_uniq received _ hft).get_of_mem h, AMap.get_eq_some_mem⟩
  have hl : (cfg.filterLoopback && isLoopback ip) = false := by
    cases hf : cfg.filterLoopback with
    | false => rfl
    | true => simpa [← isLoopback_iff] using hloop hf
  have hget : (addAll received {}).getIP q.qtype (extractDomain q.name) = none := by
    simp [Hosts.getIP, ht, typeA, typeAAAA]
  simp only [load, Bool.false_eq_true, if_false, resolve, Bool.not_true, hq, handleReverse, ht, hip, hl, typePTR,
    ne_eq, not_true_eq_false]
  have hfs := findHost_spec ip (match ip with | .v4 _ => order4 | .v6 _ => order6)
  rw [ht] at hget
  cases hfh : findHost ip (match ip with | .v4 _ => order4 | .v6 _ => order6) with
  | none =>
    simp only [hget]
    refine ⟨?_, fun _ => trivial⟩
    rintro ⟨e, he, rfl⟩
    exact absurd ((hmem e.name e.aliases).2 ⟨e, he, rfl, rfl, rfl, rfl⟩) (hfs.2 hfh _ _)
  | some x =>
    obtain ⟨n, as⟩ := x
    obtain ⟨e, he, _, h2, h3, h4⟩ := (hmem n as).1 (hfs.1 n as hfh)
    refine ⟨?_, fun h => absurd h3 (h e he)⟩
    intro _
    exact ⟨_, e, he, h3, rfl, rfl, rfl, rfl, by rw [h2, h4]⟩

/-- Queries of other types are passed on, and so is everything if no hosts file is configured. -/
theorem C34_other_types {W : Type} (cfg : Cfg) (h : Hosts) (order4 order6 : List (Str × (IP × List Str)))
    (next : Resolver W) (request : Request) (q : Question) (qs : List Question)
    (hq : request.req.question = q :: qs) (w : W) :
    (q.qtype ≠ 1 → q.qtype ≠ 28 → q.qtype ≠ 12 → resolve true cfg h order4 order6 next request w = next request w) ∧
    resolve false cfg h order4 order6 next request w = next request w := by
  refine ⟨?_, rfl⟩
  intro h1 h2 h3
  simp [resolve, hq, handleReverse, Hosts.getIP, h1, h2, h3, typeA, typeAAAA, typePTR]

/-- A failed reload (a source cannot be read or has too many errors) leaves the data as they were. -/
theorem C34_failed_load (received : List Entry) (old : Hosts) : load true received old = old := rfl

/-- Which lines are used: those without interface; with the loopback filter on, not those with a
loopback address or the name localhost. -/
theorem C34_admitted (filter : Bool) (e : Entry) : admitted filter e = true ↔
    e.interface = [] ∧ (filter = true → ¬ Loopback e.ip ∧ e.name ≠ str! "localhost") := by
  unfold admitted
  rw [← isLoopback_iff, Bool.not_eq_true]
  cases hi : e.interface with
  | nil =>
    cases filter <;> simp
  | cons c cs => simp

/-! ### Where C34 fails -/

def hfCfg : Cfg := ⟨60, false⟩
def hfAsk (name : Str) (t : Nat) : Request := { req := { question := [⟨name, t, 1⟩] } }
def hfNext : Resolver Nat := fun _ w => (.err (str! "upstream"), w)

/-- **C34 is false as stated, 1.** A name written with an upper-case letter in the hosts file is never
found, however the client writes it. -/
theorem C34_upper_case_never_found {W : Type} (cfg : Cfg) (e : Entry) (c : Char) (hc : c ∈ e.name)
    (hup : c.isUpper = true) (hal : e.aliases = []) (next : Resolver W) (request : Request) (q : Question)
    (qs : List Question) (hq : request.req.question = q :: qs) (ht : q.qtype = 1 ∨ q.qtype = 28)
    (order4 order6 : List (Str × (IP × List Str))) (w : W) :
    resolve true cfg (load false [e] {}) order4 order6 next request w = next request w := by
  refine (C34_forward_partial cfg [e] {} order4 order6 next request q qs hq ht w).2 ?_
  intro e' he' ip _ hl
  rw [List.mem_singleton.1 he'] at hl
  rcases hl.2 with hn | hn
  · rw [hn] at hc
    have hlow : c ∈ lower q.name := by
      unfold extractDomain trimSuffixDot at hc
      split at hc
      · exact List.dropLast_subset _ hc
      · exact hc
    have h1 : ∀ d : Char, (lowerChar d).isUpper = false := by
      intro d
      unfold lowerChar
      have eA : 'A'.toNat = 65 := rfl
      have eZ : 'Z'.toNat = 90 := rfl
      split
      · rename_i hd
        have hv : (d.toNat + 32).isValidChar := by left; omega
        have e1 := ofNat_toNat hv
        rw [Bool.eq_false_iff]
        intro hu
        rw [Char.isUpper] at hu
        simp only [decide_eq_true_eq] at hu
        have h2 := UInt32.le_iff_toNat_le.1 hu.2
        have h3 : (Char.ofNat (d.toNat + 32)).val.toNat = d.toNat + 32 := e1
        have h4 : 'Z'.val.toNat = 90 := rfl
        omega
      · rename_i hd
        rw [Bool.eq_false_iff]
        intro hu
        rw [Char.isUpper] at hu
        simp only [decide_eq_true_eq] at hu
        exact hd ⟨UInt32.le_iff_toNat_le.1 hu.1, UInt32.le_iff_toNat_le.1 hu.2⟩
    obtain ⟨d, _, rfl⟩ := List.mem_map.1 hlow
    rw [h1 d] at hup
    cases hup
  · rw [hal] at hn
    simp at hn

/-- **C34 is false as stated, 2.** If a name is listed with two addresses, only the later one is
returned. -/
theorem C34_second_address_lost : ∃ r,
    resolve true hfCfg (load false [⟨.v4 1, [], str! "nas", []⟩, ⟨.v4 2, [], str! "nas", []⟩] {}) [] [] hfNext
      (hfAsk (str! "nas.") 1) 0 = (.ok r, 0) ∧ r.res.answer = [⟨str! "nas.", 1, 1, 60, .a (.v4 2)⟩] :=
  ⟨_, rfl, rfl⟩

/-- **C34 is false as stated, 3.** If two lines list the same address, a reverse query returns only the
names of one of them, which one depends on the map's order. -/
theorem C34_reverse_incomplete :
    ∃ o1 o2 : List (Str × (IP × List Str)), ∃ r1 r2,
      let h := load false [⟨.v4 0x0a000001#32, [], str! "nas", []⟩, ⟨.v4 0x0a000001#32, [], str! "box", []⟩] {}
      o1.Perm h.v4.hosts ∧ o2.Perm h.v4.hosts ∧
      resolve true hfCfg h o1 [] hfNext (hfAsk (str! "1.0.0.10.in-addr.arpa.") 12) 0 = (.ok r1, 0) ∧
      resolve true hfCfg h o2 [] hfNext (hfAsk (str! "1.0.0.10.in-addr.arpa.") 12) 0 = (.ok r2, 0) ∧
      r1.res.answer.map (·.data) = [.ptr (str! "nas.")] ∧ r2.res.answer.map (·.data) = [.ptr (str! "box.")] := by
  refine ⟨[(str! "nas", (.v4 0x0a000001#32, [])), (str! "box", (.v4 0x0a000001#32, []))],
    [(str! "box", (.v4 0x0a000001#32, [])), (str! "nas", (.v4 0x0a000001#32, []))], _, _, ?_, ?_, rfl, rfl, rfl, rfl⟩
  · exact List.Perm.refl _
  · exact List.Perm.swap _ _ _

-- Concrete instances of the hypotheses.
example (seen : Seen) : ∃ r ip, resolve true hfCfg (torn (load false [⟨.v4 1, [], str! "nas", []⟩] {})
      (load false [⟨.v4 2, [], str! "nas", []⟩] (load false [⟨.v4 1, [], str! "nas", []⟩] {})) seen) [] [] hfNext
      (hfAsk (str! "nas.") 1) 0 = (.ok r, 0) ∧ r.res.answer = [⟨str! "nas.", 1, 1, 60, .a ip⟩] := by
  rcases C34_during_reload_partial hfCfg [⟨.v4 1, [], str! "nas", []⟩] [⟨.v4 2, [], str! "nas", []⟩] {} seen [] [] hfNext
    (hfAsk (str! "nas.") 1) ⟨str! "nas.", 1, 1⟩ [] rfl (.inl rfl) 0 with ⟨r, ip, h1, _, _, _, _, _, h2 | h2⟩ | ⟨_, h⟩
  · exact ⟨r, ip, h1, h2.2⟩
  · exact absurd h2.1 (by decide)
  · exact absurd ⟨⟨_, List.mem_cons_self .., rfl, rfl⟩, ⟨_, List.mem_cons_self .., rfl, rfl⟩⟩ h

example : ∃ e, Current [⟨.v4 1, [], str! "a", [str! "b"]⟩, ⟨.v4 2, [], str! "a", []⟩] e ∧ e.ip = .v4 2 :=
  ⟨_, current_last [_] _, rfl⟩
example : Lists ⟨.v6 5, [], str! "a", [str! "b.lan"]⟩ (extractDomain (str! "B.Lan.")) (.v6 5) := ⟨rfl, .inr (by decide)⟩

end Verif.Props
