/-
C97: with `log.privacy`, what clients ask for does not show in the log.

Two names have the same shape if they differ in letters and digits only. Lines hide a name if they are the same for
another name of the same shape.
-/
import Verif.Model.LogLines
import Verif.Props.QueryLogFile
import Verif.Props.Blocking
import Verif.Props.CustomDns

namespace Verif.Props
open Dns QueryLogFile StringCache Blocking Http LogLines

variable {E : RegexEngine}

/-- The strings differ in letters and digits only. -/
def SameShape (s t : Str) : Prop :=
  s.length = t.length ∧ ∀ (i : Nat) c d, s[i]? = some c → t[i]? = some d → c = d ∨ LetterOrDigit c ∧ LetterOrDigit d

instance : DecidablePred LetterOrDigit := fun c => decidable_of_iff _ (isAlnum_iff c)

example : SameShape (str! "mail.example.com.") (str! "chat.example.org.") ∧ ¬ SameShape (str! "a.b.") (str! "ab..") := by
  constructor
  · refine ⟨rfl, fun i c d hc hd => ?_⟩
    have hi : i < 17 := by
      have := List.getElem?_eq_some_iff.1 hc
      exact this.1
    have : ∀ i < 17, (str! "mail.example.com.")[i]? = (str! "chat.example.org.")[i]? ∨
        ((str! "mail.example.com.")[i]?.all (fun c => decide (LetterOrDigit c)) &&
          (str! "chat.example.org.")[i]?.all (fun c => decide (LetterOrDigit c))) = true := by decide +kernel
    rcases this i hi with h | h
    · rw [hc, hd] at h
      exact .inl (by simpa using h)
    · rw [hc, hd] at h
      exact .inr (by simpa using h)
  · intro h
    have := h.2 1 '.' 'b' rfl rfl
    revert this
    decide

theorem SameShape.obf {s t : Str} (h : SameShape s t) : obfuscate true s = obfuscate true t := C50_hides s t h.1 h.2

theorem SameShape.refl (s : Str) : SameShape s s :=
  ⟨rfl, fun i c d hc hd => by rw [hc] at hd; cases hd; exact .inl rfl⟩

theorem obfuscate_append (p : Bool) (s t : Str) : obfuscate p (s ++ t) = obfuscate p s ++ obfuscate p t := by
  cases p <;> simp [obfuscate]

theorem obfuscate_joinComma (ss : List Str) : obfuscate true (joinComma ss) = joinComma (ss.map (obfuscate true)) := by
  fun_induction joinComma ss with
  | case1 => rfl
  | case2 s => rfl
  | case3 s t ss ih =>
    rw [obfuscate_append, obfuscate_append, ih]
    rfl

theorem isAlnum_lowerChar (c : Char) : isAlnum (lowerChar c) = isAlnum c := by
  unfold lowerChar
  split
  · rename_i h
    have hv : (c.toNat + 32).isValidChar := by
      left
      have : 'Z'.toNat = 90 := rfl
      omega
    have e : (Char.ofNat (c.toNat + 32)).toNat = c.toNat + 32 := by
      exact ofNat_toNat hv
    have e1 : 'a'.toNat = 97 := rfl
    have e2 : 'z'.toNat = 122 := rfl
    have e3 : 'A'.toNat = 65 := rfl
    have e4 : 'Z'.toNat = 90 := rfl
    have h1 : isAlnum (Char.ofNat (c.toNat + 32)) = true := by
      simp only [isAlnum, e, Bool.or_eq_true, Bool.and_eq_true, decide_eq_true_eq]
      omega
    have h2 : isAlnum c = true := by
      simp only [isAlnum, Bool.or_eq_true, Bool.and_eq_true, decide_eq_true_eq]
      omega
    rw [h1, h2]
  · rfl

theorem obfuscate_lower (s : Str) : obfuscate true (lower s) = obfuscate true s := by
  simp only [obfuscate, if_true, lower, List.map_map]
  apply List.map_congr_left
  intro c _
  simp only [Function.comp, isAlnum_lowerChar]
  split
  · rfl
  · rename_i h
    unfold lowerChar
    rw [if_neg]
    intro hc
    apply h
    simp only [isAlnum, Bool.or_eq_true, Bool.and_eq_true, decide_eq_true_eq]
    exact .inl (.inr hc)

theorem trimSuffixDot_eq (s : Str) : trimSuffixDot s = if s.getLast? = some '.' then s.dropLast else s := by
  unfold trimSuffixDot
  split
  · rename_i h; rw [if_pos h]
  · rename_i h; rw [if_neg h]

theorem obfuscate_trimSuffixDot (s : Str) : obfuscate true (trimSuffixDot s) = trimSuffixDot (obfuscate true s) := by
  rw [trimSuffixDot_eq, trimSuffixDot_eq]
  have hiff : (obfuscate true s).getLast? = some '.' ↔ s.getLast? = some '.' := by
    simp only [obfuscate, if_true, List.getLast?_map, Option.map_eq_some_iff]
    constructor
    · rintro ⟨c, hc, h⟩
      split at h
      · exact absurd h (by decide)
      · rw [hc, h]
    · intro h
      exact ⟨'.', h, by decide⟩
  by_cases h : s.getLast? = some '.'
  · rw [if_pos h, if_pos (hiff.2 h)]
    simp [obfuscate, List.map_dropLast]
  · rw [if_neg h, if_neg (fun h' => h (hiff.1 h'))]

theorem SameShape.domain {s t : Str} (h : SameShape s t) :
    obfuscate true (extractDomain s) = obfuscate true (extractDomain t) := by
  unfold extractDomain
  rw [obfuscate_trimSuffixDot, obfuscate_trimSuffixDot, obfuscate_lower, obfuscate_lower, h.obf]

/-- Two lists of questions for names of the same shape, with the same types. -/
inductive SameShapes : List Question → List Question → Prop where
  | nil : SameShapes [] []
  | cons {q q' : Question} {qs qs' : List Question} : SameShape q.name q'.name → q.qtype = q'.qtype → SameShapes qs qs' →
      SameShapes (q :: qs) (q' :: qs')

theorem SameShapes.text {env : LogLines.Env E} (hp : env.privacy = true) {qs qs' : List Question} (h : SameShapes qs qs') :
    questionToString env qs = questionToString env qs' := by
  unfold questionToString
  rw [hp, obfuscate_joinComma, obfuscate_joinComma]
  congr 1
  induction h with
  | nil => rfl
  | cons hs ht _ ih =>
    simp only [List.map_cons, ih, obfuscate_append, hs.obf, ht]

/-- **C97** The fields that all lines about a query have hide the names asked for. -/
theorem C97_context (env : LogLines.Env E) (hp : env.privacy = true) (id : Str) (r r' : Request)
    (h : SameShapes r.req.question r'.req.question) (hc : r.clientIP = r'.clientIP) :
    contextFields env id r = contextFields env id r' := by
  unfold contextFields
  rw [h.text hp, hc]

/-- The printed answers have the same shape. -/
def SameAnswers (env : LogLines.Env E) (a a' : List RR) : Prop :=
  SameShape (joinComma (a.map (recordText env.printer))) (joinComma (a'.map (recordText env.printer)))

theorem SameAnswers.text {env : LogLines.Env E} (hp : env.privacy = true) {a a' : List RR} (h : SameAnswers env a a') :
    answerText env a = answerText env a' := by
  unfold answerText answerToString
  rw [hp]
  exact h.obf

/-- **C97** The lines about answers from a hosts file, from the cache and from upstreams, about rewritten names and
about names that are going to be prefetched hide the names, and the answers as well. -/
theorem C97_hidden (env : LogLines.Env E) (hp : env.privacy = true) (q q' : Question) (h : SameShape q.name q'.name) :
    cachedLine env q = cachedLine env q' ∧
    (∀ cfg hosts ip ip', hosts.getIP q.qtype (extractDomain q.name) = some ip →
      hosts.getIP q'.qtype (extractDomain q'.name) = some ip' →
      SameAnswers env [HostsFile.createAnswer q ip cfg.ttl] [HostsFile.createAnswer q' ip' cfg.ttl] →
      hostsLines env cfg hosts q = hostsLines env cfg hosts q') ∧
    (∀ upstream (o o' : Outcome), (∀ x x', o = .ok x → o' = .ok x' → SameAnswers env x.res.answer x'.res.answer) →
      ((∃ x, o = .ok x) ↔ ∃ x, o' = .ok x) →
      conditionalLine env (extractDomain q.name) upstream o = conditionalLine env (extractDomain q'.name) upstream o') ∧
    (∀ others (m m' : Msg), SameAnswers env m.answer m'.answer → upstreamLine env others m = upstreamLine env others m') ∧
    (∀ upstream ip attempt e (r r' : Request), SameShapes r.req.question r'.req.question →
      retryLine env upstream ip attempt e r = retryLine env upstream ip attempt e r') := by
  refine ⟨?_, ?_, ?_, ?_, ?_⟩
  · unfold cachedLine; rw [hp, h.domain]
  · intro cfg hosts ip ip' h1 h2 ha
    unfold hostsLines
    rw [h1, h2]
    simp only
    rw [hp, h.domain, ha.text hp]
  · intro upstream o o' ha hiff
    unfold conditionalLine
    rw [hp, h.domain]
    cases o with
    | ok x =>
      obtain ⟨x', rfl⟩ := hiff.1 ⟨x, rfl⟩
      simp only
      rw [(ha x x' rfl rfl).text hp]
    | _ =>
      cases o' with
      | ok x' => obtain ⟨x, hx⟩ := hiff.2 ⟨x', rfl⟩; cases hx
      | _ => rfl
  · intro others m m' ha
    unfold upstreamLine
    rw [ha.text hp]
  · intro upstream ip attempt e r r' hr
    unfold retryLine
    rw [hr.text hp]

/-- **C97** A rewritten name shows neither before nor after rewriting. -/
theorem C97_rewritten (env : LogLines.Env E) (hp : env.privacy = true) (rules : List (Str × Str)) (q : Question) (l : Line)
    (h : l ∈ rewriteLines env rules q) :
    ∃ k v, (k, v) ∈ rules ∧ l.fields = [(str! "rewrite", obfuscate true k ++ str! ":" ++ obfuscate true v)] ∧
      l.message = str! "rewriting " ++ env.quote (obfuscate true (extractDomain q.name)) ++ str! " to " ++
        env.quote (obfuscate true (Cond.rewriteDomain rules (extractDomain q.name))) := by
  have hmem : ∀ rules d k v, ruleFor rules d = some (k, v) → (k, v) ∈ rules := by
    intro rules d k v
    induction rules with
    | nil => intro h; cases h
    | cons r rules ih =>
      obtain ⟨k', v'⟩ := r
      unfold ruleFor
      split
      · intro h; cases h; simp
      · intro h; exact List.mem_cons_of_mem _ (ih h)
  unfold rewriteLines at h
  simp only at h
  split at h
  · cases h
  · rename_i k v hr
    split at h
    · rw [List.mem_singleton] at h
      subst h
      rw [hp]
      exact ⟨k, v, hmem _ _ _ _ hr, rfl, rfl⟩
    · cases h

/-- **C97** With the default level or a higher one, a query leaves no line of blocking, custom DNS, the hosts file, the
cache, rewriting or upstreams. -/
theorem C97_quiet (level : Level) (hl : level = .info ∨ level = .warn ∨ level = .error) (env : LogLines.Env E) :
    (∀ benv b request answer, shown level (blockingLines env benv b request answer) = []) ∧
    (∀ (W : Type) cenv mapping (next : Resolver W) depth request w,
      shown level (customLines env cenv mapping next depth request w) = []) ∧
    (∀ cfg hosts q, shown level (hostsLines env cfg hosts q) = []) ∧
    (∀ q, shown level [cachedLine env q] = []) ∧
    (∀ rules q, shown level (rewriteLines env rules q) = []) ∧
    (∀ domain upstream o, shown level [conditionalLine env domain upstream o] = []) ∧
    (∀ others res, shown level [upstreamLine env others res] = []) ∧
    (∀ upstream ip attempt e request, shown level [retryLine env upstream ip attempt e request] = []) := by
  have key : ∀ lines : List Line, (∀ l ∈ lines, l.level = .debug) → shown level lines = [] := by
    intro lines h
    unfold shown
    rw [List.filter_eq_nil_iff]
    intro l hm
    rw [h l hm]
    rcases hl with rfl | rfl | rfl <;> decide
  have hmatch : ∀ groups m s, ∀ l ∈ matchLines env groups m s, l.level = .debug := by
    intro groups m s l hm
    unfold matchLines at hm
    split at hm
    · rw [List.mem_append] at hm
      rcases hm with hm | hm
      · unfold groupedLines at hm
        obtain ⟨g, -, hg⟩ := List.mem_flatMap.1 hm
        split at hg
        · simp only [regexLines] at hg
          split at hg
          · rw [List.mem_singleton] at hg; rw [hg]
          · cases hg
        · cases hg
      · unfold groupedLines at hm
        obtain ⟨g, -, hg⟩ := List.mem_flatMap.1 hm
        split at hg
        · simp only [stringLines] at hg
          split at hg
          · rw [List.mem_singleton] at hg; rw [hg]
          · cases hg
        · cases hg
    · cases hm
  have hdeny : ∀ b groups qs, ∀ l ∈ denyLines env b groups qs, l.level = .debug := by
    intro b groups qs
    induction qs with
    | nil => intro l h; cases h
    | cons q qs ih =>
      intro l h
      unfold denyLines at h
      simp only [List.mem_append] at h
      rcases h with h | h
      · exact hmatch _ _ _ l h
      · split at h
        · rw [List.mem_singleton] at h; rw [h]
        · split at h
          · rw [List.mem_singleton] at h; rw [h]; rfl
          · rw [List.mem_append] at h
            rcases h with h | h
            · exact hmatch _ _ _ l h
            · split at h
              · rw [List.mem_singleton] at h; rw [h]; rfl
              · exact ih l h
  have hans : ∀ benv b groups rrs, ∀ l ∈ answerLines env benv b groups rrs, l.level = .debug := by
    intro benv b groups rrs
    induction rrs with
    | nil => intro l h; cases h
    | cons q qs ih =>
      intro l h
      unfold answerLines at h
      simp only at h
      split at h
      · rw [List.mem_append] at h
        rcases h with h | h
        · exact hmatch _ _ _ l h
        · split at h
          · rw [List.mem_cons] at h
            rcases h with h | h
            · rw [h]
            · exact ih l h
          · rw [List.mem_append] at h
            rcases h with h | h
            · exact hmatch _ _ _ l h
            · split at h
              · rw [List.mem_singleton] at h; rw [h]; rfl
              · exact ih l h
      · exact ih l h
  refine ⟨?_, ?_, ?_, ?_, ?_, ?_, ?_, ?_⟩
  · intro benv b request answer
    apply key
    intro l h
    unfold blockingLines at h
    simp only at h
    split at h
    · rw [List.mem_append, List.mem_cons] at h
      rcases h with (h | h) | h
      · rw [h]
      · exact hdeny _ _ _ l h
      · split at h
        · exact hans _ _ _ _ l h
        · cases h
    · cases h
  · intro W cenv mapping next depth request w
    apply key
    intro l h
    unfold customLines at h
    split at h
    · cases h
    · split at h
      · cases h
      · split at h
        · split at h
          · rw [List.mem_singleton] at h; rw [h]; rfl
          · cases h
        · cases h
  · intro cfg hosts q
    apply key
    intro l h
    unfold hostsLines at h
    split at h
    · rw [List.mem_singleton] at h; rw [h]
    · cases h
  · intro q; exact key _ (fun l h => by rw [List.mem_singleton] at h; rw [h]; rfl)
  · intro rules q
    apply key
    intro l h
    unfold rewriteLines at h
    simp only at h
    split at h
    · cases h
    · split at h
      · rw [List.mem_singleton] at h; rw [h]
      · cases h
  · intro domain upstream o; exact key _ (fun l h => by rw [List.mem_singleton] at h; rw [h]; rfl)
  · intro others res; exact key _ (fun l h => by rw [List.mem_singleton] at h; rw [h]; rfl)
  · intro upstream ip attempt e request; exact key _ (fun l h => by rw [List.mem_singleton] at h; rw [h]; rfl)

/-- **C97 is false for lists**: whatever `log.privacy` says, a name that is allowed or blocked by a list is in a line of
level debug as it is. -/
theorem C97_list_shows (env : LogLines.Env E) (benv : Blocking.Env) (b : BState E) (request : Request) (q : Question)
    (hq : request.req.question = [q]) (hg : groupsToCheck benv b.cgb b.fqdnIPs b.status request ≠ [])
    (h : ∀ x, handleDenylist b (groupsToCheck benv b.cgb b.fqdnIPs b.status request) request [q] = x → x ≠ .no)
    (answer : List RR) :
    ∃ l ∈ blockingLines env benv b request answer, l.level = .debug ∧ (str! "domain", extractDomain q.name) ∈ l.fields := by
  have hlen : (groupsToCheck benv b.cgb b.fqdnIPs b.status request).length > 0 := List.length_pos_iff.2 hg
  have hx := h _ rfl
  suffices ∃ l ∈ denyLines env b (groupsToCheck benv b.cgb b.fqdnIPs b.status request) [q], l.level = .debug ∧
      (str! "domain", extractDomain q.name) ∈ l.fields by
    obtain ⟨l, hl, hp⟩ := this
    refine ⟨l, ?_, hp⟩
    unfold blockingLines
    simp only [if_pos hlen, hq]
    exact List.mem_append_left _ (List.mem_cons_of_mem _ hl)
  generalize groupsToCheck benv b.cgb b.fqdnIPs b.status request = groups at *
  unfold denyLines
  simp only
  unfold handleDenylist at hx
  split at hx
  · rename_i ha
    rw [if_pos ha]
    exact ⟨_, List.mem_append_right _ (List.mem_singleton.2 rfl), rfl, by simp⟩
  · rename_i ha
    rw [if_neg ha]
    split at hx
    · rename_i hb
      rw [if_pos hb]
      exact ⟨_, List.mem_append_right _ (List.mem_singleton.2 rfl), rfl, by simp [blockedLine]⟩
    · rename_i hb
      rw [if_neg hb]
      split at hx
      · rename_i hc
        rw [if_pos hc]
        exact ⟨_, List.mem_append_right _ (List.mem_append_right _ (List.mem_singleton.2 rfl)), rfl, by simp [blockedLine]⟩
      · exact absurd rfl hx

/-- The environment of the examples. -/
def privateEnv : LogLines.Env prefixEngine where
  privacy := true
  printer := ⟨fun _ => str! "192.0.2.1", fun _ => str! "record", id⟩
  ipString := fun _ => str! "192.0.2.7"
  typeString := fun _ => str! "A"
  quote := fun s => '"' :: s ++ str! "\""
  regexString := fun r => r

/-- **C97 is false for lists**, an example: what the log has about a blocked name, about an allowed one and about a name
whose alias is blocked. -/
theorem C97_list_false :
    blockingLines privateEnv plainEnv demoSetup.state (askFor [str! "ads.com."]) [] =
      [⟨.debug, [(str! "groupsToCheck", str! "g")], str! "checking groups for request"⟩,
       ⟨.debug, [], str! "regex 'ads' matched with 'ads.com'"⟩,
       ⟨.debug, [(str! "domain", str! "ads.com")], str! "blocking request 'BLOCKED (g)'"⟩] ∧
    blockingLines privateEnv plainEnv demoSetup.state (askFor [str! "good.com."]) [] =
      [⟨.debug, [(str! "groupsToCheck", str! "g")], str! "checking groups for request"⟩,
       ⟨.debug, [], str! "regex 'good' matched with 'good.com'"⟩,
       ⟨.debug, [(str! "domain", str! "good.com"), (str! "groups", str! "[g]")], str! "domain is allowlisted"⟩] ∧
    blockingLines privateEnv plainEnv demoSetup.state (askFor [str! "x.com."])
        [{ name := str! "x.com.", rtype := 5, ttl := 60, data := .cname (str! "ads.net.") }] =
      [⟨.debug, [(str! "groupsToCheck", str! "g")], str! "checking groups for request"⟩,
       ⟨.debug, [], str! "regex 'ads' matched with 'ads.net'"⟩,
       ⟨.debug, [(str! "response_entry", str! "ads.net")], str! "blocking request 'BLOCKED CNAME (g)'"⟩] := by
  decide +kernel

/-- **C97 is false for custom DNS**: the name found in the mapping is logged as it is. -/
theorem C97_custom_shows {W : Type} (env : LogLines.Env E) (cenv : CustomDns.Env) (mapping : CustomDns.Mapping) (next : Resolver W)
    (depth : Nat) (request : Request) (w : W) (l : Line) (h : l ∈ customLines env cenv mapping next depth request w) :
    ∃ d, (str! "domain", d) ∈ l.fields ∧ (AMap.get mapping d).isSome ∧ l.level = .debug := by
  unfold customLines at h
  split at h
  · cases h
  · split at h
    · cases h
    · rename_i d entries hw
      have hget : (AMap.get mapping d).isSome := by
        have : ∀ n s, walk (AMap.get mapping) n s = some (d, entries) → AMap.get mapping d = some entries := by
          intro n
          induction n with
          | zero => intro s h; simp [walk] at h
          | succ n ih =>
            intro s h
            unfold walk at h
            repeat' split at h
            all_goals first
              | (cases h; done)
              | (cases h; assumption)
              | exact ih _ h
        rw [this _ _ hw]; rfl
      split at h
      · split at h
        · rw [List.mem_singleton] at h
          subst h
          exact ⟨d, by simp [customLine], hget, rfl⟩
        · cases h
      · cases h

/-- An example: the answer is hidden, the name is not. -/
theorem C97_custom_false :
    customLines privateEnv cdEnv [(str! "nas.lan", [aRR 5])] cdNext 1 (cdAsk (str! "NAS.lan.") 1) 0 =
      [⟨.debug, [(str! "answer", str! "* (***.*.*.*)"), (str! "domain", str! "nas.lan")], str! "returning custom dns entry"⟩] := by
  decide +kernel

/-- **C97 is false at all levels for prefetched names**: if the query for a name in the cache fails, the name is in a
line of level error as it is. -/
theorem C97_prefetch_shows {W : Type} (env : LogLines.Env E) (cenv : Caching.Env) (next : Resolver W) (t : Nat)
    (name : Str) (w : W) (ht : t < 65536) (e : Str) (he : (next (Caching.reloadRequest cenv t (lower name)) w).1 = .err e)
    (level : Level) :
    ∃ l ∈ shown level (reloadLines env cenv next (Caching.cacheKey t name) w), l.level = .error ∧
      l.message = str! "can't prefetch '" ++ lower name ++ str! "' " ++ e := by
  have hk : Caching.extractKey (Caching.cacheKey t name) = some (t, lower name) := by
    unfold Caching.cacheKey Caching.extractKey
    have h1 : (Char.ofNat (t / 256 % 256)).toNat = t / 256 % 256 := by
      apply ofNat_toNat
      left; omega
    have h2 : (Char.ofNat (t % 256)).toNat = t % 256 := by
      apply ofNat_toNat
      left; omega
    simp only [h1, h2]
    congr 2
    omega
  unfold reloadLines
  rw [hk]
  simp only [he]
  refine ⟨_, List.mem_filter.2 ⟨List.mem_cons_of_mem _ (List.mem_singleton.2 rfl), ?_⟩, rfl, rfl⟩
  cases level <;> rfl

example : reloadLines privateEnv ⟨fun _ => true, 7⟩ (fun _ (n : Nat) => (.err (str! "timeout"), n)) (Caching.cacheKey 1 (str! "nas.lan")) 0 =
    [⟨.debug, [], str! "prefetching '***.***' (A)"⟩, ⟨.error, [], str! "can't prefetch 'nas.lan' timeout"⟩] := by
  decide +kernel

/-- **C97 is false at all levels for aliases in a circle**: a query for one of them is answered with an error that names
them, and the line about the error has it. -/
theorem C97_loop_false :
    let mapping : CustomDns.Mapping := [(str! "a.x", [cnameRR (str! "b.x.")]), (str! "b.x", [cnameRR (str! "a.x.")])]
    ∃ e, CustomDns.resolve cdEnv mapping [] cdNext 3 (cdAsk (str! "a.x.") 1) 0 = some (.err e, 0) ∧
      shown .error [errorLine e] = [⟨.error, [], str! "error on processing request:CNAME loop detected: [b.x a.x b.x]"⟩] :=
  ⟨_, rfl, by decide +kernel⟩

/-- **C97** Without `log.privacy` everything is logged as it is. -/
theorem C97_off (env : LogLines.Env E) (hp : env.privacy = false) (q : Question) :
    (str! "domain", extractDomain q.name) ∈ (cachedLine env q).fields ∧
    (∀ id request, request.req.question = [q] →
      (str! "question", env.typeString q.qtype ++ str! " (" ++ q.name ++ str! ")") ∈ contextFields env id request) ∧
    (∀ upstream o, (str! "domain", extractDomain q.name) ∈ (conditionalLine env (extractDomain q.name) upstream o).fields) ∧
    (∀ others (r : RR) ip, r.data = .a ip →
      (str! "answer", str! "A (" ++ env.printer.ip ip ++ str! ")") ∈ (upstreamLine env others { answer := [r] }).fields) := by
  refine ⟨?_, ?_, ?_, ?_⟩
  · simp [cachedLine, hp, obfuscate]
  · intro id request hq
    simp [contextFields, questionToString, hq, hp, obfuscate, joinComma]
  · intro upstream o
    simp [conditionalLine, hp, obfuscate]
  · intro others r ip hr
    simp [upstreamLine, answerText, answerToString, recordText, hp, obfuscate, joinComma, hr]

/-- **C97** The line of the query log on the console has the name and the answer as the entry has them (hidden, see C50),
and leaves out what is empty. -/
theorem C97_query_log (number : Int → Str) (e : LogEntry) (k v : Str) (h : (k, v) ∈ (queryLogLine number e).fields) :
    v ≠ [] ∧ (k = str! "question_name" → v = e.questionName) ∧ (k = str! "answer" → v = e.answer) ∧
    (queryLogLine number e).level = .info := by
  unfold queryLogLine at h
  obtain ⟨hm, hv⟩ := List.mem_filter.1 h
  refine ⟨by simpa using hv, ?_, ?_, rfl⟩
  all_goals
    intro hk
    subst hk
    simp only [List.mem_cons, List.not_mem_nil, or_false, Prod.mk.injEq, List.cons.injEq] at hm
    revert hm
    simp (decide := true)

example : rewriteLines privateEnv [(str! "lan", str! "fritz.box")] ⟨str! "nas.lan.", 1, 1⟩ =
    [⟨.debug, [(str! "rewrite", str! "***:*****.***")], str! "rewriting \"***.***\" to \"***.*****.***\""⟩] := by decide +kernel

example : (queryLogLine (fun _ => str! "12") ⟨0, str! "192.0.2.7", [str! "nas"], 12, [], [], [], str! "A", str! "***.***.", [], str! "b"⟩).fields =
    [(str! "client_ip", str! "192.0.2.7"), (str! "client_names", str! "nas"), (str! "question_name", str! "***.***."),
     (str! "question_type", str! "A"), (str! "duration_ms", str! "12"), (str! "instance", str! "b")] := by decide +kernel

/-- The levels of logrus from the most talkative one. -/
def levels : List Level := [.trace, .debug, .info, .warn, .error]

/-- **C97** A line is written if its level is the configured one or a later one in this list, and lines keep their order. -/
theorem C97_levels (i j : Nat) (a b : Level) (ha : levels[i]? = some a) (hb : levels[j]? = some b) (l : Line) (hl : l.level = b)
    (ls : List Line) : shown a (l :: ls) = if i ≤ j then l :: shown a ls else shown a ls := by
  have hi : i < 5 := (List.getElem?_eq_some_iff.1 ha).1
  have hj : j < 5 := (List.getElem?_eq_some_iff.1 hb).1
  have key : a.rank ≤ b.rank ↔ i ≤ j := by
    have hi' : i = 0 ∨ i = 1 ∨ i = 2 ∨ i = 3 ∨ i = 4 := by omega
    have hj' : j = 0 ∨ j = 1 ∨ j = 2 ∨ j = 3 ∨ j = 4 := by omega
    rcases hi' with rfl | rfl | rfl | rfl | rfl <;> rcases hj' with rfl | rfl | rfl | rfl | rfl <;> cases ha <;> cases hb <;> decide
  unfold shown
  rw [List.filter_cons]
  simp only [hl, decide_eq_true_eq, key]

example : shown .warn [⟨.info, [], str! "a"⟩, ⟨.error, [], str! "b"⟩, ⟨.warn, [], str! "c"⟩] =
    [⟨.error, [], str! "b"⟩, ⟨.warn, [], str! "c"⟩] := by decide

/-- **C97** For a client without lists blocking writes nothing. -/
theorem C97_no_groups (env : LogLines.Env E) (benv : Blocking.Env) (b : BState E) (request : Request)
    (hg : groupsToCheck benv b.cgb b.fqdnIPs b.status request = []) (answer : List RR) :
    blockingLines env benv b request answer = [] := by
  simp [blockingLines, hg]

/-- **C97 is false for answers**: an address or alias in an answer that is in an allowlist is in a line of level debug as it
is (those in a denylist: `C97_list_false`). -/
theorem C97_answer_shows (env : LogLines.Env E) (benv : Blocking.Env) (b : BState E) (groups : List Str) (rr : RR) (rrs : List RR)
    (he : (extractEntry benv rr).1 ≠ []) (h : «matches» groups b.allow (extractEntry benv rr).1 ≠ []) :
    ∃ l ∈ answerLines env benv b groups (rr :: rrs), l.level = .debug ∧
      (str! "response_entry", (extractEntry benv rr).1) ∈ l.fields ∧
      l.message = (extractEntry benv rr).2 ++ str! " is allowlisted" := by
  have h1 := List.length_pos_iff.2 he
  have h2 := List.length_pos_iff.2 h
  refine ⟨{ level := .debug
            fields := [(str! "response_entry", (extractEntry benv rr).1)] ++
              [(str! "groups", sliceText («matches» groups b.allow (extractEntry benv rr).1))]
            message := (extractEntry benv rr).2 ++ str! " is allowlisted" }, ?_, rfl, by simp, rfl⟩
  rw [answerLines]
  simp only [gt_iff_lt, h1, h2, if_true]
  exact List.mem_append_right _ List.mem_cons_self

example : answerLines privateEnv plainEnv demoSetup.state [str! "g"]
    [{ name := str! "x.com.", rtype := 5, ttl := 60, data := .cname (str! "good.net.") },
     { name := str! "good.net.", rtype := 5, ttl := 60, data := .cname (str! "ads.net.") }] =
    [⟨.debug, [], str! "regex 'good' matched with 'good.net'"⟩,
     ⟨.debug, [(str! "response_entry", str! "good.net"), (str! "groups", str! "[g]")], str! "CNAME is allowlisted"⟩,
     ⟨.debug, [], str! "regex 'ads' matched with 'ads.net'"⟩,
     ⟨.debug, [(str! "response_entry", str! "ads.net")], str! "blocking request 'BLOCKED CNAME (g)'"⟩] := by decide +kernel

/-- **C97** The line about an expression names the first one of the list that matches. -/
theorem C97_regex_line (env : LogLines.Env E) (before : List E.Regex) (r : E.Regex) (behind : List E.Regex) (s : Str)
    (hb : ∀ x ∈ before, E.isMatch x s = false) (hr : E.isMatch r s = true) :
    regexLines env (before ++ r :: behind) s =
      [⟨.debug, [], str! "regex '" ++ env.regexString r ++ str! "' matched with '" ++ s ++ str! "'"⟩] := by
  have : (before ++ r :: behind).find? (fun x => E.isMatch x s) = some r := by
    rw [List.find?_append, List.find?_eq_none.2 (by intro x hx; simp [hb x hx])]
    simp [hr]
  simp only [regexLines, this]

end Verif.Props
