/-
C31, C32, C54: custom DNS.
-/
import Verif.Model.CustomDns
import Verif.Model.Conditional
import Verif.Base.ListLemmas

namespace Verif.Props
open Dns CustomDns Spec

variable {W : Type}

/-! ### C31 -/

/-- The target of an alias record, without final dot. -/
def aliasTarget (e : RR) : Option Str :=
  match e.data with
  | .cname t => some (trimSuffixDot t)
  | _ => none

/-- All alias targets of a configuration. -/
def aliases (mapping : Mapping) : List Str := (mapping.map Prod.snd).flatten.filterMap aliasTarget

/-- A recursion that answers at least where another one does, with the same result. -/
def Extends (f g : Request → List Str → W → Option (Outcome × W)) : Prop :=
  ∀ request resolved w x, f request resolved w = some x → g request resolved w = some x

theorem processEntry_extends {env : Env} {f g : Request → List Str → W → Option (Outcome × W)}
    (h : Extends f g) (request : Request) (resolved : List Str) (q : Question) (e : RR) (w : W) (x : Entry × W)
    (hf : processEntry env f request resolved q e w = some x) :
    processEntry env g request resolved q e w = some x := by
  unfold processEntry at hf ⊢
  split
  · simpa [*] using hf
  · simpa [*] using hf
  · rename_i t ht
    simp only [ht] at hf
    unfold processCNAME at hf ⊢
    simp only at hf ⊢
    split
    · rename_i hc
      rw [if_pos hc] at hf
      exact hf
    · rename_i hc
      rw [if_neg hc] at hf
      split
      · rename_i hr
        rw [if_pos hr] at hf
        exact hf
      · rename_i hr
        rw [if_neg hr] at hf
        cases hrec : f (targetRequest env request (trimSuffixDot t) q.qtype (resolved ++ [trimSuffixDot t]))
            (resolved ++ [trimSuffixDot t]) w with
        | none => rw [hrec] at hf; cases hf
        | some y =>
          rw [h _ _ _ _ hrec]
          rw [hrec] at hf
          exact hf
  · simpa [*] using hf

theorem processEntries_extends {env : Env} {f g : Request → List Str → W → Option (Outcome × W)}
    (h : Extends f g) (request : Request) (resolved : List Str) (q : Question) (es acc : List RR) (w : W)
    (x : Entry × W) (hf : processEntries env f request resolved q es acc w = some x) :
    processEntries env g request resolved q es acc w = some x := by
  induction es generalizing acc w with
  | nil => exact hf
  | cons e es ih =>
    unfold processEntries at hf ⊢
    cases he : processEntry env f request resolved q e w with
    | none => rw [he] at hf; cases hf
    | some y =>
      rw [processEntry_extends h _ _ _ _ _ _ he]
      rw [he] at hf
      obtain ⟨y, w'⟩ := y
      cases y with
      | ok rrs => exact ih _ _ hf
      | err e => exact hf
      | panic => exact hf

theorem processRequest_succ (env : Env) (mapping : Mapping) (next : Resolver W) (d : Nat) :
    Extends (processRequest env mapping next d) (processRequest env mapping next (d + 1)) := by
  induction d with
  | zero => intro request resolved w x h; cases h
  | succ d ih =>
    intro request resolved w x h
    rw [processRequest] at h ⊢
    cases hq : request.req.question with
    | nil => simpa [hq] using h
    | cons q qs =>
      simp only [hq] at h ⊢
      cases hw : walk (AMap.get mapping) ((extractDomain q.name).length + 1) (extractDomain q.name) with
      | none => simpa [hw] using h
      | some z =>
        simp only [hw] at h ⊢
        cases he : processEntries env (processRequest env mapping next d) request resolved q z.2 [] w with
        | none => rw [he] at h; cases h
        | some y =>
          rw [processEntries_extends ih _ _ _ _ _ _ _ he]
          rw [he] at h
          exact h

theorem mem_aliases {mapping : Mapping} {z : Str} {es : List RR} {e : RR} {t : Str}
    (hg : AMap.get mapping z = some es) (he : e ∈ es) (ht : e.data = .cname t) :
    trimSuffixDot t ∈ aliases mapping := by
  unfold aliases
  rw [List.mem_filterMap]
  refine ⟨e, ?_, by simp [aliasTarget, ht]⟩
  rw [List.mem_flatten]
  exact ⟨es, List.mem_map.2 ⟨(z, es), AMap.get_eq_some_mem hg, rfl⟩, he⟩

/-- The recursion never needs more depth than there are aliases left to follow. -/
theorem depth_suffices (env : Env) (mapping : Mapping) (next : Resolver W) (d : Nat) (request : Request)
    (resolved : List Str) (w : W) (hnd : resolved.Nodup) (hsub : ∀ t ∈ resolved, t ∈ aliases mapping)
    (hd : (aliases mapping).length < d + resolved.length) :
    processRequest env mapping next d request resolved w ≠ none := by
  induction d generalizing request resolved w with
  | zero =>
    have := nodup_length_le hnd hsub
    omega
  | succ d ih =>
    rw [processRequest]
    cases hq : request.req.question with
    | nil => simp
    | cons q qs =>
      simp only
      cases hw : walk (AMap.get mapping) ((extractDomain q.name).length + 1) (extractDomain q.name) with
      | none => simp
      | some z =>
        obtain ⟨z, entries⟩ := z
        simp only
        have hg := (walk_some hw).2.2.1
        have key : ∀ (es acc : List RR) (w : W), (∀ e ∈ es, e ∈ entries) →
            processEntries env (processRequest env mapping next d) request resolved q es acc w ≠ none := by
          intro es
          induction es with
          | nil => intro acc w _; simp [processEntries]
          | cons e es ihe =>
            intro acc w hsubs
            have he : processEntry env (processRequest env mapping next d) request resolved q e w ≠ none := by
              unfold processEntry
              split
              · simp
              · simp
              · rename_i t ht
                unfold processCNAME
                simp only
                split
                · simp
                · split
                  · simp
                  · rename_i hr
                    have hnotin : trimSuffixDot t ∉ resolved := by simpa using hr
                    have := ih (targetRequest env request (trimSuffixDot t) q.qtype (resolved ++ [trimSuffixDot t]))
                      (resolved ++ [trimSuffixDot t]) w
                      (by
                        rw [List.nodup_append]
                        refine ⟨hnd, by simp, ?_⟩
                        intro a ha b hb
                        rw [List.mem_singleton.1 hb]
                        rintro rfl
                        exact hnotin ha)
                      (by
                        intro x hx
                        rcases List.mem_append.1 hx with hx | hx
                        · exact hsub x hx
                        · rw [List.mem_singleton.1 hx]
                          exact mem_aliases hg (hsubs e (by simp)) ht)
                      (by simp; omega)
                    cases hrec : processRequest env mapping next d
                        (targetRequest env request (trimSuffixDot t) q.qtype (resolved ++ [trimSuffixDot t]))
                        (resolved ++ [trimSuffixDot t]) w with
                    | none => exact absurd hrec this
                    | some y =>
                      obtain ⟨o, w'⟩ := y
                      cases o <;> simp
              · split <;> simp
            unfold processEntries
            cases hy : processEntry env (processRequest env mapping next d) request resolved q e w with
            | none => exact absurd hy he
            | some y =>
              obtain ⟨y, w'⟩ := y
              cases y with
              | ok rrs => exact ihe _ _ (fun e' he' => hsubs e' (by simp [he']))
              | err e => simp
              | panic => simp
        have := key entries [] w (fun e he => he)
        cases hy : processEntries env (processRequest env mapping next d) request resolved q entries [] w with
        | none => exact absurd hy this
        | some y =>
          obtain ⟨y, w'⟩ := y
          cases y with
          | ok rrs =>
            simp only
            split
            · simp
            · split <;> simp
          | err e => simp
          | panic => simp

/-- **C31, termination.** Whatever is configured (cyclic aliases or not), whatever is asked and
whatever the rest of the chain does: the recursion ends. A depth of one more than the number of
configured aliases is enough, and the result does not depend on the bound. -/
theorem C31_terminates (env : Env) (mapping : Mapping) (reverse : AMap Str (List Str)) (next : Resolver W)
    (request : Request) (w : W) :
    ∃ result, ∀ depth, (aliases mapping).length < depth →
      CustomDns.resolve env mapping reverse next depth request w = some result := by
  have hstart : ∃ r, processRequest env mapping next ((aliases mapping).length + 1) request [] w = some r := by
    have := depth_suffices env mapping next ((aliases mapping).length + 1) request [] w
      (by simp) (by simp) (by simp)
    cases h : processRequest env mapping next ((aliases mapping).length + 1) request [] w with
    | none => exact absurd h this
    | some r => exact ⟨r, rfl⟩
  obtain ⟨r, hr⟩ := hstart
  have hall : ∀ depth, (aliases mapping).length < depth →
      processRequest env mapping next depth request [] w = some r := by
    intro depth hd
    obtain ⟨k, rfl⟩ : ∃ k, depth = (aliases mapping).length + 1 + k :=
      ⟨depth - ((aliases mapping).length + 1), by omega⟩
    clear hd
    induction k with
    | zero => exact hr
    | succ k ih => exact processRequest_succ env mapping next _ _ _ _ _ ih
  unfold CustomDns.resolve
  cases request.req.question with
  | nil => exact ⟨_, fun _ _ => rfl⟩
  | cons q qs =>
    simp only
    cases handleReverse env reverse request q with
    | some x => exact ⟨_, fun _ _ => rfl⟩
    | none => exact ⟨r, hall⟩

/-- The name asked for when following an alias: the target of an alias record of the most specific
configured name. -/
def AliasStep (mapping : Mapping) (name name' : Str) : Prop :=
  ∃ z es e t, Longest (fun z => z ≠ [] ∧ (AMap.get mapping z).isSome) name z ∧ AMap.get mapping z = some es ∧
    e ∈ es ∧ e.data = .cname t ∧ name' = extractDomain (fqdn (trimSuffixDot t))

theorem processEntries_ok_mem {env : Env} {f : Request → List Str → W → Option (Outcome × W)} {request : Request}
    {resolved : List Str} {q : Question} {es acc : List RR} {w : W} {rrs : List RR} {w' : W}
    (h : processEntries env f request resolved q es acc w = some (.ok rrs, w')) :
    ∀ e ∈ es, ∃ w1 r w2, processEntry env f request resolved q e w1 = some (.ok r, w2) := by
  induction es generalizing acc w with
  | nil => simp
  | cons e es ih =>
    unfold processEntries at h
    cases he : processEntry env f request resolved q e w with
    | none => rw [he] at h; cases h
    | some y =>
      obtain ⟨y, w1⟩ := y
      rw [he] at h
      cases y with
      | ok r =>
        intro e' he'
        rcases List.mem_cons.1 he' with rfl | he'
        · exact ⟨w, r, w1, he⟩
        · exact ih h e' he'
      | err e => simp at h
      | panic => simp at h

/-- **C31, loops.** If following aliases from the asked name can go on for ever, the query (of a type
other than CNAME) is not answered: the outcome is an error, or a panic that the rest of the chain
caused. -/
theorem C31_loop_is_error (env : Env) (mapping : Mapping) (next : Resolver W) (depth : Nat) (path : Nat → Str)
    (hpath : ∀ i, AliasStep mapping (path i) (path (i + 1))) (request : Request) (q : Question)
    (qs : List Question) (hq : request.req.question = q :: qs) (hname : extractDomain q.name = path 0)
    (htype : q.qtype ≠ 5) (resolved : List Str) (w : W) (o : Outcome) (w' : W)
    (h : processRequest env mapping next depth request resolved w = some (o, w')) :
    (∃ e, o = .err e) ∨ o = .panic := by
  induction depth generalizing path request q qs resolved w o w' with
  | zero => cases h
  | succ d ih =>
    rw [processRequest] at h
    simp only [hq] at h
    obtain ⟨z, es, e, t, hz, hg, he, ht, hn⟩ := hpath 0
    have hw : walk (AMap.get mapping) ((extractDomain q.name).length + 1) (extractDomain q.name) = some (z, es) :=
      (walk_spec _ _ _ (by omega) z es).2 ⟨by rw [hname]; exact hz, hg⟩
    simp only [hw] at h
    cases hy : processEntries env (processRequest env mapping next d) request resolved q es [] w with
    | none => rw [hy] at h; cases h
    | some y =>
      obtain ⟨y, w1⟩ := y
      rw [hy] at h
      cases y with
      | err e => simp at h; exact .inl ⟨e, h.1.symm⟩
      | panic => simp at h; exact .inr h.1.symm
      | ok rrs =>
        exfalso
        obtain ⟨w2, r, w3, hr⟩ := processEntries_ok_mem hy e he
        unfold processEntry at hr
        simp only [ht] at hr
        unfold processCNAME at hr
        simp only at hr
        rw [if_neg (by simpa [typeCNAME] using htype)] at hr
        split at hr
        · simp at hr
        · cases hrec : processRequest env mapping next d
              (targetRequest env request (trimSuffixDot t) q.qtype (resolved ++ [trimSuffixDot t]))
              (resolved ++ [trimSuffixDot t]) w2 with
          | none => rw [hrec] at hr; cases hr
          | some y =>
            obtain ⟨o', w4⟩ := y
            rw [hrec] at hr
            have := ih (fun i => path (i + 1)) (fun i => hpath (i + 1))
              (targetRequest env request (trimSuffixDot t) q.qtype (resolved ++ [trimSuffixDot t]))
              { name := fqdn (trimSuffixDot t), qtype := q.qtype } [] rfl (by rw [hn]) htype _ _ _ _ hrec
            rcases this with ⟨e', rfl⟩ | rfl
            · simp at hr
            · simp at hr

/-- **C31, no crash.** If the rest of the chain always answers or returns an error, so does custom DNS:
it never panics, whatever is configured. -/
theorem C31_no_crash (env : Env) (mapping : Mapping) (next : Resolver W)
    (hnext : ∀ request w, (next request w).1 ≠ .panic ∧ (next request w).1 ≠ .noResponse) (depth : Nat)
    (request : Request) (hq : request.req.question ≠ []) (resolved : List Str) (w : W) (o : Outcome) (w' : W)
    (h : processRequest env mapping next depth request resolved w = some (o, w')) :
    o ≠ .panic ∧ o ≠ .noResponse := by
  induction depth generalizing request resolved w o w' with
  | zero => cases h
  | succ d ih =>
    rw [processRequest] at h
    cases hqq : request.req.question with
    | nil => exact absurd hqq hq
    | cons q qs =>
      simp only [hqq] at h
      cases hw : walk (AMap.get mapping) ((extractDomain q.name).length + 1) (extractDomain q.name) with
      | none =>
        simp only [hw, Option.some.injEq] at h
        have := hnext request w
        rw [h] at this
        exact this
      | some z =>
        simp only [hw] at h
        have key : ∀ (es acc : List RR) (w : W) x,
            processEntries env (processRequest env mapping next d) request resolved q es acc w = some x →
            x.1 ≠ .panic := by
          intro es
          induction es with
          | nil => intro acc w x hx; simp [processEntries] at hx; rw [← hx]; simp
          | cons e es ihe =>
            intro acc w x hx
            unfold processEntries at hx
            have he : ∀ y, processEntry env (processRequest env mapping next d) request resolved q e w = some y →
                y.1 ≠ .panic := by
              intro y hy
              unfold processEntry at hy
              split at hy
              · simp at hy; rw [← hy]; simp
              · simp at hy; rw [← hy]; simp
              · unfold processCNAME at hy
                simp only at hy
                split at hy
                · simp at hy; rw [← hy]; simp
                · split at hy
                  · simp at hy; rw [← hy]; simp
                  · rename_i t _ _ _
                    cases hrec : processRequest env mapping next d
                        (targetRequest env request (trimSuffixDot t) q.qtype (resolved ++ [trimSuffixDot t]))
                        (resolved ++ [trimSuffixDot t]) w with
                    | none => rw [hrec] at hy; cases hy
                    | some u =>
                      obtain ⟨o', w2⟩ := u
                      have := ih _ (by simp [targetRequest, newMsgWithQuestion]) _ _ _ _ hrec
                      rw [hrec] at hy
                      cases o' with
                      | ok r => simp at hy; rw [← hy]; simp
                      | noResponse => exact absurd rfl this.2
                      | err e => simp at hy; rw [← hy]; simp
                      | panic => exact absurd rfl this.1
              · split at hy
                · simp at hy; rw [← hy]; simp
                · simp at hy; rw [← hy]; simp
            cases hy : processEntry env (processRequest env mapping next d) request resolved q e w with
            | none => rw [hy] at hx; cases hx
            | some y =>
              have hne := he y hy
              rw [hy] at hx
              obtain ⟨y, w1⟩ := y
              cases y with
              | ok rrs => exact ihe _ _ _ hx
              | err e => simp at hx; rw [← hx]; simp
              | panic => exact absurd rfl hne
        cases hy : processEntries env (processRequest env mapping next d) request resolved q z.2 [] w with
        | none => rw [hy] at h; cases h
        | some y =>
          have hne := key _ _ _ _ hy
          rw [hy] at h
          obtain ⟨y, w1⟩ := y
          cases y with
          | ok rrs =>
            simp only at h
            split at h
            · simp at h; rw [← h.1]; simp
            · split at h
              · simp only [Option.some.injEq] at h
                have := hnext request w1
                rw [h] at this
                exact this
              · simp at h; rw [← h.1]; simp
          | err e => simp at h; rw [← h.1]; simp
          | panic => exact absurd rfl hne

/-- Environment, records and next resolver for the examples. -/
def cdEnv : Env := ⟨true, 3600, fun _ => str! "x.in-addr.arpa.", fun _ => 7⟩
def cnameRR (t : Str) : RR := { name := [], rtype := 5, ttl := 60, data := .cname t }
def aRR (a : BitVec 32) : RR := { name := [], rtype := 1, ttl := 60, data := .a (.v4 a) }
def cdNext : Resolver Nat := fun request w => (.ok { res := ({} : Msg).setReply request.req }, w + 1)
def cdAsk (name : Str) (t : Nat) : Request := { req := { question := [⟨name, t, 1⟩] } }

/-- A cycle of two aliases: an infinite path exists, and the query ends in an error. -/
example : ∀ i, AliasStep [(str! "a.x", [cnameRR (str! "b.x.")]), (str! "b.x", [cnameRR (str! "A.x.")])]
    (if i % 2 = 0 then str! "a.x" else str! "b.x") (if (i + 1) % 2 = 0 then str! "a.x" else str! "b.x") := by
  have key : ∀ (m : Mapping) (z : Str) (es : List RR) (v : Str), z ≠ [] → AMap.get m z = some es →
      Longest (fun z => z ≠ [] ∧ (AMap.get m z).isSome) z z := by
    intro m z es v hz hg
    exact ⟨.inl rfl, ⟨hz, by simp [hg]⟩, fun z' hz' _ => InZone.length hz'⟩
  intro i
  rcases Nat.mod_two_eq_zero_or_one i with h | h
  · rw [if_pos h, if_neg (by omega)]
    exact ⟨str! "a.x", _, cnameRR (str! "b.x."), str! "b.x.", key _ _ _ [] (by decide) rfl, rfl, by simp, rfl, rfl⟩
  · rw [if_neg (by omega), if_pos (by omega)]
    exact ⟨str! "b.x", _, cnameRR (str! "A.x."), str! "A.x.", key _ _ _ [] (by decide) rfl, rfl, by simp, rfl, rfl⟩

example : CustomDns.resolve cdEnv [(str! "a.x", [cnameRR (str! "b.x.")]), (str! "b.x", [cnameRR (str! "A.x.")])] []
    cdNext 3 (cdAsk (str! "a.x.") 1) 0 = some (.err (str! "CNAME loop detected: [b.x A.x b.x]"), 0) := by decide

/-! ### C32 -/

/-- The records' types, from the kind of data. -/
def kindOf (e : RR) : Nat :=
  match e.data with
  | .a _ => 1
  | .aaaa _ => 28
  | .cname _ => 5
  | _ => e.rtype

/-- An ordinary record: an IPv4 or IPv6 address of the right kind, a text or a service record. -/
def Ordinary (e : RR) : Prop :=
  (∃ a, e.data = .a (.v4 a)) ∨ (∃ a, e.data = .aaaa (.v6 a)) ∨
    (∃ raw, e.data = .other raw ∧ (e.rtype = 16 ∨ e.rtype = 33))

/-- The configured records of the asked type, as answers to the question. -/
def configuredAnswers (q : Question) (es : List RR) : List RR :=
  (es.filter (fun e => kindOf e = q.qtype)).map
    (fun e => { name := q.name, rtype := q.qtype, cls := 1, ttl := e.ttl, data := e.data })

theorem processEntries_ordinary (env : Env) (f : Request → List Str → W → Option (Outcome × W)) (request : Request)
    (resolved : List Str) (q : Question) (es acc : List RR) (w : W) (h : ∀ e ∈ es, Ordinary e) :
    processEntries env f request resolved q es acc w = some (.ok (acc ++ configuredAnswers q es), w) := by
  induction es generalizing acc with
  | nil => simp [processEntries, configuredAnswers]
  | cons e es ih =>
    have he : processEntry env f request resolved q e w = some (.ok (configuredAnswers q [e]), w) := by
      rcases h e (by simp) with ⟨a, ha⟩ | ⟨a, ha⟩ | ⟨raw, ha, ht⟩
      · simp only [processEntry, ha, processIP, isSupportedType, createAnswer, configuredAnswers, kindOf, typeA]
        by_cases h1 : q.qtype = 1 <;> simp [h1, ha, Ne.symm]
      · simp only [processEntry, ha, processIP, isSupportedType, createAnswer, configuredAnswers, kindOf, typeA, typeAAAA]
        by_cases h1 : q.qtype = 28 <;> simp [h1, ha]
        simp [Ne.symm h1]
      · have hte : e.rtype = typeTXT ∨ e.rtype = typeSRV := ht
        simp only [processEntry, ha, if_pos hte, processPlain, configuredAnswers]
        by_cases h1 : q.qtype = e.rtype
        · simp [h1, kindOf, ha]
        · simp [h1, kindOf, ha, Ne.symm h1]
    unfold processEntries
    rw [he]
    simp only
    rw [ih _ (fun e' he' => h e' (by simp [he']))]
    congr 3
    rw [List.append_assoc]
    congr 1
    simp only [configuredAnswers]
    rw [← List.map_append, ← List.filter_append]
    rfl

/-- **C32 for ordinary records.** A query is answered with exactly the configured records of the asked
type of the most specific configured name it lies in; if there are none, with an empty success or
(option off) by the rest of the chain, to which names without configured zone are passed as well. -/
theorem C32_exact_partial (env : Env) (mapping : Mapping) (reverse : AMap Str (List Str)) (next : Resolver W)
    (depth : Nat) (hd : 0 < depth) (request : Request) (q : Question) (qs : List Question)
    (hq : request.req.question = q :: qs) (hrev : q.qtype = 12 → AMap.get reverse q.name = none) (w : W) :
    let result := CustomDns.resolve env mapping reverse next depth request w
    (∀ z es, Longest (fun z => z ≠ [] ∧ (AMap.get mapping z).isSome) (extractDomain q.name) z →
      AMap.get mapping z = some es → (∀ e ∈ es, Ordinary e) →
      (configuredAnswers q es ≠ [] ∨ env.filterUnmappedTypes = true →
        ∃ r, result = some (.ok r, w) ∧ r.rtype = .customdns ∧ r.res.answer = configuredAnswers q es ∧
          r.res.rcode = 0 ∧ r.res.question = [q] ∧ r.res.id = request.req.id) ∧
      (configuredAnswers q es = [] → env.filterUnmappedTypes = false → result = some (next request w))) ∧
    ((∀ z, InZone (extractDomain q.name) z → z ≠ [] → AMap.get mapping z = none) →
      result = some (next request w)) := by
  obtain ⟨d, rfl⟩ : ∃ d, depth = d + 1 := ⟨depth - 1, by omega⟩
  have hres : CustomDns.resolve env mapping reverse next (d + 1) request w =
      processRequest env mapping next (d + 1) request [] w := by
    unfold CustomDns.resolve
    simp only [hq]
    have : handleReverse env reverse request q = none := by
      unfold handleReverse
      split
      · rename_i h
        rw [hrev h]
      · rfl
    rw [this]
  simp only [hres]
  constructor
  · intro z es hz hg hord
    have hw : walk (AMap.get mapping) ((extractDomain q.name).length + 1) (extractDomain q.name) = some (z, es) :=
      (walk_spec _ _ _ (by omega) z es).2 ⟨hz, hg⟩
    have hrun : processRequest env mapping next (d + 1) request [] w =
        (if (configuredAnswers q es).length > 0 then some (.ok (respond request (configuredAnswers q es)), w)
          else if (!env.filterUnmappedTypes) = true then some (next request w)
          else some (.ok (respond request []), w)) := by
      rw [processRequest]
      simp only [hq, hw]
      rw [processEntries_ordinary env _ request [] q es [] w hord]
      simp
    have hresp : ∀ rrs, (respond request rrs).rtype = .customdns ∧ (respond request rrs).res.answer = rrs ∧
        (respond request rrs).res.rcode = 0 ∧ (respond request rrs).res.question = [q] ∧
        (respond request rrs).res.id = request.req.id := by
      intro rrs
      simp [respond, Msg.setReply, hq, rcodeSuccess]
    constructor
    · intro h
      rw [hrun]
      by_cases hl : (configuredAnswers q es).length > 0
      · rw [if_pos hl]
        exact ⟨_, rfl, hresp _⟩
      · have hnil : configuredAnswers q es = [] := by
          cases hc : configuredAnswers q es with
          | nil => rfl
          | cons a as => rw [hc] at hl; simp at hl
        rw [if_neg hl]
        rcases h with h | h
        · exact absurd hnil h
        · rw [if_neg (by simp [h]), hnil]
          exact ⟨_, rfl, hresp []⟩
    · intro hnil hf
      rw [hrun, hnil]
      simp [hf]
  · intro hnone
    have hw := (walk_eq_none (AMap.get mapping) ((extractDomain q.name).length + 1) (extractDomain q.name) (by omega)).2 hnone
    rw [processRequest]
    simp only [hq, hw]

/-- **C32, aliases.** A name that is an alias (its only record) is answered, for other types than CNAME,
with the alias record followed by the answer for the target; for type CNAME with the alias record
alone. -/
theorem C32_alias (env : Env) (mapping : Mapping) (next : Resolver W) (d : Nat)
    (request : Request) (q : Question) (qs : List Question) (hq : request.req.question = q :: qs)
    (resolved : List Str) (w : W) (z t : Str) (e : RR) (he : e.data = .cname t)
    (hz : Longest (fun z => z ≠ [] ∧ (AMap.get mapping z).isSome) (extractDomain q.name) z)
    (hg : AMap.get mapping z = some [e]) :
    let cname : RR := ⟨q.name, 5, 1, e.ttl, .cname (fqdn t)⟩
    (q.qtype = 5 → ∃ r, processRequest env mapping next (d + 1) request resolved w = some (.ok r, w) ∧
      r.res.answer = [cname]) ∧
    (q.qtype ≠ 5 → trimSuffixDot t ∉ resolved → ∀ r' w',
      processRequest env mapping next d
        { clientIP := request.clientIP, requestClientID := request.requestClientID,
          req := newMsgWithQuestion (env.newId (resolved ++ [trimSuffixDot t])) (trimSuffixDot t) q.qtype, internal := true }
        (resolved ++ [trimSuffixDot t]) w = some (.ok r', w') →
      ∃ r, processRequest env mapping next (d + 1) request resolved w = some (.ok r, w') ∧
        r.res.answer = cname :: r'.res.answer ∧ r.rtype = .customdns) := by
  have hw : walk (AMap.get mapping) ((extractDomain q.name).length + 1) (extractDomain q.name) = some (z, [e]) :=
    (walk_spec _ _ _ (by omega) z [e]).2 ⟨hz, hg⟩
  simp only
  constructor
  · intro h5
    refine ⟨respond request [⟨q.name, 5, 1, e.ttl, .cname (fqdn t)⟩], ?_, rfl⟩
    rw [processRequest]
    simp only [hq, hw]
    simp [processEntries, processEntry, he, processCNAME, h5, typeCNAME]
  · intro h5 hnot r' w' hrec
    refine ⟨respond request (⟨q.name, 5, 1, e.ttl, .cname (fqdn t)⟩ :: r'.res.answer), ?_, rfl, rfl⟩
    rw [processRequest]
    simp only [hq, hw]
    have : targetRequest env request (trimSuffixDot t) q.qtype (resolved ++ [trimSuffixDot t]) =
        { clientIP := request.clientIP, requestClientID := request.requestClientID,
          req := newMsgWithQuestion (env.newId (resolved ++ [trimSuffixDot t])) (trimSuffixDot t) q.qtype, internal := true } := rfl
    rw [← this] at hrec
    have hc : resolved.contains (trimSuffixDot t) = false := by simpa using hnot
    simp [processEntries, processEntry, he, processCNAME, h5, typeCNAME, hnot, hrec]

/-- **C32, the configuration.** The records in use for a name: those of the zone if the zone has the name,
otherwise those of the simple mapping with the configured TTL (names compared without case and final
dot; in every order of the configured maps). -/
theorem C32_configured_records (ttl : UInt32) (mapping zone : List (Str × List RR)) (n : Str) :
    (∃ x ∈ zone, extractDomain x.1 = n ∧ AMap.get (dnsRecords ttl mapping zone) n = some x.2) ∨
    ((∀ x ∈ zone, extractDomain x.1 ≠ n) ∧ ∃ x ∈ mapping, extractDomain x.1 = n ∧
      AMap.get (dnsRecords ttl mapping zone) n = some (x.2.map (fun e => { e with ttl := ttl }))) ∨
    ((∀ x ∈ zone, extractDomain x.1 ≠ n) ∧ (∀ x ∈ mapping, extractDomain x.1 ≠ n) ∧
      AMap.get (dnsRecords ttl mapping zone) n = none) := by
  have hzone : ∀ (zone : List (Str × List RR)) (m : Mapping),
      (∃ x ∈ zone, extractDomain x.1 = n ∧ AMap.get (addZone zone m) n = some x.2) ∨
      ((∀ x ∈ zone, extractDomain x.1 ≠ n) ∧ AMap.get (addZone zone m) n = AMap.get m n) := by
    intro zone
    induction zone with
    | nil => intro m; exact .inr ⟨by simp, rfl⟩
    | cons x zone ih =>
      intro m
      obtain ⟨url, es⟩ := x
      rcases ih (m.put (extractDomain url) es) with ⟨y, hy, h1, h2⟩ | ⟨h1, h2⟩
      · exact .inl ⟨y, by simp [hy], h1, h2⟩
      · by_cases hn : extractDomain url = n
        · left
          refine ⟨(url, es), by simp, hn, ?_⟩
          show AMap.get (addZone zone (m.put (extractDomain url) es)) n = _
          rw [h2, hn, AMap.get_put_self]
        · right
          refine ⟨?_, ?_⟩
          · intro y hy
            rcases List.mem_cons.1 hy with rfl | hy
            · exact hn
            · exact h1 y hy
          · show AMap.get (addZone zone (m.put (extractDomain url) es)) n = _
            rw [h2, AMap.get_put_ne m es hn]
  have hmap : ∀ (mapping : List (Str × List RR)) (m : Mapping),
      (∃ x ∈ mapping, extractDomain x.1 = n ∧
        AMap.get (addMapping ttl mapping m) n = some (x.2.map (fun e => { e with ttl := ttl }))) ∨
      ((∀ x ∈ mapping, extractDomain x.1 ≠ n) ∧ AMap.get (addMapping ttl mapping m) n = AMap.get m n) := by
    intro mapping
    induction mapping with
    | nil => intro m; exact .inr ⟨by simp, rfl⟩
    | cons x mapping ih =>
      intro m
      obtain ⟨url, es⟩ := x
      rcases ih (m.put (extractDomain url) (es.map (fun e => { e with ttl := ttl }))) with ⟨y, hy, h1, h2⟩ | ⟨h1, h2⟩
      · exact .inl ⟨y, by simp [hy], h1, h2⟩
      · by_cases hn : extractDomain url = n
        · left
          refine ⟨(url, es), by simp, hn, ?_⟩
          show AMap.get (addMapping ttl mapping (m.put (extractDomain url) (es.map (fun e => { e with ttl := ttl })))) n = _
          rw [h2, hn, AMap.get_put_self]
        · right
          refine ⟨?_, ?_⟩
          · intro y hy
            rcases List.mem_cons.1 hy with rfl | hy
            · exact hn
            · exact h1 y hy
          · show AMap.get (addMapping ttl mapping (m.put (extractDomain url) (es.map (fun e => { e with ttl := ttl })))) n = _
            rw [h2, AMap.get_put_ne m _ hn]
  unfold dnsRecords
  rcases hzone zone (addMapping ttl mapping []) with h | ⟨h1, h2⟩
  · exact .inl h
  · rcases hmap mapping [] with ⟨x, hx, g1, g2⟩ | ⟨g1, g2⟩
    · exact .inr (.inl ⟨h1, x, hx, g1, by rw [h2, g2]⟩)
    · exact .inr (.inr ⟨h1, g1, by rw [h2, g2]; rfl⟩)

theorem addReverse_get (env : Env) (url : Str) (es : List RR) (m : AMap Str (List Str)) (n : Str) :
    ((AMap.get (addReverse env url es m) n).getD []) =
      ((AMap.get m n).getD []) ++
        (es.filter (fun e => (addressOf e).map env.reverseAddr = some n)).map (fun _ => url) := by
  induction es generalizing m with
  | nil => simp [addReverse]
  | cons e es ih =>
    unfold addReverse
    cases ha : addressOf e with
    | none => simp only; rw [ih]; simp [ha]
    | some ip =>
      simp only
      rw [ih]
      by_cases hn : env.reverseAddr ip = n
      · rw [hn, AMap.get_put_self]
        simp [ha, hn]
      · rw [AMap.get_put_ne m _ hn]
        simp [ha, hn]

theorem reverse_get (env : Env) (records : List (Str × List RR)) (m : AMap Str (List Str)) (n : Str) (url : Str) :
    url ∈ ((AMap.get (reverseAddresses env records m) n).getD []) ↔
      url ∈ ((AMap.get m n).getD []) ∨
        ∃ es, (url, es) ∈ records ∧ ∃ e ∈ es, ∃ ip, addressOf e = some ip ∧ env.reverseAddr ip = n := by
  induction records generalizing m with
  | nil => simp [reverseAddresses]
  | cons x records ih =>
    obtain ⟨url', es⟩ := x
    unfold reverseAddresses
    rw [ih, addReverse_get, List.mem_append, List.mem_map]
    constructor
    · rintro ((h | ⟨e, he, rfl⟩) | ⟨es', hes, h⟩)
      · exact .inl h
      · obtain ⟨he1, he2⟩ := List.mem_filter.1 he
        simp only [Option.map_eq_some_iff, decide_eq_true_eq] at he2
        exact .inr ⟨es, by simp, e, he1, he2⟩
      · exact .inr ⟨es', by simp [hes], h⟩
    · rintro (h | ⟨es', hes, e, he, ip, h1, h2⟩)
      · exact .inl (.inl h)
      · rcases List.mem_cons.1 hes with h | h
        · cases h
          refine .inl (.inr ⟨e, List.mem_filter.2 ⟨he, ?_⟩, rfl⟩)
          simp [h1, h2]
        · exact .inr ⟨es', h, e, he, ip, h1, h2⟩

/-- The record gives the address, of either family. -/
def HasAddress (e : RR) (ip : IP) : Prop := e.data = .a ip ∨ e.data = .aaaa ip

theorem addressOf_iff {e : RR} {ip : IP} : addressOf e = some ip ↔ HasAddress e ip := by
  unfold addressOf HasAddress
  cases e.data <;> simp

/-- **C32, reverse queries.** A PTR query for the reverse name of a configured address is answered with
exactly the names that have this address; the names are found in every order of the map. -/
theorem C32_reverse (env : Env) (mapping : Mapping) (next : Resolver W) (depth : Nat) (request : Request)
    (q : Question) (qs : List Question) (hq : request.req.question = q :: qs) (hptr : q.qtype = 12) (w : W)
    (order : List (Str × List RR)) (horder : order.Perm mapping)
    (hsome : ∃ url es e ip, (url, es) ∈ mapping ∧ e ∈ es ∧ HasAddress e ip ∧ env.reverseAddr ip = q.name) :
    ∃ r, CustomDns.resolve env mapping (reverseAddresses env order []) next depth request w = some (.ok r, w) ∧
      r.rtype = .customdns ∧ ∀ rr, rr ∈ r.res.answer ↔
        ∃ url es e ip, (url, es) ∈ mapping ∧ e ∈ es ∧ HasAddress e ip ∧ env.reverseAddr ip = q.name ∧
          rr = ⟨q.name, 12, 1, env.customTTL, .ptr (fqdn url)⟩ := by
  have hget := reverse_get env order [] q.name
  cases hu : AMap.get (reverseAddresses env order []) q.name with
  | none =>
    obtain ⟨url, es, e, ip, h1, h2, h3, h4⟩ := hsome
    replace h3 := addressOf_iff.2 h3
    have := (hget url).2 (.inr ⟨es, horder.mem_iff.2 h1, e, h2, ip, h3, h4⟩)
    rw [hu] at this
    simp at this
  | some urls =>
    rw [hu] at hget
    simp only [Option.getD_some, AMap.get_nil, Option.getD_none, List.not_mem_nil, false_or] at hget
    refine ⟨respond request (urls.map (fun url =>
        { name := q.name, rtype := q.qtype, ttl := env.customTTL, data := .ptr (fqdn url) })), ?_, rfl, ?_⟩
    · unfold CustomDns.resolve
      simp only [hq, handleReverse, if_pos (show q.qtype = typePTR from hptr), hu]
    · intro rr
      simp only [respond, List.mem_map]
      constructor
      · rintro ⟨url, hm, rfl⟩
        obtain ⟨es, h1, e, h2, ip, h3, h4⟩ := (hget url).1 hm
        exact ⟨url, es, e, ip, horder.mem_iff.1 h1, h2, addressOf_iff.1 h3, h4, by simp [hptr]⟩
      · rintro ⟨url, es, e, ip, h1, h2, h3, h4, rfl⟩
        exact ⟨url, (hget url).2 ⟨es, horder.mem_iff.2 h1, e, h2, ip, addressOf_iff.2 h3, h4⟩, by simp [hptr]⟩

/-- The name that two records have, one of each family. -/
example : ∃ r, CustomDns.resolve cdEnv [(str! "nas.x", [aRR 1, ⟨[], 28, 1, 60, .aaaa (.v6 9)⟩])]
      (reverseAddresses cdEnv [(str! "nas.x", [aRR 1, ⟨[], 28, 1, 60, .aaaa (.v6 9)⟩])] []) cdNext 1
      (cdAsk (str! "x.in-addr.arpa.") 12) 0 = some (.ok r, 0) ∧
    r.res.answer.map RR.data = [.ptr (str! "nas.x."), .ptr (str! "nas.x.")] := ⟨_, rfl, by decide⟩

/-- **C32 is false as stated, 1.** If a name has a record of a type the resolver does not know (say MX or
SOA, which zone files contain), every query for the name fails, also for the types it has. -/
theorem C32_unknown_record_breaks_name : ∃ (mx : RR), Ordinary (aRR 1) ∧
    CustomDns.resolve cdEnv [(str! "a.x", [aRR 1, mx])] [] cdNext 1 (cdAsk (str! "a.x.") 1) 0 =
      some (.err (str! "unsupported customDNS RR type"), 0) :=
  ⟨{ name := [], rtype := 15, ttl := 60, data := .other (str! "10 mail") }, .inl ⟨1, rfl⟩, by decide⟩

/-- **C32 is false as stated, 2.** An AAAA record with an IPv4-mapped address is given to queries of type
A and not to queries of type AAAA. -/
theorem C32_mapped_address_wrong_type : ∃ (aaaa : RR), kindOf aaaa = 28 ∧
    (∃ r, CustomDns.resolve cdEnv [(str! "a.x", [aaaa])] [] cdNext 1 (cdAsk (str! "a.x.") 28) 0 = some (.ok r, 0) ∧
      r.res.answer = []) ∧
    (∃ r, CustomDns.resolve cdEnv [(str! "a.x", [aaaa])] [] cdNext 1 (cdAsk (str! "a.x.") 1) 0 = some (.ok r, 0) ∧
      r.res.answer ≠ []) :=
  ⟨{ name := [], rtype := 28, ttl := 60, data := .aaaa (.v4 0x01020304#32) }, rfl, ⟨_, rfl, rfl⟩, ⟨_, rfl, by decide⟩⟩

-- Concrete: a subdomain of a configured name gets the name's records of the asked type.
example : CustomDns.resolve cdEnv [(str! "nas.x", [aRR 1, aRR 2, ⟨[], 28, 1, 60, .aaaa (.v6 9)⟩])] [] cdNext 1
    (cdAsk (str! "Sub.NAS.x.") 1) 0 =
    some (.ok { res := { response := true, question := [⟨str! "Sub.NAS.x.", 1, 1⟩],
                         answer := [⟨str! "Sub.NAS.x.", 1, 1, 60, .a (.v4 1)⟩, ⟨str! "Sub.NAS.x.", 1, 1, 60, .a (.v4 2)⟩] },
                reason := str! "CUSTOM DNS", rtype := .customdns }, 0) := by decide

/-! ### C54 -/

/-- **C54.** An alias to a name that is not configured is resolved by the rest of the chain, for the same
client; if the rest answers, so does the alias, with the alias record in front. -/
theorem C54_outside_alias_partial (env : Env) (mapping : Mapping) (next : Resolver W) (d : Nat)
    (request : Request) (q : Question) (qs : List Question) (hq : request.req.question = q :: qs) (w : W)
    (z t : Str) (e : RR) (he : e.data = .cname t) (h5 : q.qtype ≠ 5)
    (hz : Longest (fun z => z ≠ [] ∧ (AMap.get mapping z).isSome) (extractDomain q.name) z)
    (hg : AMap.get mapping z = some [e])
    (hout : ∀ z, InZone (extractDomain (fqdn (trimSuffixDot t))) z → z ≠ [] → AMap.get mapping z = none) :
    ∃ asked : Request, asked.clientIP = request.clientIP ∧ asked.requestClientID = request.requestClientID ∧
      asked.req.question = [⟨fqdn (trimSuffixDot t), q.qtype, 1⟩] ∧
      ∀ r' w', next asked w = (.ok r', w') →
        ∃ r, processRequest env mapping next (d + 2) request [] w = some (.ok r, w') ∧
          r.res.answer = ⟨q.name, 5, 1, e.ttl, .cname (fqdn t)⟩ :: r'.res.answer := by
  refine ⟨{ clientIP := request.clientIP, requestClientID := request.requestClientID,
            req := newMsgWithQuestion (env.newId [trimSuffixDot t]) (trimSuffixDot t) q.qtype, internal := true },
    rfl, rfl, rfl, ?_⟩
  intro r' w' hn
  have hrec : processRequest env mapping next (d + 1)
      { clientIP := request.clientIP, requestClientID := request.requestClientID,
        req := newMsgWithQuestion (env.newId ([] ++ [trimSuffixDot t])) (trimSuffixDot t) q.qtype, internal := true }
      ([] ++ [trimSuffixDot t]) w = some (.ok r', w') := by
    rw [processRequest]
    simp only [newMsgWithQuestion]
    have hw := (walk_eq_none (AMap.get mapping) ((extractDomain (fqdn (trimSuffixDot t))).length + 1)
      (extractDomain (fqdn (trimSuffixDot t))) (by omega)).2 hout
    simp only [hw]
    rw [← hn]
    rfl
  obtain ⟨r, h1, h2, _⟩ := (C32_alias env mapping next (d + 1) request q qs hq [] w z t e he hz hg).2 h5 (by simp) r' w' hrec
  exact ⟨r, h1, h2⟩

/-- **C54 is false as stated.** If rewrite rules are configured for custom DNS, the resolver behind it is
the no-op resolver (NewRewriterResolver), and every query for an alias to a name outside panics. -/
theorem C54_alias_with_rewrite_panics (next : Cond.MResolver Nat) :
    (Cond.newRewriter ⟨[(str! "home", str! "lan")], false⟩ (fun _ => [(str! "home", str! "lan")])
      (fun n request w =>
        match CustomDns.resolve cdEnv [(str! "www.x", [cnameRR (str! "example.com.")])] []
            (fun request w => ((n request w).1, (n request w).2.2)) 2 request w with
        | some (o, w) => (o, request.req, w)
        | none => (.panic, request.req, w))
      next (cdAsk (str! "www.x.") 1) 0).1 = .panic := rfl

/-- The client names are not handed on: the rest of the chain treats the query as coming from a client
without names (so, for instance, blocking groups of the client's name are not applied). -/
theorem C54_client_names_lost (env : Env) (request : Request) (t : Str) (ty : Nat) (cn : List Str) :
    (targetRequest env request t ty cn).clientNames = [] := rfl

end Verif.Props
