/-
C120, first part: the answer cache only has what the resolvers behind it answer.
-/
import Verif.Props.Blind
import Verif.Props.Elsewhere
import Verif.Props.CacheHistory

namespace Verif.Props
open Verif.Dns Verif.ExpCache Verif.StringCache Verif.Spec

variable {E : RegexEngine} {W : Type} {V : Type}

/-- A record without its TTL, names in lower case. -/
def bareRecord (r : RR) : RR := foldRecord { r with ttl := 0 }

/-- The same response: response code and records of all sections (but for EDNS), TTLs and letter case aside. -/
structure Like (m m' : Msg) : Prop where
  rcode : m.rcode = m'.rcode
  answer : m.answer.map bareRecord = m'.answer.map bareRecord
  ns : m.ns.map bareRecord = m'.ns.map bareRecord
  extra : (plainRecords m.extra).map bareRecord = (plainRecords m'.extra).map bareRecord

theorem Like.refl (m : Msg) : Like m m := ⟨rfl, rfl, rfl, rfl⟩

theorem Like.symm {m m' : Msg} (h : Like m m') : Like m' m := ⟨h.1.symm, h.2.symm, h.3.symm, h.4.symm⟩

theorem Like.trans {a b c : Msg} (h : Like a b) (h' : Like b c) : Like a c :=
  ⟨h.1.trans h'.1, h.2.trans h'.2, h.3.trans h'.3, h.4.trans h'.4⟩

/-- The same outcome: like responses, or the same error. -/
def LikeOut : Outcome → Outcome → Prop
  | .ok r, .ok r' => Like r.res r'.res
  | o, o' => o = o'

theorem LikeOut.refl (o : Outcome) : LikeOut o o := by cases o <;> first | exact Like.refl _ | rfl

/-- Which questions are asked: for proper names, and among them are those asked by prefetching and to conditional upstreams (in lower case and
with final dot). -/
structure Manner (S : Question → Prop) : Prop where
  proper : ∀ q, S q → (extractDomain q.name).getLast? ≠ some '.'
  again : ∀ q q', S q → q'.name = fqdn (extractDomain q.name) → (q'.qtype = q.qtype ∨ q'.qtype = q.qtype % 65536) → S q'

/-- A message with one question, of those that are asked. -/
def Plain (S : Question → Prop) (m : Msg) : Prop := ∃ q, m.question = [q] ∧ S q

/-- Questions for the same type and name; letter case, a final dot, and the class aside. -/
def SameQuestion (q q' : Question) : Prop := q.qtype % 65536 = q'.qtype % 65536 ∧ extractDomain q.name = extractDomain q'.name

/-- What is behind the resolver is steady: who asks, when, and with which letter case, flags and options, does not matter. -/
def Steady (S : Question → Prop) (n : Dns.Resolver V) : Prop :=
  ∀ r r' v v' q q' a, r.req.question = [q] → r'.req.question = [q'] → S q → S q' → SameQuestion q q' →
    (n r v).1 = .ok a → ∃ b, (n r' v').1 = .ok b ∧ Like a.res b.res

/-- What may be in the cache: what the next resolver answers. -/
def Right (S : Question → Prop) (n : Dns.Resolver V) (k : Str) (m : Msg) : Prop :=
  (∃ q, S q ∧ Caching.questionKey q = k) ∧
  ∀ r q v, r.req.question = [q] → S q → Caching.questionKey q = k → ∃ a, (n r v).1 = .ok a ∧ Like m a.res

/-- The cache only has what the next resolver answers. -/
def CacheRight (S : Question → Prop) (n : Dns.Resolver V) (s : Caching.CState) : Prop := ∀ e ∈ s.main.cache.items, Right S n e.1 e.2.val

variable {S : Question → Prop}

/-! ### Records and keys -/

theorem bare_setTTL (f : RR → UInt32) (l : List RR) : (l.map (fun r => { r with ttl := f r })).map bareRecord = l.map bareRecord := by
  rw [List.map_map]; rfl

theorem like_adjusted (c : Caching.Cfg) (r : Response) : Like (Caching.adjusted c r).res r.res := by
  refine ⟨rfl, ?_, rfl, rfl⟩
  unfold Caching.adjusted Caching.adjustTTLs
  simp only
  split
  · rfl
  · exact bare_setTTL _ _

theorem like_removeEdns (m : Msg) : Like (removeEdns0Record m) m := by
  refine ⟨rfl, rfl, rfl, ?_⟩
  show (plainRecords (dropFirstOpt m.extra)).map bareRecord = _
  rw [plainRecords_dropFirst]

theorem like_hit (req m : Msg) (ttl : Int) : Like (Caching.hitResponse req m ttl).res m :=
  ⟨rfl, bare_setTTL _ _, rfl, rfl⟩

theorem byteChar_inj {a b : Nat} (ha : a < 256) (hb : b < 256) (h : Char.ofNat a = Char.ofNat b) : a = b := by
  rw [← byteChar ha, ← byteChar hb, h]

theorem lower_extractDomain (n : Str) : lower (extractDomain n) = extractDomain n := by
  unfold extractDomain
  rw [lower_trimSuffixDot, lower_idem]

theorem sameQuestion_of_key {q q' : Question} (h : Caching.questionKey q = Caching.questionKey q') : SameQuestion q q' := by
  unfold Caching.questionKey Caching.cacheKey at h
  injection h with h1 h2
  injection h2 with h2 h3
  rw [lower_extractDomain, lower_extractDomain] at h3
  have e1 := byteChar_inj (by omega) (by omega) h1
  have e2 := byteChar_inj (by omega) (by omega) h2
  exact ⟨by omega, h3⟩

theorem right_of {n : Dns.Resolver V} (hn : Steady S n) {r : Request} {q : Question} {v : V} {a : Response} {k : Str} {m : Msg}
    (hq : r.req.question = [q]) (hp : S q) (hk : ∀ q', S q' → Caching.questionKey q' = k → SameQuestion q q')
    (he : ∃ q, S q ∧ Caching.questionKey q = k) (ha : (n r v).1 = .ok a) (hm : Like m a.res) : Right S n k m := by
  refine ⟨he, fun r' q' v' hq' hp' hk' => ?_⟩
  obtain ⟨b, hb, hl⟩ := hn r r' v v' q q' a hq hq' hp hp' (hk q' hp' hk') ha
  exact ⟨b, hb, hm.trans hl⟩

/-! ### The cache -/

section cacheOps
variable {T : Type} {P : Str → T → Prop} {c : Cache T}

theorem addAll (h : ∀ e ∈ c.items, P e.1 e.2.val) {k : Str} {el : Element T} (hk : P k el.val) : ∀ e ∈ (c.add k el).items, P e.1 e.2.val := by
  have hc : ∀ l : List (Str × Element T), (∀ e ∈ l, P e.1 e.2.val) → ∀ e ∈ (k, el) :: l, P e.1 e.2.val := by
    intro l hl e he
    rcases List.mem_cons.1 he with rfl | he
    · exact hk
    · exact hl e he
  unfold Cache.add
  split
  · exact hc _ (fun e he => h e (List.mem_filter.1 he).1)
  · split
    · exact fun e he => hc _ h e (List.dropLast_subset _ he)
    · exact hc _ h

theorem allPut (h : ∀ e ∈ c.items, P e.1 e.2.val) {k : Str} {v : T} (hk : P k v) (now ttl : Int) :
    ∀ e ∈ (c.put now k v ttl).items, P e.1 e.2.val := by
  unfold Cache.put
  split
  · exact h
  · exact addAll h hk

theorem getAll (h : ∀ e ∈ c.items, P e.1 e.2.val) (now : Int) (k : Str) : ∀ e ∈ (c.get now k).2.items, P e.1 e.2.val := by
  unfold Cache.get
  cases hp : c.peek k with
  | none => exact h
  | some el =>
    simp only
    unfold Cache.touch
    rw [hp]
    intro e he
    rcases List.mem_cons.1 he with rfl | he
    · exact h (k, el) (AMap.get_eq_some_mem hp)
    · exact h e (List.mem_filter.1 he).1

end cacheOps

variable {n : Dns.Resolver V}

theorem right_get {s : Caching.CState} (h : CacheRight S n s) (c : Caching.Cfg) (k : Str) : CacheRight S n (Caching.cacheGet c s k).2 := by
  unfold CacheRight
  rw [cacheGet_main]
  exact getAll h _ _

theorem right_found {s : Caching.CState} (h : CacheRight S n s) (c : Caching.Cfg) (k : Str) (m : Msg) (ttl : Int)
    (hf : (Caching.cacheGet c s k).1 = some (m, ttl)) : Right S n k m := by
  rw [cacheGet_result] at hf
  unfold lookup Cache.get at hf
  cases hp : s.main.cache.peek k with
  | none => rw [hp] at hf; cases hf
  | some el =>
    rw [hp] at hf
    cases hf
    exact h (k, el) (AMap.get_eq_some_mem hp)

theorem right_store {s : Caching.CState} (h : CacheRight S n s) (env : Caching.Env) (c : Caching.Cfg) {k : Str} {r : Response}
    (hr : ∀ m, Like m r.res → Right S n k m) : CacheRight S n (Caching.store env c s k r) := by
  have hput : ∀ ttl, CacheRight S n { s with main := step s.main (.put k (removeEdns0Record (Caching.adjusted c r).res) ttl) } := by
    intro ttl
    exact allPut h (hr _ ((like_removeEdns _).trans (like_adjusted c r))) _ _
  unfold Caching.store Caching.putOps
  simp only
  split
  · split
    · exact hput _
    · split
      · split
        · exact hput _
        · exact h
      · exact h
  · exact h

theorem right_remove (del : List Str) : ∀ (s : Caching.CState), CacheRight S n s →
    CacheRight S n { s with main := run s.main (del.map Op.remove) } := by
  induction del with
  | nil => exact fun _ h => h
  | cons k del ih =>
    intro s h
    exact ih { s with main := step s.main (.remove k) } (fun e he => h e (List.mem_filter.1 he).1)

/-! ### Prefetching -/

theorem right_reload (hs : Manner S) (hn : Steady S n) (env : Caching.Env) (c : Caching.Cfg) {k : Str} (hk : ∃ q, S q ∧ Caching.questionKey q = k)
    (w : V) (m : Msg) (ttl : Int) (h : (Caching.reload env c n k w).1 = some (some (m, ttl))) : Right S n k m := by
  obtain ⟨q, hp, rfl⟩ := hk
  unfold Caching.reload at h
  have hx : Caching.extractKey (Caching.questionKey q) = some (q.qtype % 65536, extractDomain q.name) := by
    unfold Caching.questionKey Caching.cacheKey Caching.extractKey
    simp only
    rw [byteChar (by omega), byteChar (by omega), lower_extractDomain]
    congr 2
    omega
  rw [hx] at h
  simp only at h
  have hd : fqdn (extractDomain q.name) = extractDomain q.name ++ ['.'] := by
    unfold fqdn
    rw [if_neg (hs.proper q hp)]
  have hd2 : fqdn (fqdn (extractDomain q.name)) = extractDomain q.name ++ ['.'] := by
    rw [hd]
    unfold fqdn
    rw [if_pos (by simp)]
  have hname : extractDomain (fqdn (fqdn (extractDomain q.name))) = extractDomain q.name := by
    rw [hd2, extractDomain_fqdn, lower_extractDomain]
  cases hy : n (Caching.reloadRequest env (q.qtype % 65536) (extractDomain q.name)) w with
  | mk o w1 =>
    rw [hy] at h
    cases o with
    | ok r =>
      simp only at h
      split at h
      · split at h
        · simp only [Option.some.injEq, Prod.mk.injEq] at h
          obtain ⟨rfl, _⟩ := h
          refine right_of hn (q := ⟨fqdn (fqdn (extractDomain q.name)), q.qtype % 65536, 1⟩)
            (r := Caching.reloadRequest env (q.qtype % 65536) (extractDomain q.name)) (v := w) (a := r) rfl ?_ ?_ ⟨q, hp, rfl⟩ (by rw [hy]) (Like.refl _)
          · rw [hd2, ← hd]
            exact hs.again q _ hp rfl (.inr rfl)
          · intro q' _ hk'
            have := sameQuestion_of_key hk'
            refine ⟨?_, ?_⟩
            · show q.qtype % 65536 % 65536 = _
              rw [Nat.mod_mod, this.1]
            · show extractDomain (fqdn (fqdn (extractDomain q.name))) = _
              rw [hname, this.2]
        · cases h
      · cases h
    | err e => cases h
    | noResponse => cases h
    | panic => cases h

theorem right_shouldPrefetch {s : Caching.CState} (h : CacheRight S n s) (c : Caching.Cfg) (k : Str) : CacheRight S n (Caching.shouldPrefetch c s k).2 := by
  unfold CacheRight
  rw [shouldPrefetch_main]
  exact h

theorem right_reloadLoop (hs : Manner S) (hn : Steady S n) (env : Caching.Env) (c : Caching.Cfg) (ks : List Str) :
    ∀ (del : List Str) (s : Caching.CState) (w : V), (∀ k ∈ ks, ∃ q, S q ∧ Caching.questionKey q = k) → CacheRight S n s →
      ∀ del' s', (Caching.reloadLoop env c n ks del s w).1 = some (del', s') → CacheRight S n s' := by
  induction ks with
  | nil => intro del s w _ h del' s' e; cases e; exact h
  | cons k ks ih =>
    intro del s w hks h del' s' e
    have hks' : ∀ k ∈ ks, ∃ q, S q ∧ Caching.questionKey q = k := fun x hx => hks x (List.mem_cons_of_mem _ hx)
    have key : CacheRight S n (Caching.onExpired env c n s w k).2.1 ∧
        ∀ m ttl, (Caching.onExpired env c n s w k).1 = some (some (m, ttl)) → Right S n k m := by
      unfold Caching.onExpired
      split
      · split
        · exact ⟨right_shouldPrefetch h c k, fun m ttl hm => right_reload hs hn env c (hks k (List.mem_cons_self ..)) w m ttl hm⟩
        · exact ⟨right_shouldPrefetch h c k, fun m ttl hm => by cases hm⟩
      · exact ⟨h, fun m ttl hm => by cases hm⟩
    unfold Caching.reloadLoop at e
    revert key e
    generalize Caching.onExpired env c n s w k = y
    obtain ⟨o, s1, w1⟩ := y
    intro key e
    cases o with
    | none => cases e
    | some o =>
      cases o with
      | none => exact ih _ _ _ hks' key.1 _ _ e
      | some x =>
        obtain ⟨m, ttl⟩ := x
        refine ih _ _ _ hks' ?_ _ _ e
        exact allPut key.1 (key.2 m ttl rfl) _ _

theorem right_cleanUp (hs : Manner S) (hn : Steady S n) (env : Caching.Env) (c : Caching.Cfg) {s s' : Caching.CState} (h : CacheRight S n s) (w : V)
    (he : (Caching.cleanUpCache env c n s w).1 = some s') : CacheRight S n s' := by
  have := right_reloadLoop hs hn env c (s.main.cache.expiredKeys s.main.now) [] s w (by
    intro k hk
    unfold Cache.expiredKeys at hk
    obtain ⟨e, h1, rfl⟩ := List.mem_map.1 hk
    exact (h e (List.mem_reverse.1 (List.mem_filter.1 h1).1)).1) h
  unfold Caching.cleanUpCache at he
  revert this he
  generalize Caching.reloadLoop env c n (s.main.cache.expiredKeys s.main.now) [] s w = y
  obtain ⟨o, w1⟩ := y
  intro he this
  cases o with
  | none => cases he
  | some x =>
    obtain ⟨del, s1⟩ := x
    simp only [Option.some.injEq] at he
    rw [← he]
    exact right_remove del s1 (this _ _ rfl)

end Verif.Props
