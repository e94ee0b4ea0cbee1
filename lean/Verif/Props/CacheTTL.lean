/-
C09 / C10: TTLs of answers that pass through or come from the cache.
-/
import Verif.Lemmas.Caching
import Verif.Base.ListLemmas

namespace Verif.Props
open Caching Dns ExpCache

/-- `t'` is the TTL (seconds) a record with TTL `t` must have after clamping to the configured
minimum and maximum (durations in ns; not positive means "not configured"). -/
structure ClampedTo (minTime maxTime : Int) (t t' : Nat) : Prop where
  notAboveMax : maxTime > 0 → (t' : Int) ≤ maxTime / 1000000000
  notBelowMin : minTime > 0 → (maxTime > 0 → minTime ≤ maxTime) → minTime / 1000000000 ≤ t'
  unchanged : (minTime > 0 → minTime / 1000000000 ≤ t) → (maxTime > 0 → (t : Int) ≤ maxTime / 1000000000) →
    t' = t

theorem clampTTL_spec (c : Cfg) (hmin : c.minTime / 1000000000 < 4294967296)
    (hmax : c.maxTime / 1000000000 < 4294967296) (t : UInt32) :
    ClampedTo c.minTime c.maxTime t.toNat (clampTTL c t).toNat := by
  have e1 := secondsU32_toNat hmin
  have e2 := secondsU32_toNat hmax
  have key : (clampTTL c t).toNat =
      (let t1 := if c.minTime > 0 then max t.toNat (c.minTime / 1000000000).toNat else t.toNat
       if c.maxTime > 0 then min t1 (c.maxTime / 1000000000).toNat else t1) := by
    simp only [clampTTL, gt_iff_lt, UInt32.lt_iff_toNat_lt]
    by_cases h1 : 0 < c.minTime <;> by_cases h2 : 0 < c.maxTime <;>
      simp only [h1, h2, if_true, if_false, e1, e2]
    · split <;> (try rw [e1]) <;> split <;> (try rw [e1]) <;> (try rw [e2]) <;> omega
    · split <;> (try rw [e1]) <;> omega
    · split <;> (try rw [e2]) <;> omega
  have hlo : c.minTime > 0 → 0 ≤ c.minTime / 1000000000 := fun h => by omega
  have hhi : c.maxTime > 0 → 0 ≤ c.maxTime / 1000000000 := fun h => by omega
  constructor
  · intro h
    have := hhi h
    rw [key]
    simp only [h, if_true]
    omega
  · intro h h'
    rw [key]
    by_cases h2 : c.maxTime > 0
    · have := h' h2
      simp only [h, h2, if_true]
      omega
    · simp only [h, h2, if_true, if_false]
      omega
  · intro h h'
    rw [key]
    by_cases h1 : c.minTime > 0 <;> by_cases h2 : c.maxTime > 0
    · have := h h1; have := h' h2; simp only [h1, h2, if_true]; omega
    · have := h h1; simp only [h1, h2, if_true, if_false]; omega
    · have := h' h2; simp only [h1, h2, if_true, if_false]; omega
    · simp only [h1, h2, if_false]

/-- Same record up to the TTL. -/
def SameButTTL (r r' : RR) : Prop := { r with ttl := 0 } = { r' with ttl := 0 }

/-- **C09.** On a cache miss the answer of the next resolver is returned with every record kept, in
order, and its TTL clamped; everything else in the message is unchanged; and what is stored for a
cacheable success lives for the smallest resulting TTL (or the negative caching time for an empty
answer). Durations are taken to be below 2^32 seconds. -/
theorem C09_clamped {W : Type} (env : Env) (c : Cfg) (next : Resolver W) (req : Request) (s : CState)
    (w w' : W) (q : Question) (r : Response)
    (hmin : c.minTime / 1000000000 < 4294967296) (hmax : c.maxTime / 1000000000 < 4294967296)
    (hen : c.enabled = true) (hcache : isRequestCacheable req.req = true)
    (hq : req.req.question = [q]) (hmiss : (cacheGet c s (questionKey q)).1 = none)
    (hnext : next req w = (.ok r, w')) :
    ∃ r' s', resolve env c next req s w = (.ok r', s', w') ∧
      r' = { r with res := { r.res with answer := r'.res.answer } } ∧
      Pointwise (fun a a' => SameButTTL a a' ∧
        ClampedTo c.minTime c.maxTime a.ttl.toNat a'.ttl.toNat) r.res.answer r'.res.answer := by
  have hres : resolve env c next req s w =
      (.ok (adjusted c r), store env c (cacheGet c s (questionKey q)).2 (questionKey q) r, w') := by
    simp only [resolve, hen, hcache, hq, Bool.not_true, Bool.or_self, Bool.false_eq_true, if_false,
      resolveLoop]
    cases hg : cacheGet c s (questionKey q) with
    | mk o s1 =>
      rw [hg] at hmiss
      simp only at hmiss
      subst hmiss
      simp only [hnext]
  refine ⟨_, _, hres, rfl, ?_⟩
  simp only [adjusted, adjustTTLs_answer]
  generalize r.res.answer = l
  induction l with
  | nil => exact Pointwise.nil
  | cons a l ih => exact Pointwise.cons ⟨rfl, clampTTL_spec c hmin hmax a.ttl⟩ ih

/-- **C09 (lifetime).** The lifetime given to the stored entry is the smallest TTL of the records it
is served with (TTLs of 2^31 seconds and more count as 2^31 − 1), in nanoseconds. -/
theorem C09_lifetime (c : Cfg) (answer : List RR) (hne : answer ≠ []) :
    ∃ m : Nat, (adjustTTLs c answer).2 = m * 1000000000 ∧
      (∀ r ∈ (adjustTTLs c answer).1, m ≤ r.ttl.toNat) ∧
      (m = 2147483647 ∨ ∃ r ∈ (adjustTTLs c answer).1, m = r.ttl.toNat) := by
  refine ⟨_, adjustTTLs_ttl c hne, fun r hr => minTTL_le hr, minTTL_attained _⟩

/-- Seconds, rounded up, of a duration in milliseconds. -/
def ceilSeconds (ms : Int) : Int := (ms + 999) / 1000

theorem setTTL_toNat (answer : List RR) (remainMs : Int) (h0 : 0 ≤ remainMs)
    (hle : remainMs ≤ (minTTL answer).toNat * 1000) (r : RR) (hr : r ∈ answer) :
    (r.ttl - minTTL answer + UInt32.ofNat (remainMs / 1000).toNat).toNat =
      r.ttl.toNat - (minTTL answer).toNat + (remainMs / 1000).toNat := by
  have h1 := minTTL_le hr
  have h2 := r.ttl.toNat_lt
  have hrem : (remainMs / 1000).toNat ≤ (minTTL answer).toNat := by omega
  have hsub : (r.ttl - minTTL answer).toNat = r.ttl.toNat - (minTTL answer).toNat :=
    UInt32.toNat_sub_of_le _ _ (UInt32.le_iff_toNat_le.2 h1)
  rw [UInt32.toNat_add, hsub, UInt32.toNat_ofNat']
  have e : (remainMs / 1000).toNat % 2 ^ 32 = (remainMs / 1000).toNat :=
    Nat.mod_eq_of_lt (by omega)
  rw [e]
  exact Nat.mod_eq_of_lt (by omega)

/-- **C10.** An answer stored with the lifetime of its smallest TTL and served `elapsedMs` later,
while that lifetime has not passed: each record is served with its stored TTL minus the time passed,
rounded up to whole seconds; the smallest TTL served is the remaining lifetime in whole seconds; and
records keep their order and everything else. (`hsmall`: the smallest TTL is below 2^31 s.) -/
theorem C10_countdown (answer : List RR) (elapsedMs : Int) (h0 : 0 ≤ elapsedMs)
    (hlive : elapsedMs ≤ (minTTL answer).toNat * 1000) :
    let remainMs := (minTTL answer).toNat * 1000 - elapsedMs
    let served := setTTLs answer remainMs
    Pointwise (fun r r' => SameButTTL r r' ∧
      (r'.ttl.toNat : Int) = r.ttl.toNat - ceilSeconds elapsedMs) answer served ∧
    (∀ r' ∈ served, remainMs / 1000 ≤ r'.ttl.toNat) ∧
    ((∃ r ∈ answer, r.ttl.toNat = (minTTL answer).toNat) →
      ∃ r' ∈ served, (r'.ttl.toNat : Int) = remainMs / 1000) := by
  intro remainMs served
  have hval : ∀ r ∈ answer,
      (r.ttl - minTTL answer + UInt32.ofNat (remainMs / 1000).toNat).toNat =
        r.ttl.toNat - (minTTL answer).toNat + (remainMs / 1000).toNat :=
    fun r hr => setTTL_toNat answer remainMs (by omega) (by omega) r hr
  refine ⟨?_, ?_, ?_⟩
  · suffices ∀ (l : List RR), (∀ r ∈ l, r ∈ answer) →
        Pointwise (fun r r' => SameButTTL r r' ∧
          (r'.ttl.toNat : Int) = r.ttl.toNat - ceilSeconds elapsedMs) l
          (l.map (fun r => { r with ttl := r.ttl - minTTL answer + UInt32.ofNat (remainMs / 1000).toNat })) from
      this answer (fun _ h => h)
    intro l hl
    induction l with
    | nil => exact Pointwise.nil
    | cons r l ih =>
      refine Pointwise.cons ⟨rfl, ?_⟩ (ih (fun x hx => hl x (by simp [hx])))
      simp only
      rw [hval r (hl r (by simp))]
      have := minTTL_le (hl r (by simp))
      simp only [ceilSeconds]
      omega
  · intro r' hr'
    obtain ⟨r, hr, rfl⟩ := List.mem_map.1 hr'
    simp only
    rw [hval r hr]
    omega
  · rintro ⟨r, hr, hm⟩
    refine ⟨_, List.mem_map.2 ⟨r, hr, rfl⟩, ?_⟩
    simp only
    rw [hval r hr]
    omega

/-- **C10 (order preserved, whatever the lifetime).** While the entry is served within its answer's
lifetime, of two records the one with the smaller stored TTL is served with the smaller TTL. -/
theorem C10_order (answer : List RR) (remainMs : Int) (h0 : 0 ≤ remainMs)
    (hle : remainMs ≤ (minTTL answer).toNat * 1000) (r1 r2 : RR) (h1 : r1 ∈ answer)
    (h2 : r2 ∈ answer) :
    let out := fun r : RR => (r.ttl - minTTL answer + UInt32.ofNat (remainMs / 1000).toNat).toNat
    r1.ttl.toNat ≤ r2.ttl.toNat ↔ out r1 ≤ out r2 := by
  intro out
  simp only [out]
  rw [setTTL_toNat answer remainMs h0 hle r1 h1, setTTL_toNat answer remainMs h0 hle r2 h2]
  have := minTTL_le h1
  have := minTTL_le h2
  omega

/-! ### Instances -/

/-- Two records that may be kept for five minutes and for one. -/
def twoRecords : List RR :=
  [{ name := str! "a.", rtype := 1, ttl := 300, data := .a (.v4 1) }, { name := str! "a.", rtype := 1, ttl := 60, data := .a (.v4 2) }]

/-- A resolver that answers with them. -/
def twoRecordsNext : Resolver Nat := fun req w => (.ok { res := { ({} : Msg).setReply req.req with answer := twoRecords } }, w + 1)

/-- With at least two minutes, at most four: 240 and 120. -/
example : ∃ r' s', resolve ⟨fun _ => true, 1⟩ { minTime := 120000000000, maxTime := 240000000000 } twoRecordsNext
      { req := { question := [⟨str! "a.", 1, 1⟩] } } ⟨⟨newCache 10, 0⟩, newCache 10⟩ 0 = (.ok r', s', 1) ∧
    r'.res.answer.map (·.ttl) = [240, 120] := ⟨_, _, rfl, by decide⟩

example : (240000000000 : Int) / 1000000000 < 4294967296 ∧ ({ maxTime := 240000000000 } : Cfg).enabled = true ∧
    isRequestCacheable { question := [⟨str! "a.", 1, 1⟩] } = true ∧
    (cacheGet {} ⟨⟨newCache 10, 0⟩, newCache 10⟩ (questionKey ⟨str! "a.", 1, 1⟩)).1 = none := by decide

/-- Stored for the minute of the second. -/
example : twoRecords ≠ [] ∧ (adjustTTLs {} twoRecords).2 = 60000000000 := by decide

/-- Served 59.5 seconds later: 240 and 0 are left. -/
example : (59500 : Int) ≤ (minTTL twoRecords).toNat * 1000 ∧ (setTTLs twoRecords (60000 - 59500)).map (·.ttl) = [240, 0] := by decide

end Verif.Props
