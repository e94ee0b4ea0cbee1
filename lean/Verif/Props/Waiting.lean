/-
C95: how long a query waits for upstreams, and which answers come in time.
-/
import Verif.Model.Waiting

namespace Verif.Props
open Dns Upstream Waiting

/-! ### Bounds -/

private theorem within_bounds {α : Type} (l s : Nat) (x : Option (Nat × α)) :
    s ≤ (within l s x).2 ∧ (within l s x).2 ≤ s + l := by
  unfold within
  split
  · split
    · exact ⟨by omega, by simp only; omega⟩
    · exact ⟨by simp only; omega, by simp only; omega⟩
  · exact ⟨by simp only; omega, by simp only; omega⟩

private theorem contact_bounds (limit : Nat → Nat) (s : Nat) (c : Contact) :
    s ≤ (contactServer limit s c).2 ∧
    ((contactServer limit s c).2 ≤ s + limit s ∨
      ∃ t, s ≤ t ∧ t ≤ s + limit s ∧ (contactServer limit s c).2 ≤ t + limit t) := by
  unfold contactServer
  have h := within_bounds (limit s) s c.connect
  rcases hw : within (limit s) s c.connect with ⟨r, t⟩
  rw [hw] at h
  rcases r with _ | _ | e
  · exact ⟨h.1, .inl h.2⟩
  · simp only
    have h2 := within_bounds (limit t) t c.answer
    rcases hw2 : within (limit t) t c.answer with ⟨r2, t2⟩
    rw [hw2] at h2
    simp only at h h2
    rcases r2 with _ | r2
    · exact ⟨Nat.le_trans h.1 h2.1, .inr ⟨t, h.1, h.2, h2.2⟩⟩
    · exact ⟨Nat.le_trans h.1 h2.1, .inr ⟨t, h.1, h.2, h2.2⟩⟩
  · exact ⟨h.1, .inl h.2⟩

private theorem dns_bounds (e s : Nat) (c : Contact) :
    s ≤ (dnsExchange e s c).2 ∧ (dnsExchange e s c).2 ≤ s + 4000000000 ∧ (dnsExchange e s c).2 ≤ max s e := by
  have h := contact_bounds (fun t => min clientLimit (e - t)) s c
  unfold dnsExchange
  simp only [clientLimit, sec, ms] at h
  refine ⟨h.1, ?_, ?_⟩
  · rcases h.2 with h | ⟨t, h1, h2, h3⟩
    · simp only [clientLimit, sec, ms]; omega
    · simp only [clientLimit, sec, ms]; omega
  · rcases h.2 with h | ⟨t, h1, h2, h3⟩
    · simp only [clientLimit, sec, ms]; omega
    · simp only [clientLimit, sec, ms]; omega

private theorem https_bounds (e s : Nat) (c : Contact) :
    s ≤ (httpsExchange e s c).2 ∧ (httpsExchange e s c).2 ≤ max s e := by
  have h := contact_bounds (fun t => e - t) s c
  unfold httpsExchange
  refine ⟨h.1, ?_⟩
  rcases h.2 with h | ⟨t, h1, h2, h3⟩ <;> omega

private theorem race_bounds (p : Proto) (tie : Bool) (a b : Reply × Nat) (lo hi : Nat) (ha : lo ≤ a.2 ∧ a.2 ≤ hi)
    (hb : lo ≤ b.2 ∧ b.2 ≤ hi) : lo ≤ (raceTimed p tie a b).2 ∧ (raceTimed p tie a b).2 ≤ hi := by
  unfold raceTimed raceEnd
  simp only
  split <;> split <;> omega

/-- What an attempt may take. -/
private theorem attempt_bounds (net : Net) (T : Nat) (w : Wire) (p : Proto) (e : Nat) (ip : IP) (s : Nat) :
    s ≤ (attempt net T w p e ip s).2 ∧ (attempt net T w p e ip s).2 ≤ s + T ∧
    (attempt net T w p e ip s).2 ≤ max s e ∧ (net ≠ .https → (attempt net T w p e ip s).2 ≤ s + 4000000000) := by
  unfold attempt
  have hd := dns_bounds (min e (s + T)) s
  cases net with
  | https =>
    have := https_bounds (min e (s + T)) s (w.contact ip .tcp s)
    simp only
    exact ⟨this.1, by omega, by omega, fun h => absurd rfl h⟩
  | tcpTls =>
    have := hd (w.contact ip .tcp s)
    simp only
    exact ⟨this.1, by omega, by omega, fun _ => this.2.1⟩
  | tcpUdp =>
    have h1 := hd (w.contact ip .tcp s)
    have h2 := hd (w.contact ip .udp s)
    have := race_bounds p (w.tcpFirst s) _ _ s (min (s + 4000000000) (max s (min e (s + T))))
      ⟨h1.1, by omega⟩ ⟨h2.1, by omega⟩
    simp only
    exact ⟨this.1, by omega, by omega, fun _ => by omega⟩

private theorem retry_bounds (e : Nat) (call : IP → Nat → Reply × Nat) (L : Nat)
    (h : ∀ ip s, s ≤ (call ip s).2 ∧ (call ip s).2 ≤ s + L ∧ (call ip s).2 ≤ max s e) :
    ∀ (left : Nat) (ips : IPSet) (t : Nat), t ≤ (retryTimed e call left ips t).2 ∧
      (retryTimed e call left ips t).2 ≤ t + left * L + (left - 1) * 1000000 ∧
      (retryTimed e call left ips t).2 ≤ max t e
  | 0, _, t => by simp [retryTimed]; omega
  | left + 1, ips, t => by
    unfold retryTimed
    have hmul : (left + 1) * L = left * L + L := Nat.succ_mul left L
    cases hc : ips.current with
    | none => simp only; exact ⟨by omega, by omega, by omega⟩
    | some ip =>
      simp only
      have hb := h ip t
      rcases hcall : call ip t with ⟨r, t1⟩
      rw [hcall] at hb
      simp only at hb
      cases r with
      | msg m => simp only; refine ⟨hb.1, ?_, hb.2.2⟩; omega
      | err er =>
        simp only
        split
        · refine ⟨hb.1, ?_, hb.2.2⟩; simp only; omega
        · cases ips.next with
          | none => simp only; refine ⟨hb.1, ?_, hb.2.2⟩; omega
          | some ips' =>
            simp only
            split
            · refine ⟨hb.1, ?_, hb.2.2⟩; simp only; omega
            · rename_i hl
              split
              · rename_i hend
                have : pause = 1000000 := rfl
                rw [this] at hend
                refine ⟨?_, ?_, ?_⟩ <;> simp only <;> omega
              · rename_i hend
                have hr := retry_bounds e call L h left ips' (t1 + pause)
                have hp : pause = 1000000 := rfl
                rw [hp] at hr hend ⊢
                refine ⟨by omega, ?_, by omega⟩
                have := hr.2.1
                have hl' : 0 < left := Nat.pos_of_ne_zero hl
                have : (left + 1 - 1) * 1000000 = (left - 1) * 1000000 + 1000000 := by omega
                omega

private theorem lookup_bounds (T e : Nat) (h : Host) (s : Nat) :
    s ≤ (lookup T e h s).2 ∧ (lookup T e h s).2 ≤ s + T ∧ (lookup T e h s).2 ≤ max s e ∧
    ((∃ ips, h = .known ips) → (lookup T e h s).2 = s) := by
  unfold lookup
  cases h with
  | known ips => exact ⟨Nat.le_refl _, by simp only; omega, by simp only; omega, fun _ => rfl⟩
  | asked found =>
    have hb := within_bounds (min T (e - s)) s (found s)
    simp only
    rcases hw : within (min T (e - s)) s (found s) with ⟨r, t⟩
    rw [hw] at hb
    simp only at hb
    cases r with
    | none => exact ⟨hb.1, by simp only; omega, by simp only; omega, fun ⟨_, h⟩ => by cases h⟩
    | some r => exact ⟨hb.1, by simp only; omega, by simp only; omega, fun ⟨_, h⟩ => by cases h⟩

/-- C95 (what an upstream may take): an upstream gives its result at most four times `upstreams.timeout` and 2 ms after it was
asked, three times without a lookup of its name; without HTTPS, at most 12.002 s and the lookup; and never after the
end of the query's context. -/
theorem C95_upstream_partial (u : Up) (T : Nat) (p : Proto) (e start : Nat) :
    start ≤ (u.resolve T p e start).2 ∧
    (u.resolve T p e start).2 ≤ start + 4 * T + 2000000 ∧
    ((∃ ips, u.host = .known ips) → (u.resolve T p e start).2 ≤ start + 3 * T + 2000000) ∧
    (u.net ≠ .https → (u.resolve T p e start).2 ≤ start + T + 12002000000) ∧
    (u.resolve T p e start).2 ≤ max start e := by
  unfold Up.resolve
  have hl := lookup_bounds T e u.host start
  rcases hlk : lookup T e u.host start with ⟨r, t⟩
  rw [hlk] at hl
  simp only at hl
  cases r with
  | inr er =>
    simp only
    exact ⟨hl.1, by omega, fun h => by have := hl.2.2.2 h; omega, fun _ => by omega, hl.2.2.1⟩
  | inl ips =>
    simp only
    split
    · simp only
      exact ⟨hl.1, by omega, fun h => by have := hl.2.2.2 h; omega, fun _ => by omega, hl.2.2.1⟩
    · have hr := retry_bounds e (attempt u.net T u.wire p e) T
        (fun ip s => ⟨(attempt_bounds u.net T u.wire p e ip s).1, (attempt_bounds u.net T u.wire p e ip s).2.1,
          (attempt_bounds u.net T u.wire p e ip s).2.2.1⟩) retryAttempts { values := ips } t
      have hr4 : u.net ≠ .https → _ := fun hn => retry_bounds e (attempt u.net T u.wire p e) 4000000000
        (fun ip s => ⟨(attempt_bounds u.net T u.wire p e ip s).1, (attempt_bounds u.net T u.wire p e ip s).2.2.2 hn,
          (attempt_bounds u.net T u.wire p e ip s).2.2.1⟩) retryAttempts { values := ips } t
      have h3 : retryAttempts = 3 := rfl
      rw [h3] at hr hr4 ⊢
      exact ⟨by omega, by omega, fun h => by have := hl.2.2.2 h; omega, fun hn => by have := (hr4 hn).2.1; omega,
        by omega⟩

private theorem strict_bounds (T : Nat) (p : Proto) (e B : Nat) (hB : ∀ (u : Up) t, (u.resolve T p e t).2 ≤ t + B) :
    ∀ (ups : List Up) (t : Nat), t ≤ (strict T p e ups t).2 ∧
      (strict T p e ups t).2 ≤ t + ups.length * B ∧ (strict T p e ups t).2 ≤ max t e
  | [], t => by simp [strict]; omega
  | u :: us, t => by
    have h := C95_upstream_partial u T p e t
    have hb := hB u t
    unfold strict
    have hmul : (us.length + 1) * B = us.length * B + B := Nat.succ_mul ..
    rw [List.length_cons, hmul]
    rcases hu : u.resolve T p e t with ⟨r, t1⟩
    rw [hu] at h hb
    simp only at h hb
    have ih1 := strict_bounds T p e B hB us t1
    generalize us.length * B = k at *
    cases r with
    | ok m => simp only; exact ⟨h.1, by omega, h.2.2.2.2⟩
    | err er => simp only; exact ⟨by omega, by omega, by omega⟩
    | panic => simp only; exact ⟨by omega, by omega, by omega⟩

private theorem parallel_time (T : Nat) (p : Proto) (e : Nat) (a b : Up) (tie : Bool) (t : Nat) :
    min (a.resolve T p e t).2 (b.resolve T p e t).2 ≤ (parallel T p e a b tie t).2 ∧
    (parallel T p e a b tie t).2 ≤ max (a.resolve T p e t).2 (b.resolve T p e t).2 := by
  by_cases h : (a.resolve T p e t).2 < (b.resolve T p e t).2 ∨
      ((a.resolve T p e t).2 = (b.resolve T p e t).2 ∧ tie = true)
  · simp only [parallel, if_pos h]
    cases message (a.resolve T p e t).1 <;> dsimp only <;> exact ⟨by omega, by omega⟩
  · simp only [parallel, if_neg h]
    cases message (b.resolve T p e t).1 <;> dsimp only <;> exact ⟨by omega, by omega⟩

private theorem random_time (T : Nat) (p : Proto) (e : Nat) (a b : Up) (t : Nat) :
    (random T p e a b t).2 = (a.resolve T p e t).2 ∨
    (random T p e a b t).2 = (b.resolve T p e (a.resolve T p e t).2).2 := by
  unfold random
  rcases a.resolve T p e t with ⟨r, t1⟩
  cases r <;> simp

/-- C95 (what a group may take): with `parallel_best` the result is there after four times `upstreams.timeout` and 2 ms, with
`random` after twice that, with `strict` after that for each upstream; with one upstream the first two take what the
upstream takes; and none outlives the query's context. -/
theorem C95_group_partial (st : Strategy) (T : Nat) (p : Proto) (e : Nat) (ups : List Up) (a b : Up) (tie : Bool)
    (start : Nat) :
    start ≤ (group st T p e ups a b tie start).2 ∧
    (group st T p e ups a b tie start).2 ≤ max start e ∧
    (st = .parallelBest → (group st T p e ups a b tie start).2 ≤ start + (4 * T + 2000000)) ∧
    (st = .random → (group st T p e ups a b tie start).2 ≤ start + 2 * (4 * T + 2000000)) ∧
    (st = .strict → (group st T p e ups a b tie start).2 ≤ start + ups.length * (4 * T + 2000000)) ∧
    (st ≠ .strict → ups.length = 1 → (group st T p e ups a b tie start).2 ≤ start + (4 * T + 2000000)) := by
  obtain ⟨B, hBe⟩ : ∃ B, B = 4 * T + 2000000 := ⟨_, rfl⟩
  rw [← hBe]
  have hB : ∀ (u : Up) t, (u.resolve T p e t).2 ≤ t + B := fun u t => by
    have := (C95_upstream_partial u T p e t).2.1
    rw [Nat.add_assoc] at this
    rw [hBe]; exact this
  have hu := fun (u : Up) (t : Nat) => C95_upstream_partial u T p e t
  have one : ∀ u : Up, start ≤ (u.resolve T p e start).2 ∧ (u.resolve T p e start).2 ≤ max start e ∧
      (u.resolve T p e start).2 ≤ start + B := fun u => ⟨(hu u start).1, (hu u start).2.2.2.2, hB u start⟩
  have par := parallel_time T p e a b tie start
  have ha := one a
  have hb := one b
  have rnd := random_time T p e a b start
  have hb2 := hB b (a.resolve T p e start).2
  have hb3 := hu b (a.resolve T p e start).2
  have hs := strict_bounds T p e _ hB ups start
  cases st with
  | strict =>
    simp only [group]
    exact ⟨hs.1, hs.2.2, nofun, nofun, fun _ => hs.2.1, fun h => absurd rfl h⟩
  | parallelBest =>
    have key : start ≤ (parallel T p e a b tie start).2 ∧ (parallel T p e a b tie start).2 ≤ max start e ∧
        (parallel T p e a b tie start).2 ≤ start + B := ⟨by omega, by omega, by omega⟩
    match ups with
    | [] => exact ⟨key.1, key.2.1, fun _ => key.2.2, nofun, nofun, fun _ _ => key.2.2⟩
    | [u] => exact ⟨(one u).1, (one u).2.1, fun _ => (one u).2.2, nofun, nofun, fun _ _ => (one u).2.2⟩
    | _ :: _ :: _ => exact ⟨key.1, key.2.1, fun _ => key.2.2, nofun, nofun, fun _ _ => key.2.2⟩
  | random =>
    have key : start ≤ (random T p e a b start).2 ∧ (random T p e a b start).2 ≤ max start e ∧
        (random T p e a b start).2 ≤ start + 2 * B := by
      rcases rnd with h | h <;> rw [h] <;> exact ⟨by omega, by omega, by omega⟩
    match ups with
    | [] => exact ⟨key.1, key.2.1, nofun, fun _ => key.2.2, nofun, nofun⟩
    | [u] =>
      exact ⟨(one u).1, (one u).2.1, nofun, fun _ => by have := (one u).2.2; simp only [group]; omega, nofun,
        fun _ _ => (one u).2.2⟩
    | _ :: _ :: _ =>
      exact ⟨key.1, key.2.1, nofun, fun _ => key.2.2, nofun, fun _ h => by simp at h⟩

private theorem queryEnd_eq (T start : Nat) (h : 100 * T < 9223372036854775808) :
    queryEnd T start = start + 100 * T := by
  unfold queryEnd
  have : (BitVec.ofNat 64 (100 * T)).toInt = ((100 * T : Nat) : Int) := by
    rw [BitVec.toInt_eq_toNat_of_lt (by rw [BitVec.toNat_ofNat, Nat.mod_eq_of_lt (by omega)]; omega),
      BitVec.toNat_ofNat, Nat.mod_eq_of_lt (by omega)]
  rw [this]
  omega

/-- C95 (the whole query): unless `upstreams.timeout` is beyond 1067 days, a query gets its result within a hundred times
that duration, however many upstreams there are. -/
theorem C95_query_partial (st : Strategy) (T : Nat) (p : Proto) (ups : List Up) (a b : Up) (tie : Bool) (start : Nat)
    (hT : T ≤ 92233720368547758) : (query st T p ups a b tie start).2 ≤ start + 100 * T := by
  have h := (C95_group_partial st T p (queryEnd T start) ups a b tie start).2.1
  rw [queryEnd_eq T start (by omega)] at h
  unfold query
  rw [queryEnd_eq T start (by omega)]
  omega

/-! ### Silence -/

/-- A server that takes no connections and answers nothing. -/
def deadWire : Wire := ⟨fun _ p _ => match p with | .tcp => ⟨none, none⟩ | .udp => ⟨some (0, none), none⟩, fun _ => true⟩

private theorem dead_tcp (e s : Nat) : dnsExchange e s ⟨none, none⟩ = (.err timedOut, s + min 2000000000 (e - s)) := by
  simp [dnsExchange, contactServer, within, clientLimit, sec, ms]

private theorem dead_udp (e s : Nat) (h : s < e) :
    dnsExchange e s ⟨some (0, none), none⟩ = (.err timedOut, s + min 2000000000 (e - s)) := by
  have : 0 < min 2000000000 (e - s) := by omega
  simp [dnsExchange, contactServer, within, clientLimit, sec, ms, this]

private theorem dead_attempt (T : Nat) (p : Proto) (e : Nat) (ip : IP) (s : Nat) (hT : 0 < T) (he : s + T ≤ e) :
    attempt .tcpUdp T deadWire p e ip s = (.err timedOut, s + min T 2000000000) := by
  have h1 : min e (s + T) = s + T := by omega
  simp only [attempt, deadWire, h1, dead_tcp, dead_udp (s + T) s (by omega)]
  have h2 : s + min 2000000000 (s + T - s) = s + min T 2000000000 := by omega
  rw [h2]
  cases p <;> simp [raceTimed, raceEnd, raceClients, race, exchange, untruncated, isErr, timedOut]

private theorem retry_dead (e : Nat) (call : IP → Nat → Reply × Nat) (L T : Nat) (hL : L ≤ T)
    (h : ∀ ip s, s + T ≤ e → call ip s = (.err timedOut, s + L)) :
    ∀ (left : Nat) (ips : IPSet) (t : Nat), ips.index < ips.values.length → ips.values.length < 4294967296 →
      t + (left + 1) * T + left * 1000000 < e →
      retryTimed e call (left + 1) ips t = (.err timedOut, t + (left + 1) * L + left * 1000000)
  | left, ips, t, hi, hlen, he => by
    have hmul : (left + 1) * T = left * T + T := Nat.succ_mul ..
    have hmulL : (left + 1) * L = left * L + L := Nat.succ_mul ..
    have hc : ips.current = some ips.values[ips.index] := by simp [IPSet.current, hi]
    have hne : ips.values.length ≠ 0 := by omega
    have hn : ips.next = some { ips with index := ((ips.index + 1) % 4294967296) % ips.values.length } := by
      simp [IPSet.next, hne]
    unfold retryTimed
    simp only [hc, h _ t (by omega), hn]
    rw [if_neg (by simp [timedOut])]
    cases left with
    | zero => simp
    | succ left =>
      have hp : pause = 1000000 := rfl
      have hmulT : (left + 1) * T = left * T + T := Nat.succ_mul ..
      rw [if_neg (by omega), hp, if_neg (by omega)]
      rw [retry_dead e call L T hL h left { ips with index := ((ips.index + 1) % 4294967296) % ips.values.length }
        (t + L + 1000000) (Nat.mod_lt _ (by omega)) hlen (by omega)]
      congr 1
      omega

/-- C95 (a dead server): an upstream that never answers is given up exactly three times `upstreams.timeout` (at most 2 s) and
2 ms later. -/
theorem C95_dead (ips : List IP) (hips : ips ≠ []) (hlen : ips.length < 4294967296) (T : Nat) (hT : 0 < T) (p : Proto)
    (e start : Nat) (he : start + 3 * T + 2000000 < e) :
    Up.resolve ⟨.tcpUdp, .known ips, deadWire⟩ T p e start =
      (.err timedOut, start + 3 * min T 2000000000 + 2000000) := by
  have hpos : 0 < ips.length := List.length_pos_iff.2 hips
  unfold Up.resolve lookup
  simp only
  rw [if_neg (by omega)]
  have := retry_dead e (attempt .tcpUdp T deadWire p e) (min T 2000000000) T (by omega)
    (fun ip s h => dead_attempt T p e ip s hT h) 2 { values := ips } start (by simpa using hpos) (by simpa using hlen)
    (by omega)
  rw [show retryAttempts = 2 + 1 from rfl, this]

/-- C95 is false as documented ("Blocky will wait 2 seconds"): with the default of 2 s a query to a dead upstream gets its
(negative) result after 6.002 s. -/
theorem C95_within_timeout_false :
    ¬ ∀ (u : Up) (T : Nat) (p : Proto) (start : Nat), (u.resolve T p (queryEnd T start) start).2 ≤ start + T := by
  intro h
  have := h ⟨.tcpUdp, .known [.v4 1], deadWire⟩ 2000000000 .udp 0
  rw [C95_dead [.v4 1] (by simp) (by simp) 2000000000 (by omega) .udp _ 0 (by rw [queryEnd_eq _ _ (by omega)]; omega)]
    at this
  simp at this

private theorem strict_cons (T : Nat) (p : Proto) (e : Nat) (u : Up) (us : List Up) (t : Nat) :
    strict T p e (u :: us) t = match u.resolve T p e t with
      | (.ok m, t) => (some m, t)
      | (_, t) => strict T p e us t := rfl

/-- C95 (dead servers first): with `strict` every dead upstream in front costs its three attempts before the next one
is asked. -/
theorem C95_strict_behind_dead (dead : List (List IP)) (hd : ∀ ips ∈ dead, ips ≠ [] ∧ ips.length < 4294967296) (T : Nat)
    (hT : 0 < T) (p : Proto) (e : Nat) (rest : List Up) :
    ∀ start, start + dead.length * (3 * T + 2000000) < e →
    strict T p e (dead.map (fun ips => ⟨.tcpUdp, .known ips, deadWire⟩) ++ rest) start =
      strict T p e rest (start + dead.length * (3 * min T 2000000000 + 2000000)) := by
  induction dead with
  | nil => intro start _; simp
  | cons d ds ih =>
    intro start he
    have h1 : (ds.length + 1) * (3 * T + 2000000) = ds.length * (3 * T + 2000000) + (3 * T + 2000000) :=
      Nat.succ_mul ..
    have h2 : (ds.length + 1) * (3 * min T 2000000000 + 2000000) =
        ds.length * (3 * min T 2000000000 + 2000000) + (3 * min T 2000000000 + 2000000) := Nat.succ_mul ..
    rw [List.length_cons] at he ⊢
    rw [h1] at he
    rw [List.map_cons, List.cons_append, strict_cons]
    obtain ⟨hd1, hd2⟩ := hd d (List.mem_cons_self ..)
    have he2 : start + 3 * T + 2000000 < e := by
      refine Nat.lt_of_le_of_lt ?_ he
      rw [Nat.add_assoc]
      exact Nat.add_le_add_left (Nat.le_add_left ..) _
    rw [C95_dead d hd1 hd2 T hT p e start he2]
    simp only
    rw [ih (fun i hi => hd i (List.mem_cons_of_mem _ hi)) _ ?_, h2]
    · congr 1
      generalize ds.length * (3 * min T 2000000000 + 2000000) = k
      omega
    · refine Nat.lt_of_le_of_lt ?_ he
      have hle : min T 2000000000 ≤ T := Nat.min_le_left ..
      generalize ds.length * (3 * T + 2000000) = k at hle ⊢
      omega

/-! ### Answers in time -/

/-- An answer that is complete: no server failure, not truncated. -/
def Complete (m : Msg) : Prop := m.rcode ≠ 2 ∧ m.truncated = false

private theorem complete_exchange {m : Msg} (h : Complete m) (p : Proto) :
    exchange p (.msg m) = ⟨p, .msg m⟩ := by
  have : m.rcode ≠ rcodeServFail := h.1
  simp [exchange, this]

/-- A server that answers over UDP after `delay` and takes no TCP connections. -/
def udpWire (delay : Nat) (m : Msg) : Wire :=
  ⟨fun _ p _ => match p with | .tcp => ⟨none, none⟩ | .udp => ⟨some (0, none), some (delay, .msg m)⟩, fun _ => true⟩

private theorem udp_answer (e s d : Nat) (m : Msg) (h : s < e) :
    dnsExchange e s ⟨some (0, none), some (d, .msg m)⟩ =
      if d < min 2000000000 (e - s) then (.msg m, s + d) else (.err timedOut, s + min 2000000000 (e - s)) := by
  have : 0 < min 2000000000 (e - s) := by omega
  by_cases hd : d < min 2000000000 (e - s)
  · simp [dnsExchange, contactServer, within, clientLimit, sec, ms, this, hd]
  · simp [dnsExchange, contactServer, within, clientLimit, sec, ms, this, hd]

private theorem race_complete_udp (p : Proto) (tie : Bool) (r : Reply × Nat) (m : Msg) (hm : Complete m) (t : Nat) :
    ∃ m' t', raceTimed p tie r (.msg m, t) = (.msg m', t') ∧ t' ≤ t ∧ (t < r.2 → m' = m ∧ t' = t) := by
  by_cases h : r.2 < t ∨ (r.2 = t ∧ tie = true)
  · have hd : (decide (r.2 < t) || (decide (r.2 = t) && tie)) = true := by simpa using h
    simp only [raceTimed, hd, if_true, raceClients, raceEnd, race, complete_exchange hm]
    have hu : untruncated (.msg m) = true := by simp [untruncated, hm.2]
    by_cases h1 : untruncated (exchange .tcp r.1).reply = true
    · cases hr : (exchange .tcp r.1).reply with
      | err er => rw [hr] at h1; simp [untruncated] at h1
      | msg m1 =>
        rw [hr] at h1
        exact ⟨m1, r.2, by simp [h1], by omega, fun h' => by omega⟩
    · simp only [h1, hu]
      exact ⟨m, max r.2 t, by simp, by omega, fun h' => by omega⟩
  · have hd : (decide (r.2 < t) || (decide (r.2 = t) && tie)) = false := by simpa using h
    have hu : untruncated (.msg m) = true := by simp [untruncated, hm.2]
    refine ⟨m, t, ?_, Nat.le_refl _, fun _ => ⟨rfl, rfl⟩⟩
    simp [raceTimed, hd, raceClients, raceEnd, race, complete_exchange hm, hu]

private theorem udp_attempt (T : Nat) (p : Proto) (e : Nat) (ip : IP) (w : Wire) (delay : Nat) (m : Msg) (hm : Complete m)
    (s : Nat) (he : s + T ≤ e) (hT : delay < T) (h2 : delay < 2000000000)
    (hw : w.contact ip .udp s = ⟨some (0, none), some (delay, .msg m)⟩) (hc : (w.contact ip .tcp s).connect = none) :
    attempt .tcpUdp T w p e ip s = (.msg m, s + delay) := by
  have h1 : min e (s + T) = s + T := by omega
  have hd : dnsExchange (s + T) s (w.contact ip .tcp s) = (.err timedOut, s + min 2000000000 (s + T - s)) := by
    simp [dnsExchange, contactServer, within, hc, clientLimit, sec, ms]
  simp only [attempt, h1, hw, udp_answer (s + T) s delay m (by omega), hd]
  rw [if_pos (by omega)]
  obtain ⟨m', t', hr, hle, hx⟩ := race_complete_udp p (w.tcpFirst s) (.err timedOut, s + min 2000000000 (s + T - s)) m hm
    (s + delay)
  obtain ⟨rfl, rfl⟩ := hx (by simp only; omega)
  exact hr

/-- C95 (in time): if an upstream's first address answers completely over UDP before `upstreams.timeout` has passed and
before 2 s have passed, the query is answered by that moment; with this answer, unless TCP was faster. -/
theorem C95_heard_partial (ip : IP) (ips : List IP) (w : Wire) (delay : Nat) (m : Msg) (hm : Complete m) (T : Nat)
    (p : Proto) (e start : Nat) (he : start + T ≤ e) (hT : delay < T) (h2 : delay < 2000000000)
    (hw : w.contact ip .udp start = ⟨some (0, none), some (delay, .msg m)⟩) :
    ∃ m' t, Up.resolve ⟨.tcpUdp, .known (ip :: ips), w⟩ T p e start = (.ok m', t) ∧ t ≤ start + delay ∧
      ((w.contact ip .tcp start).connect = none → m' = m ∧ t = start + delay) := by
  unfold Up.resolve lookup
  simp only
  rw [if_neg (by omega), show retryAttempts = 2 + 1 from rfl]
  unfold retryTimed
  have h1 : min e (start + T) = start + T := by omega
  have hat : attempt .tcpUdp T w p e ip start = raceTimed p (w.tcpFirst start)
      (dnsExchange (start + T) start (w.contact ip .tcp start)) (.msg m, start + delay) := by
    simp only [attempt, h1, hw, udp_answer (start + T) start delay m (by omega)]
    rw [if_pos (by omega)]
  obtain ⟨m', t', hr, hle, hx⟩ := race_complete_udp p (w.tcpFirst start)
    (dnsExchange (start + T) start (w.contact ip .tcp start)) m hm (start + delay)
  refine ⟨m', t', by simp [IPSet.current, hat, hr], hle, fun hc => hx ?_⟩
  have : dnsExchange (start + T) start (w.contact ip .tcp start) = (.err timedOut, start + min 2000000000 (start + T - start)) := by
    simp [dnsExchange, contactServer, within, hc, clientLimit, sec, ms]
  rw [this]
  simp only
  omega

/-- C95 (HTTPS): an answer over HTTPS is heard if it comes, connecting included, before `upstreams.timeout` has
passed: here larger values do work. -/
theorem C95_heard_https (ip : IP) (ips : List IP) (w : Wire) (conn delay : Nat) (m : Msg) (T : Nat) (p : Proto) (e start : Nat)
    (he : start + T ≤ e) (hT : conn + delay < T)
    (hw : w.contact ip .tcp start = ⟨some (conn, none), some (delay, .msg m)⟩) :
    Up.resolve ⟨.https, .known (ip :: ips), w⟩ T p e start = (.ok m, start + conn + delay) := by
  unfold Up.resolve lookup
  simp only
  rw [if_neg (by omega), show retryAttempts = 2 + 1 from rfl]
  unfold retryTimed
  have h1 : min e (start + T) = start + T := by omega
  have hc : conn < T := by omega
  have hd : delay < start + T - (start + conn) := by omega
  simp [IPSet.current, attempt, httpsExchange, contactServer, within, h1, hw, hc, hd]

/-- C95 (late for the client library): an answer over UDP that takes 2 s or more is never heard, whatever
`upstreams.timeout` is. -/
theorem C95_late (ips : List IP) (hips : ips ≠ []) (hlen : ips.length < 4294967296) (delay : Nat) (m : Msg)
    (h2 : 2000000000 ≤ delay) (T : Nat) (hT : 0 < T) (p : Proto) (e start : Nat) (he : start + 3 * T + 2000000 < e) :
    Up.resolve ⟨.tcpUdp, .known ips, udpWire delay m⟩ T p e start =
      (.err timedOut, start + 3 * min T 2000000000 + 2000000) := by
  have hpos : 0 < ips.length := List.length_pos_iff.2 hips
  unfold Up.resolve lookup
  simp only
  rw [if_neg (by omega)]
  have := retry_dead e (attempt .tcpUdp T (udpWire delay m) p e) (min T 2000000000) T (by omega)
    (fun ip s h => by
      have h1 : min e (s + T) = s + T := by omega
      simp only [attempt, udpWire, h1, dead_tcp, udp_answer (s + T) s delay m (by omega)]
      rw [if_neg (by omega)]
      have h2 : s + min 2000000000 (s + T - s) = s + min T 2000000000 := by omega
      rw [h2]
      cases p <;> simp [raceTimed, raceEnd, raceClients, race, exchange, untruncated, isErr, timedOut]) 2
    { values := ips } start (by simpa using hpos) (by simpa using hlen) (by omega)
  rw [show retryAttempts = 2 + 1 from rfl, this]

/-- C95 (a larger `upstreams.timeout`) is false: with the documented example of 5 s an upstream that answers after
3 s is not heard. -/
theorem C95_long_timeout_false :
    ¬ ∀ (ips : List IP) (delay : Nat) (m : Msg) (T : Nat) (p : Proto) (start : Nat), ips ≠ [] → Complete m → delay < T →
      ∃ t, Up.resolve ⟨.tcpUdp, .known ips, udpWire delay m⟩ T p (queryEnd T start) start = (.ok m, t) := by
  intro h
  obtain ⟨t, ht⟩ := h [.v4 1] 3000000000 { id := 7 } 5000000000 .udp 0 (by simp) ⟨by decide, rfl⟩ (by omega)
  rw [C95_late [.v4 1] (by simp) (by simp) 3000000000 { id := 7 } (by omega) 5000000000 (by omega) .udp _ 0
    (by rw [queryEnd_eq _ _ (by omega)]; omega)] at ht
  simp at ht

private theorem contact_congr (limit limit' : Nat → Nat) (s : Nat) (c : Contact)
    (h : ∀ t, s ≤ t → t ≤ s + limit s → limit t = limit' t) : contactServer limit s c = contactServer limit' s c := by
  unfold contactServer
  rw [← h s (Nat.le_refl _) (Nat.le_add_right ..)]
  have hb := within_bounds (limit s) s c.connect
  rcases hw : within (limit s) s c.connect with ⟨r, t⟩
  rw [hw] at hb
  rcases r with _ | _ | er
  · rfl
  · simp only
    rw [h t hb.1 hb.2]
  · rfl

private theorem dns_congr (e e' s : Nat) (c : Contact) (h : s + 4000000000 ≤ e) (h' : s + 4000000000 ≤ e') :
    dnsExchange e s c = dnsExchange e' s c := by
  unfold dnsExchange
  refine contact_congr _ _ s c fun t h1 h2 => ?_
  simp only [clientLimit, sec, ms] at h2 ⊢
  omega

private theorem retry_congr (e e' lim : Nat) (call call' : IP → Nat → Reply × Nat) (he : lim < e) (he' : lim < e')
    (h : ∀ ip s, s + 4000000000 ≤ lim → call ip s = call' ip s) (hb : ∀ ip s, (call ip s).2 ≤ s + 4000000000) :
    ∀ (left : Nat) (ips : IPSet) (t : Nat), t + left * 4001000000 ≤ lim →
      retryTimed e call left ips t = retryTimed e' call' left ips t
  | 0, _, _, _ => rfl
  | left + 1, ips, t, ht => by
    unfold retryTimed
    cases ips.current with
    | none => rfl
    | some ip =>
      simp only
      rw [← h ip t (by omega)]
      have hb1 := hb ip t
      rcases hc : call ip t with ⟨r, t1⟩
      rw [hc] at hb1
      simp only at hb1
      cases r with
      | msg m => rfl
      | err er =>
        simp only
        cases ips.next with
        | none => rfl
        | some ips' =>
          have hp : pause = 1000000 := rfl
          simp only [hp]
          split
          · rfl
          · split
            · rfl
            · rename_i hl
              have : 0 < left := Nat.pos_of_ne_zero hl
              rw [if_neg (by omega), if_neg (by omega)]
              exact retry_congr e e' lim call call' he he' h hb left ips' _ (by omega)

/-- C95 (no effect): except over HTTPS, all values of `upstreams.timeout` of 4 s or more do the same to an upstream
whose address is known. -/
theorem C95_no_effect_partial (net : Net) (hn : net ≠ .https) (ips : List IP) (w : Wire) (p : Proto) (T T' : Nat)
    (h : 4000000000 ≤ T) (h' : 4000000000 ≤ T') (start : Nat) (hm : T ≤ 92233720368547758)
    (hm' : T' ≤ 92233720368547758) :
    Up.resolve ⟨net, .known ips, w⟩ T p (queryEnd T start) start =
      Up.resolve ⟨net, .known ips, w⟩ T' p (queryEnd T' start) start := by
  rw [queryEnd_eq T start (by omega), queryEnd_eq T' start (by omega)]
  unfold Up.resolve lookup
  simp only
  rw [if_neg (by omega), if_neg (by omega)]
  refine retry_congr _ _ (start + 12003000000) _ _ (by omega) (by omega) (fun ip s hs => ?_)
    (fun ip s => (attempt_bounds net T w p _ ip s).2.2.2 hn) retryAttempts _ start (by unfold retryAttempts; omega)
  have hd := dns_congr (min (start + 100 * T) (s + T)) (min (start + 100 * T') (s + T')) s
  cases net with
  | https => exact absurd rfl hn
  | tcpTls => simp only [attempt]; exact hd _ (by omega) (by omega)
  | tcpUdp =>
    simp only [attempt]
    rw [hd _ (by omega) (by omega), hd _ (by omega) (by omega)]

/-! ### Several upstreams and several addresses -/

/-- C95 (the faster of two): with `parallel_best` a message of either upstream drawn is returned as soon as the first of
them is there; the other one does not matter, however slow it is. -/
theorem C95_parallel_fast (T : Nat) (p : Proto) (e : Nat) (a b : Up) (tie : Bool) (start : Nat) (m : Msg) (t : Nat)
    (h : a.resolve T p e start = (.ok m, t) ∨ b.resolve T p e start = (.ok m, t)) :
    ∃ m' t', parallel T p e a b tie start = (some m', t') ∧ t' ≤ t ∧
      (a.resolve T p e start = (.ok m', t') ∨ b.resolve T p e start = (.ok m', t')) := by
  rcases ha : a.resolve T p e start with ⟨ra, ta⟩
  rcases hb : b.resolve T p e start with ⟨rb, tb⟩
  rw [ha, hb] at h
  by_cases hc : ta < tb ∨ (ta = tb ∧ tie = true)
  · simp only [parallel, ha, hb, if_pos hc]
    cases hma : message ra with
    | some m1 =>
      have : ra = .ok m1 := by cases ra <;> simp_all [message]
      subst this
      refine ⟨m1, ta, rfl, ?_, .inl rfl⟩
      rcases h with h | h <;> simp only [Prod.mk.injEq] at h <;> omega
    | none =>
      rcases h with h | h
      · simp only [Prod.mk.injEq] at h
        rw [h.1] at hma
        cases hma
      · simp only [Prod.mk.injEq] at h
        refine ⟨m, tb, by simp [h.1, message], by omega, .inr (by rw [h.1])⟩
  · simp only [parallel, ha, hb, if_neg hc]
    cases hmb : message rb with
    | some m1 =>
      have : rb = .ok m1 := by cases rb <;> simp_all [message]
      subst this
      refine ⟨m1, tb, rfl, ?_, .inr rfl⟩
      rcases h with h | h <;> simp only [Prod.mk.injEq] at h <;> omega
    | none =>
      rcases h with h | h
      · simp only [Prod.mk.injEq] at h
        refine ⟨m, ta, by simp [h.1, message], by omega, .inl (by rw [h.1])⟩
      · simp only [Prod.mk.injEq] at h
        rw [h.1] at hmb
        cases hmb

/-- C95 (no answer from two): with `parallel_best` a failure is reported when the slower of the two has failed. -/
theorem C95_parallel_fails (T : Nat) (p : Proto) (e : Nat) (a b : Up) (tie : Bool) (start : Nat)
    (ha : message (a.resolve T p e start).1 = none) (hb : message (b.resolve T p e start).1 = none) :
    parallel T p e a b tie start = (none, max (a.resolve T p e start).2 (b.resolve T p e start).2) := by
  by_cases hc : (a.resolve T p e start).2 < (b.resolve T p e start).2 ∨
      ((a.resolve T p e start).2 = (b.resolve T p e start).2 ∧ tie = true)
  · simp only [parallel, if_pos hc, ha, hb]
    congr 1; omega
  · simp only [parallel, if_neg hc, ha, hb]
    congr 1; omega

/-- C95 (random, dead first): with `random` a dead upstream drawn first costs its three attempts before the other one is
asked. -/
theorem C95_random_behind_dead (ips : List IP) (hips : ips ≠ []) (hlen : ips.length < 4294967296) (b : Up) (T : Nat)
    (hT : 0 < T) (p : Proto) (e start : Nat) (he : start + 3 * T + 2000000 < e) :
    random T p e ⟨.tcpUdp, .known ips, deadWire⟩ b start =
      (message (b.resolve T p e (start + 3 * min T 2000000000 + 2000000)).1,
        (b.resolve T p e (start + 3 * min T 2000000000 + 2000000)).2) := by
  unfold random
  rw [C95_dead ips hips hlen T hT p e start he]

/-- A host with one dead address and one that answers over UDP after `delay`. -/
def halfWire (live : IP) (delay : Nat) (m : Msg) : Wire :=
  ⟨fun ip p t => if ip = live then (udpWire delay m).contact ip p t else deadWire.contact ip p t, fun _ => true⟩

/-- C95 (second address): if the first address of an upstream is dead and the second one answers, the answer takes a limit
and 1 ms longer - every time, as each query starts with the first address. -/
theorem C95_second_address (dead live : IP) (hne : dead ≠ live) (delay : Nat) (m : Msg) (hm : Complete m) (T : Nat)
    (p : Proto) (e start : Nat) (he : start + 2 * T + 1000000 < e) (hT : delay < T) (h2 : delay < 2000000000) :
    Up.resolve ⟨.tcpUdp, .known [dead, live], halfWire live delay m⟩ T p e start =
      (.ok m, start + min T 2000000000 + 1000000 + delay) := by
  unfold Up.resolve lookup
  simp only
  rw [if_neg (by omega), show retryAttempts = 2 + 1 from rfl]
  have h1 : attempt .tcpUdp T (halfWire live delay m) p e dead start = (.err timedOut, start + min T 2000000000) := by
    have := dead_attempt T p e dead start (by omega) (by omega)
    simpa only [attempt, halfWire, if_neg hne, deadWire] using this
  have h2' : attempt .tcpUdp T (halfWire live delay m) p e live (start + min T 2000000000 + 1000000) =
      (.msg m, start + min T 2000000000 + 1000000 + delay) :=
    udp_attempt T p e live (halfWire live delay m) delay m hm _ (by omega) hT h2 (by simp [halfWire, udpWire])
      (by simp [halfWire, udpWire])
  have hp : pause = 1000000 := rfl
  simp only [retryTimed, IPSet.current, List.getElem?_cons_zero, h1, IPSet.next]
  rw [if_neg (by simp [timedOut])]
  simp only [List.length_cons, List.length_nil, hp]
  rw [if_neg (by omega)]
  simp only
  rw [if_neg (by omega), if_neg (by omega)]
  simp [h2']

/-- C95 (no retry): an error that is no time-out, such as a refused connection, ends the upstream's turn at once. -/
theorem C95_refused (net : Net) (hn : net ≠ .tcpUdp) (ip : IP) (ips : List IP) (w : Wire) (after : Nat) (er : UErr)
    (her : er.timeout = false) (T : Nat) (p : Proto) (e start : Nat) (he : start + T ≤ e) (h : after < T)
    (h2 : after < 2000000000) (hw : (w.contact ip .tcp start).connect = some (after, some er)) :
    Up.resolve ⟨net, .known (ip :: ips), w⟩ T p e start = (.err er, start + after) := by
  unfold Up.resolve lookup
  simp only
  rw [if_neg (by omega), show retryAttempts = 2 + 1 from rfl]
  have h1 : min e (start + T) = start + T := by omega
  have hat : attempt net T w p e ip start = (.err er, start + after) := by
    have hl : after < min 2000000000 T := by omega
    cases net with
    | tcpUdp => exact absurd rfl hn
    | tcpTls => simp [attempt, dnsExchange, contactServer, within, hw, h1, clientLimit, sec, ms, hl]
    | https => simp [attempt, httpsExchange, contactServer, within, hw, h1, h]
  unfold retryTimed
  simp [IPSet.current, hat, her]

/-! ### Huge values -/

/-- C95 (huge values): from 92233720368547759 ns (1067 days) up to the double the product of server.go 532 is negative, the
context of each query has ended before it begins, and no upstream gives an answer. -/
theorem C95_huge_timeout (T : Nat) (h : 92233720368547759 ≤ T) (h' : T ≤ 184467440737095516) (ups : List Up) (p : Proto)
    (a b : Up) (tie : Bool) (st : Strategy) (start : Nat) : query st T p ups a b tie start = (none, start) := by
  have hq : queryEnd T start = start := by
    unfold queryEnd
    have : (BitVec.ofNat 64 (100 * T)).toInt ≤ 0 := by
      rw [BitVec.toInt_eq_toNat_cond, BitVec.toNat_ofNat, Nat.mod_eq_of_lt (by omega)]
      split <;> omega
    omega
  have up : ∀ u : Up, ∃ er, u.resolve T p start start = (.err er, start) := by
    intro u
    unfold Up.resolve
    cases hu : u.host with
    | known ips => exact ⟨ctxDone, by simp [lookup]⟩
    | asked found =>
      refine ⟨timedOut, ?_⟩
      simp only [lookup, Nat.sub_self, Nat.min_zero]
      cases hf : found start with
      | none => simp [within]
      | some x => simp [within]
  have hmsg : ∀ u : Up, message (u.resolve T p start start).1 = none ∧ (u.resolve T p start start).2 = start := by
    intro u
    obtain ⟨er, h⟩ := up u
    rw [h]
    exact ⟨rfl, rfl⟩
  have hstrict : ∀ us : List Up, strict T p start us start = (none, start) := by
    intro us
    induction us with
    | nil => rfl
    | cons u us ih =>
      obtain ⟨er, h⟩ := up u
      rw [strict_cons, h]
      exact ih
  have hpar : parallel T p start a b tie start = (none, start) := by
    rw [C95_parallel_fails T p start a b tie start (hmsg a).1 (hmsg b).1, (hmsg a).2, (hmsg b).2, Nat.max_self]
  have hrnd : random T p start a b start = (none, start) := by
    obtain ⟨er, h⟩ := up a
    unfold random
    rw [h]
    simp only
    rw [(hmsg b).1, (hmsg b).2]
  unfold query
  rw [hq]
  unfold group
  split
  · exact hstrict _
  · rw [(hmsg _).1, (hmsg _).2]
  · exact hpar
  · exact hrnd

/-! ### The clock changes nothing else -/

/-- The servers as `Model.Upstream` sees them, in a world that is a clock: the moment, and whether an attempt has been made,
so that the pause comes before the next one. -/
def clockExchanges (net : Net) (T : Nat) (w : Wire) (p : Proto) (e : Nat) : Exchanges (Nat × Bool) where
  single ip _ x :=
    let s := if x.2 then x.1 + pause else x.1
    ((attempt net T w p e ip s).1, ((attempt net T w p e ip s).2, true))
  both ip _ x :=
    let s := if x.2 then x.1 + pause else x.1
    let tcp := dnsExchange (min e (s + T)) s (w.contact ip .tcp s)
    let udp := dnsExchange (min e (s + T)) s (w.contact ip .udp s)
    (tcp.1, udp.1, decide (tcp.2 < udp.2) || (decide (tcp.2 = udp.2) && w.tcpFirst s),
      ((attempt .tcpUdp T w p e ip s).2, true))

private theorem clock_call (net : Net) (T : Nat) (w : Wire) (p : Proto) (e : Nat) (ip : IP) (req : Msg) (x : Nat × Bool) :
    callExternal (clockExchanges net T w p e) net ip req p x =
      ((attempt net T w p e ip (if x.2 then x.1 + pause else x.1)).1,
        ((attempt net T w p e ip (if x.2 then x.1 + pause else x.1)).2, true)) := by
  cases net <;> rfl

private theorem clock_retry (net : Net) (T : Nat) (w : Wire) (p : Proto) (e : Nat) (req : Msg) :
    ∀ (left : Nat) (ips : IPSet) (t : Nat) (b : Bool),
      (retryDo (fun ip x => callExternal (clockExchanges net T w p e) net ip req p x)
        (fun x => if e ≤ x.1 + pause then some ctxDone else none) left ips (t, b)).1 =
      (retryTimed e (attempt net T w p e) left ips (if b then t + pause else t)).1
  | 0, _, _, _ => rfl
  | left + 1, ips, t, b => by
    unfold retryDo retryTimed
    cases ips.current with
    | none => rfl
    | some ip =>
      simp only [clock_call]
      rcases attempt net T w p e ip (if b = true then t + pause else t) with ⟨r, t1⟩
      cases r with
      | msg m => rfl
      | err er =>
        simp only
        split
        · rfl
        · cases ips.next with
          | none => rfl
          | some ips' =>
            simp only
            split
            · rfl
            · by_cases h : e ≤ t1 + pause
              · simp only [if_pos h]
              · simp only [if_neg h]
                have := clock_retry net T w p e req left ips' t1 true
                simp only [clock_call, if_true] at this
                exact this

/-- C95 (same results): apart from the time, what an upstream gives is what C44 and C45 are about. -/
theorem C95_same_result (u : Up) (T : Nat) (request : Request) (e start : Nat) (he : (lookup T e u.host start).2 < e) :
    (u.resolve T request.protocol e start).1 =
      (Upstream.resolve (clockExchanges u.net T u.wire request.protocol e) u.net
        (fun x => ((lookup T e u.host x.1).1, ((lookup T e u.host x.1).2, false)))
        (fun x => if e ≤ x.1 + pause then some ctxDone else none) request (start, false)).1 := by
  unfold Up.resolve Upstream.resolve
  simp only
  rcases hl : lookup T e u.host start with ⟨r, t⟩
  rw [hl] at he
  cases r with
  | inr er => rfl
  | inl ips =>
    simp only
    rw [if_neg (by simp only at he; omega), clock_retry]
    rfl

/-! ### Examples -/

/-- The defaults: 2 s, a dead upstream and one that answers after 20 ms. -/
def deadUp : Up := ⟨.tcpUdp, .known [.v4 1], deadWire⟩
def liveUp : Up := ⟨.tcpUdp, .known [.v4 2], udpWire 20000000 { id := 7 }⟩

example : query .strict 2000000000 .udp [deadUp, deadUp, liveUp] deadUp deadUp true 0 = (some { id := 7 }, 12024000000) := by
  decide +kernel

example : query .random 2000000000 .udp [deadUp, liveUp] deadUp liveUp true 0 = (some { id := 7 }, 6022000000) := by
  decide +kernel

example : query .parallelBest 2000000000 .udp [deadUp, liveUp] deadUp liveUp true 0 = (some { id := 7 }, 20000000) := by
  decide +kernel

example : query .parallelBest 2000000000 .udp [deadUp, deadUp] deadUp deadUp true 0 = (none, 6002000000) := by
  decide +kernel

/-- With 34 dead upstreams in front the query's context ends before the last one is asked. -/
example : query .strict 2000000000 .udp (List.replicate 34 deadUp ++ [liveUp]) deadUp deadUp true 0 = (none, 200000000000) := by
  decide +kernel

/-- C95 (strict with many) is false: an upstream that answers at once is of no use behind 34 dead ones. -/
theorem C95_strict_finds_it_false :
    ¬ ∀ (T : Nat) (p : Proto) (ups : List Up), 0 < T →
      (∃ u ∈ ups, ∃ m, ∀ start e, start + T ≤ e → ∃ t, u.resolve T p e start = (.ok m, t)) →
      (query .strict T p ups liveUp liveUp true 0).1 ≠ none := by
  intro h
  refine h 2000000000 .udp (List.replicate 34 deadUp ++ [liveUp]) (by omega) ⟨liveUp, by simp, { id := 7 }, ?_⟩
    (by decide +kernel)
  intro start e he
  obtain ⟨m', t, h1, _, h2⟩ := C95_heard_partial (.v4 2) [] (udpWire 20000000 { id := 7 }) 20000000 { id := 7 }
    ⟨by decide, rfl⟩ 2000000000 .udp e start he (by omega) (by omega) rfl
  obtain ⟨rfl, _⟩ := h2 rfl
  exact ⟨t, h1⟩

end Verif.Props
