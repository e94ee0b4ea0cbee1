/-
C44, C45, C56, C57: asking an upstream.
-/
import Verif.Model.Upstream

namespace Verif.Props
open Dns Upstream

variable {W : Type}

/-! ### C44 -/

/-- The kinds of results of one exchange. -/
def CompleteReply (r : Reply) : Prop := ∃ m, r = .msg m ∧ m.rcode ≠ rcodeServFail ∧ m.truncated = false
def TruncatedReply (r : Reply) : Prop := ∃ m, r = .msg m ∧ m.rcode ≠ rcodeServFail ∧ m.truncated = true
def FailedReply (r : Reply) : Prop := (∃ e, r = .err e) ∨ ∃ m, r = .msg m ∧ m.rcode = rcodeServFail

theorem reply_kinds (r : Reply) : CompleteReply r ∨ TruncatedReply r ∨ FailedReply r := by
  cases r with
  | err e => exact Or.inr (Or.inr (Or.inl ⟨e, rfl⟩))
  | msg m =>
    by_cases h : m.rcode = rcodeServFail
    · exact Or.inr (Or.inr (Or.inr ⟨m, rfl, h⟩))
    · cases ht : m.truncated with
      | false => exact Or.inl ⟨m, rfl, h, ht⟩
      | true => exact Or.inr (Or.inl ⟨m, rfl, h, ht⟩)

theorem exchange_complete {p : Proto} {r : Reply} (h : CompleteReply r) :
    (exchange p r).reply = r ∧ untruncated r = true ∧ isErr r = false := by
  obtain ⟨m, rfl, h1, h2⟩ := h
  simp [exchange, h1, untruncated, h2, isErr]

theorem exchange_truncated {p : Proto} {r : Reply} (h : TruncatedReply r) :
    (exchange p r).reply = r ∧ untruncated r = false ∧ isErr r = false := by
  obtain ⟨m, rfl, h1, h2⟩ := h
  simp [exchange, h1, untruncated, h2, isErr]

/-- The error a failed exchange amounts to. -/
def failure : Reply → UErr
  | .err e => e
  | .msg m => { text := str! "upstream server failed", upstream := some m }

theorem exchange_failed {p : Proto} {r : Reply} (h : FailedReply r) :
    (exchange p r).reply = .err (failure r) ∧ untruncated (exchange p r).reply = false ∧
      isErr (exchange p r).reply = true := by
  rcases h with ⟨e, rfl⟩ | ⟨m, rfl, h⟩
  · simp [exchange, untruncated, isErr, failure]
  · simp [exchange, h, untruncated, isErr, failure]

theorem exchange_proto (p : Proto) (r : Reply) : (exchange p r).proto = p := by
  cases r with
  | err e => rfl
  | msg m => by_cases h : m.rcode = rcodeServFail <;> simp [exchange, h]

/-- C44: if either transport delivers a complete answer, a complete answer is returned (one of the two
delivered), whichever comes first; if both do, the first. -/
theorem C44_complete (protocol : Proto) (tcp udp : Reply) (tcpFirst : Bool) :
    (CompleteReply tcp → ¬ CompleteReply udp → raceClients protocol tcp udp tcpFirst = tcp) ∧
    (CompleteReply udp → ¬ CompleteReply tcp → raceClients protocol tcp udp tcpFirst = udp) ∧
    (CompleteReply tcp → CompleteReply udp →
      raceClients protocol tcp udp tcpFirst = if tcpFirst then tcp else udp) := by
  have hnot : ∀ p r, ¬ CompleteReply r → untruncated (exchange p r).reply = false := by
    intro p r h
    rcases reply_kinds r with hc | ht | hf
    · exact absurd hc h
    · rw [(exchange_truncated ht).1]; exact (exchange_truncated (p := p) ht).2.1
    · exact (exchange_failed hf).2.1
  refine ⟨?_, ?_, ?_⟩
  · intro h1 h2
    have a := exchange_complete (p := .tcp) h1
    have b := hnot .udp udp h2
    cases tcpFirst <;> simp [raceClients, race, a, b]
  · intro h1 h2
    have a := exchange_complete (p := .udp) h1
    have b := hnot .tcp tcp h2
    cases tcpFirst <;> simp [raceClients, race, a, b]
  · intro h1 h2
    have a := exchange_complete (p := .tcp) h1
    have b := exchange_complete (p := .udp) h2
    cases tcpFirst <;> simp [raceClients, race, a, b]

/-- C44: without a complete answer, a truncated one is returned if there is one. -/
theorem C44_truncated (protocol : Proto) (tcp udp : Reply) (tcpFirst : Bool)
    (h1 : ¬ CompleteReply tcp) (h2 : ¬ CompleteReply udp) (h : TruncatedReply tcp ∨ TruncatedReply udp) :
    TruncatedReply (raceClients protocol tcp udp tcpFirst) ∧
      (raceClients protocol tcp udp tcpFirst = tcp ∨ raceClients protocol tcp udp tcpFirst = udp) := by
  rcases (reply_kinds tcp).resolve_left h1 with t1 | f1 <;> rcases (reply_kinds udp).resolve_left h2 with t2 | f2
  · have a := exchange_truncated (p := .tcp) t1
    have b := exchange_truncated (p := .udp) t2
    cases tcpFirst <;> simp [raceClients, race, a, b, t1, t2]
  · have a := exchange_truncated (p := .tcp) t1
    have b := exchange_failed (p := .udp) f2
    have ha : untruncated tcp = false ∧ isErr tcp = false := a.2
    have hb : untruncated (Reply.err (failure udp)) = false ∧ isErr (Reply.err (failure udp)) = true := ⟨rfl, rfl⟩
    cases tcpFirst <;> simp [raceClients, race, a.1, b.1, ha, hb, t1]
  · have a := exchange_failed (p := .tcp) f1
    have b := exchange_truncated (p := .udp) t2
    have hb : untruncated udp = false ∧ isErr udp = false := b.2
    have ha : untruncated (Reply.err (failure tcp)) = false ∧ isErr (Reply.err (failure tcp)) = true := ⟨rfl, rfl⟩
    cases tcpFirst <;> simp [raceClients, race, a.1, b.1, ha, hb, t2]
  · have hno : ∀ {r}, FailedReply r → TruncatedReply r → False := by
      intro r hf ht
      obtain ⟨m, rfl, h1, _⟩ := ht
      rcases hf with ⟨e, he⟩ | ⟨m', he, hs⟩
      · cases he
      · injection he with he; subst he; exact h1 hs
    rcases h with h | h
    · exact absurd h (fun h => hno f1 h)
    · exact absurd h (fun h => hno f2 h)

/-- C44: an error is returned exactly if both transports fail (a SERVFAIL counts as failure), and it is
that of the transport the client used. -/
theorem C44_error (protocol : Proto) (tcp udp : Reply) (tcpFirst : Bool) :
    ((∃ e, raceClients protocol tcp udp tcpFirst = .err e) ↔ FailedReply tcp ∧ FailedReply udp) ∧
    (FailedReply tcp → FailedReply udp → raceClients protocol tcp udp tcpFirst =
      .err (failure (match protocol with | .tcp => tcp | .udp => udp))) := by
  have hboth : FailedReply tcp → FailedReply udp → raceClients protocol tcp udp tcpFirst =
      .err (failure (match protocol with | .tcp => tcp | .udp => udp)) := by
    intro f1 f2
    have a := exchange_failed (p := .tcp) f1
    have b := exchange_failed (p := .udp) f2
    have pa := exchange_proto .tcp tcp
    have pb := exchange_proto .udp udp
    have hz : ∀ e, untruncated (Reply.err e) = false ∧ isErr (Reply.err e) = true := fun e => ⟨rfl, rfl⟩
    cases tcpFirst <;> cases protocol <;> simp [raceClients, race, a.1, b.1, pa, pb, hz]
  refine ⟨⟨?_, ?_⟩, hboth⟩
  · rintro ⟨e, he⟩
    by_cases c1 : CompleteReply tcp
    · obtain ⟨m, hm, _⟩ := c1
      exfalso
      by_cases c2 : CompleteReply udp
      · have := (C44_complete protocol tcp udp tcpFirst).2.2 ⟨m, hm, ‹_›⟩ c2
        obtain ⟨m2, hm2, _⟩ := c2
        rw [he, hm, hm2] at this
        cases tcpFirst <;> cases this
      · have := (C44_complete protocol tcp udp tcpFirst).1 ⟨m, hm, ‹_›⟩ c2
        rw [he, hm] at this; cases this
    · by_cases c2 : CompleteReply udp
      · exfalso
        have := (C44_complete protocol tcp udp tcpFirst).2.1 c2 c1
        obtain ⟨m2, hm2, _⟩ := c2
        rw [he, hm2] at this; cases this
      · by_cases ht : TruncatedReply tcp ∨ TruncatedReply udp
        · exfalso
          obtain ⟨m, hm, _⟩ := (C44_truncated protocol tcp udp tcpFirst c1 c2 ht).1
          rw [he] at hm; cases hm
        · exact ⟨((reply_kinds tcp).resolve_left c1).resolve_left (fun h => ht (Or.inl h)),
            ((reply_kinds udp).resolve_left c2).resolve_left (fun h => ht (Or.inr h))⟩
  · rintro ⟨f1, f2⟩
    exact ⟨_, hboth f1 f2⟩

/-- C44: a first complete answer is not held up by the other transport. -/
theorem C44_first_wins (protocol : Proto) (first : ExchangeResult) (h : CompleteReply first.reply)
    (second second' : ExchangeResult) : race protocol first second = race protocol first second' := by
  obtain ⟨m, hm, _, ht⟩ := h
  have : untruncated first.reply = true := by rw [hm]; simp [untruncated, ht]
  unfold race
  rw [if_pos this, if_pos this]

/-- A complete and a truncated answer. -/
example : CompleteReply (.msg { id := 1 }) ∧ TruncatedReply (.msg { id := 1, truncated := true }) ∧
    FailedReply (.err ⟨str! "refused", false, none⟩) ∧
    raceClients .udp (.msg { id := 1 }) (.msg { id := 1, truncated := true }) false = .msg { id := 1 } :=
  ⟨⟨_, rfl, by decide, rfl⟩, ⟨_, rfl, by decide, rfl⟩, Or.inl ⟨_, rfl⟩, by decide⟩

/-! ### C45 -/

/-- The world after `k` attempts, the `i`-th made at the `i`-th address, round-robin. -/
def worldAfter (call : IP → W → Reply × W) (ips : List IP) (hne : 0 < ips.length) (w : W) : Nat → W
  | 0 => w
  | k + 1 => (call (ips[k % ips.length]'(Nat.mod_lt _ hne)) (worldAfter call ips hne w k)).2

/-- The reply of attempt `k`. -/
def replyOf (call : IP → W → Reply × W) (ips : List IP) (hne : 0 < ips.length) (w : W) (k : Nat) : Reply :=
  (call (ips[k % ips.length]'(Nat.mod_lt _ hne)) (worldAfter call ips hne w k)).1

/-- A reply that leads to another attempt. -/
def TimedOut (r : Reply) : Prop := ∃ e, r = .err e ∧ e.timeout = true

/-- What C45 promises about a run of at most `n` attempts, the first being number `start`: attempts
`start … start + k` were made, all but the last timed out, and the result is that of the last one; it was
the last because it succeeded, failed otherwise than by a time-out, or was the `n`-th; or the query's own
context ended, whose error is then the result. -/
def RetrySpec (call : IP → W → Reply × W) (ctxErr : W → Option UErr) (ips : List IP) (hne : 0 < ips.length) (w : W)
    (start n : Nat) (result : UResult × W) : Prop :=
  ∃ k, k < n ∧ (∀ i, i < k → TimedOut (replyOf call ips hne w (start + i))) ∧
    result.2 = worldAfter call ips hne w (start + k + 1) ∧
    ((∃ m, replyOf call ips hne w (start + k) = .msg m ∧ result.1 = .ok m) ∨
     (∃ e, replyOf call ips hne w (start + k) = .err e ∧ result.1 = .err e ∧ (e.timeout = false ∨ k + 1 = n)) ∨
     (∃ e, TimedOut (replyOf call ips hne w (start + k)) ∧ k + 1 < n ∧ result.1 = .err e ∧
       ctxErr (worldAfter call ips hne w (start + k + 1)) = some e))

theorem retryDo_spec (call : IP → W → Reply × W) (ctxErr : W → Option UErr) (ips : List IP) (hne : 0 < ips.length)
    (hbound : ips.length < 4294967296) (w : W) :
    ∀ (left start : Nat), RetrySpec call ctxErr ips hne w start (left + 1)
      (retryDo call ctxErr (left + 1) { values := ips, index := start % ips.length } (worldAfter call ips hne w start)) := by
  intro left
  induction left with
  | zero =>
    intro start
    have hcur : (IPSet.mk ips (start % ips.length)).current = some (ips[start % ips.length]'(Nat.mod_lt _ hne)) := by
      unfold IPSet.current
      exact List.getElem?_eq_getElem _
    unfold retryDo
    simp only [hcur]
    refine ⟨0, by omega, by intro i hi; omega, ?_⟩
    cases hc : call (ips[start % ips.length]'(Nat.mod_lt _ hne)) (worldAfter call ips hne w start) with
    | mk r w' =>
      have hr : replyOf call ips hne w (start + 0) = r := by simp only [replyOf, Nat.add_zero, hc]
      have hw : worldAfter call ips hne w (start + 0 + 1) = w' := by simp only [worldAfter, Nat.add_zero, hc]
      rw [hr, hw]
      cases r with
      | msg m => exact ⟨rfl, Or.inl ⟨m, rfl, rfl⟩⟩
      | err e =>
        simp only
        have hnext : (IPSet.mk ips (start % ips.length)).next =
            some { values := ips, index := ((start % ips.length + 1) % 4294967296) % ips.length } := by
          unfold IPSet.next
          rw [if_neg (by simp only; omega)]
        cases ht : e.timeout with
        | false => simp only [Bool.not_false, if_true]; exact ⟨trivial, Or.inr (Or.inl ⟨e, rfl, rfl, Or.inl ht⟩)⟩
        | true =>
          simp only [Bool.not_true, Bool.false_eq_true, if_false, hnext, if_true]
          exact ⟨trivial, Or.inr (Or.inl ⟨e, rfl, rfl, Or.inr trivial⟩)⟩
  | succ left ih =>
    intro start
    have hcur : (IPSet.mk ips (start % ips.length)).current = some (ips[start % ips.length]'(Nat.mod_lt _ hne)) := by
      unfold IPSet.current
      exact List.getElem?_eq_getElem _
    have hnext : (IPSet.mk ips (start % ips.length)).next =
        some { values := ips, index := (start + 1) % ips.length } := by
      unfold IPSet.next
      rw [if_neg (by simp only; omega)]
      have hlt := Nat.mod_lt start hne
      have h1 : (start % ips.length + 1) % 4294967296 = start % ips.length + 1 := Nat.mod_eq_of_lt (by omega)
      simp only [h1]
      rw [Nat.mod_add_mod]
    unfold retryDo
    simp only [hcur, hnext]
    cases hc : call (ips[start % ips.length]'(Nat.mod_lt _ hne)) (worldAfter call ips hne w start) with
    | mk r w' =>
      have hr : replyOf call ips hne w start = r := by simp only [replyOf, hc]
      have hw : worldAfter call ips hne w (start + 1) = w' := by simp only [worldAfter, hc]
      cases r with
      | msg m =>
        refine ⟨0, by omega, by intro i hi; omega, ?_⟩
        simp only [Nat.add_zero]
        rw [hr, hw]
        exact ⟨rfl, Or.inl ⟨m, rfl, rfl⟩⟩
      | err e =>
        simp only
        cases ht : e.timeout with
        | false =>
          refine ⟨0, by omega, by intro i hi; omega, ?_⟩
          simp only [Nat.add_zero, Bool.not_false, if_true]
          rw [hr, hw]
          exact ⟨rfl, Or.inr (Or.inl ⟨e, rfl, rfl, Or.inl ht⟩)⟩
        | true =>
          simp only [Bool.not_true, Bool.false_eq_true, if_false, Nat.succ_ne_zero]
          have hto : TimedOut (replyOf call ips hne w start) := by rw [hr]; exact ⟨e, rfl, ht⟩
          cases hctx : ctxErr w' with
          | some ce =>
            refine ⟨0, by omega, by intro i hi; omega, ?_⟩
            simp only [Nat.add_zero]
            rw [hw]
            exact ⟨rfl, Or.inr (Or.inr ⟨ce, hto, by omega, rfl, hctx⟩)⟩
          | none =>
            simp only
            obtain ⟨k, hk, hall, hres, hcase⟩ := ih (start + 1)
            rw [hw] at hres hcase
            have hidx : start + (k + 1) = start + 1 + k := by omega
            refine ⟨k + 1, by omega, ?_, ?_, ?_⟩
            · intro i hi
              cases i with
              | zero => exact hto
              | succ i =>
                have := hall i (by omega)
                have h2 : start + (i + 1) = start + 1 + i := by omega
                rw [h2]; exact this
            · rw [hidx]; exact hres
            · rw [hidx]
              rcases hcase with h | ⟨e', h1, h2, h3⟩ | ⟨e', h1, h2, h3, h4⟩
              · exact Or.inl h
              · refine Or.inr (Or.inl ⟨e', h1, h2, ?_⟩)
                rcases h3 with h3 | h3
                · exact Or.inl h3
                · exact Or.inr (by omega)
              · exact Or.inr (Or.inr ⟨e', h1, by omega, h3, h4⟩)

/-- C45: a query to an upstream with at least one address makes one to three attempts, the i-th at the
i-th address (round-robin), goes on only after time-outs, and returns the first success or the last error
(or, while waiting, the error of the query's own context). It never panics, for every address list and
every behaviour of the network. -/
theorem C45_retries (x : Exchanges W) (net : Net) (lookup : W → (List IP ⊕ UErr) × W) (ctxErr : W → Option UErr)
    (request : Request) (w w' : W) (ips : List IP) (hl : lookup w = (.inl ips, w')) (hne : 0 < ips.length)
    (hbound : ips.length < 4294967296) :
    RetrySpec (fun ip w => callExternal x net ip request.req request.protocol w) ctxErr ips hne w' 0 3
      (resolve x net lookup ctxErr request w) := by
  have := retryDo_spec (fun ip w => callExternal x net ip request.req request.protocol w) ctxErr ips hne hbound w' 2 0
  unfold resolve
  rw [hl]
  simpa [retryAttempts, worldAfter] using this

/-- Consequence: no panic. -/
theorem C45_no_panic (x : Exchanges W) (net : Net) (lookup : W → (List IP ⊕ UErr) × W) (ctxErr : W → Option UErr)
    (request : Request) (w : W)
    (hne : ∀ ips w', lookup w = (.inl ips, w') → 0 < ips.length ∧ ips.length < 4294967296) :
    (resolve x net lookup ctxErr request w).1 ≠ .panic := by
  cases hl : lookup w with
  | mk r w' =>
    cases r with
    | inr e => unfold resolve; rw [hl]; simp
    | inl ips =>
      obtain ⟨h1, h2⟩ := hne ips w' hl
      obtain ⟨k, _, _, _, h⟩ := C45_retries x net lookup ctxErr request w w' ips hl h1 h2
      rcases h with ⟨m, _, h⟩ | ⟨e, _, h, _⟩ | ⟨e, _, _, h, _⟩ <;> rw [h] <;> simp

/-- Two addresses, two time-outs and a success: the world records the addresses asked. -/
example : (resolve (W := List IP)
    { single := fun ip _ w => (if w.length < 2 then .err ⟨str! "timeout", true, none⟩ else .msg { id := 9 }, w ++ [ip])
      both := fun _ _ w => (.msg {}, .msg {}, true, w) }
    .https (fun w => (.inl [.v4 1#32, .v4 2#32], w)) (fun _ => none) { req := {} } []) =
    (.ok { id := 9 }, [.v4 1#32, .v4 2#32, .v4 1#32]) := by decide

/-- C45: looking up an upstream's addresses never gives an empty list, if the system's resolver does not
(it reports an error instead) and the configured addresses of bootstrap upstreams are not empty (checked
when they are created, bootstrap.go 301-305). -/
theorem C45_lookup_nonempty (parseIP : Str → Option IP) (bootstraped : Option (List IP))
    (system : Str → W → (List IP ⊕ UErr) × W) (ask : Option (Str → Nat → W → (Msg ⊕ UErr) × W)) (v : IPVersion)
    (host : Str) (w : W) (hb : bootstraped ≠ some [])
    (hs : ∀ h w ips w', system h w = (.inl ips, w') → ips ≠ [])
    (ips : List IP) (w' : W) (h : upstreamIPs parseIP bootstraped system ask v host w = (.inl ips, w')) : ips ≠ [] := by
  unfold upstreamIPs at h
  cases hp : parseIP host with
  | some ip => rw [hp] at h; injection h with h1 h2; injection h1 with h1; subst h1; simp
  | none =>
    rw [hp] at h
    cases bootstraped with
    | some l =>
      simp only at h
      injection h with h1 h2
      injection h1 with h1
      subst h1
      intro hl; exact hb (by rw [hl])
    | none =>
      cases ask with
      | none => exact hs host w ips w' h
      | some ask =>
        simp only at h
        unfold bootstrapResolve at h
        generalize resolveTypes parseIP ask host v.qtypes [] none w = x at h
        obtain ⟨l, e, w2⟩ := x
        cases e with
        | some e => simp at h
        | none =>
          cases l with
          | nil => simp at h
          | cons a l => simp only at h; injection h with h1 h2; injection h1 with h1; subst h1; simp

/-- C45 under concurrency: however goroutines sharing an address list advance it - the index is even read
twice -, the index stays within the list, so `Current` never panics. -/
theorem C45_index_in_range (ips : List IP) (hne : ips ≠ []) (s : Shared) (h : Shared.Steps (Shared.new ips) s) :
    s.values = ips ∧ s.index < s.values.length ∧ ∃ ip, (IPSet.mk s.values s.index).current = some ip := by
  have hpos : 0 < ips.length := List.length_pos_iff.2 hne
  have inv : s.values = ips ∧ s.index < ips.length ∧ ∀ t old new, s.pcs t = .computed old new → new < ips.length := by
    induction h with
    | refl => exact ⟨rfl, hpos, fun t old new h => by cases h⟩
    | tail _ hstep ih =>
      rename_i b c
      obtain ⟨h1, h2, h3⟩ := ih
      cases hstep with
      | read t hp =>
        refine ⟨h1, h2, ?_⟩
        intro u old new hu
        simp only [Shared.at] at hu
        split at hu
        · cases hu
        · exact h3 u old new hu
      | compute t old hp =>
        refine ⟨h1, h2, ?_⟩
        intro u old' new hu
        simp only [Shared.at] at hu
        split at hu
        · injection hu with _ hn
          rw [← hn, h1]
          exact Nat.mod_lt _ hpos
        · exact h3 u old' new hu
      | swap t old new hp heq =>
        refine ⟨h1, h3 t old new hp, ?_⟩
        intro u old' new' hu
        simp only [Shared.at] at hu
        split at hu
        · cases hu
        · exact h3 u old' new' hu
      | swapFails t old new hp hneq =>
        refine ⟨h1, h2, ?_⟩
        intro u old' new' hu
        simp only [Shared.at] at hu
        split at hu
        · cases hu
        · exact h3 u old' new' hu
  refine ⟨inv.1, by rw [inv.1]; exact inv.2.1, ?_⟩
  have hlt : s.index < s.values.length := by rw [inv.1]; exact inv.2.1
  exact ⟨s.values[s.index], by unfold IPSet.current; exact List.getElem?_eq_getElem hlt⟩

/-- A run of two goroutines in which the index moves and one swap fails. -/
example : ∃ s, Shared.Steps (Shared.new [.v4 1#32, .v4 2#32]) s ∧ s.index = 1 ∧ s.pcs 0 = .idle ∧ s.pcs 1 = .idle := by
  let a := Shared.new [.v4 1#32, .v4 2#32]
  let b := a.at 0 (.read a.index)
  let c := b.at 1 (.read b.index)
  let d := c.at 0 (.computed 0 (((c.index + 1) % 4294967296) % c.values.length))
  let e := d.at 1 (.computed 0 (((d.index + 1) % 4294967296) % d.values.length))
  let f : Shared := { e.at 0 .idle with index := 1 }
  let g := f.at 1 .idle
  refine ⟨g, ?_, rfl, rfl, rfl⟩
  refine .tail (.tail (.tail (.tail (.tail (.tail (.refl a) (?_ : a.Step b)) (?_ : b.Step c)) (?_ : c.Step d))
    (?_ : d.Step e)) (?_ : e.Step f)) (?_ : f.Step g)
  · exact .read a 0 rfl
  · exact .read b 1 rfl
  · exact .compute c 0 0 rfl
  · exact .compute d 1 0 rfl
  · exact .swap e 0 0 1 rfl rfl
  · exact .swapFails f 1 0 1 rfl (by decide)

/-- Addresses are tried anew from the first for every query: the list with its index is made per query,
so a dead first address costs every query a time-out. -/
theorem C45_starts_at_first (x : Exchanges W) (net : Net) (lookup : W → (List IP ⊕ UErr) × W)
    (ctxErr : W → Option UErr) (request : Request) (w w' : W) (ip : IP) (ips : List IP)
    (hl : lookup w = (.inl (ip :: ips), w')) (m : Msg) (w2 : W)
    (hc : callExternal x net ip request.req request.protocol w' = (.msg m, w2)) :
    resolve x net lookup ctxErr request w = (.ok m, w2) := by
  unfold resolve
  rw [hl]
  simp only [retryAttempts]
  unfold retryDo
  simp only [IPSet.current, List.getElem?_cons_zero, hc]

/-! ### C56 -/

/-- C56 for plain DNS upstreams: a message returned is never a SERVFAIL; if a SERVFAIL is all the upstream
says, that is an error carrying the upstream's message. -/
theorem C56_plain_partial (x : Exchanges W) (ip : IP) (req : Msg) (p : Proto) (w : W) (m : Msg)
    (h : (callExternal x .tcpUdp ip req p w).1 = .msg m) : m.rcode ≠ rcodeServFail := by
  unfold callExternal at h
  generalize x.both ip req w = y at h
  obtain ⟨tcp, udp, first, w2⟩ := y
  simp only at h
  by_cases c : CompleteReply tcp ∨ CompleteReply udp ∨ TruncatedReply tcp ∨ TruncatedReply udp
  · have hor : ∃ r, (CompleteReply r ∨ TruncatedReply r) ∧ raceClients p tcp udp first = r := by
      by_cases c1 : CompleteReply tcp <;> by_cases c2 : CompleteReply udp
      · refine ⟨_, ?_, (C44_complete p tcp udp first).2.2 c1 c2⟩
        cases first
        · exact Or.inl c2
        · exact Or.inl c1
      · exact ⟨_, Or.inl c1, (C44_complete p tcp udp first).1 c1 c2⟩
      · exact ⟨_, Or.inl c2, (C44_complete p tcp udp first).2.1 c2 c1⟩
      · have ht : TruncatedReply tcp ∨ TruncatedReply udp := by
          rcases c with h | h | h | h
          · exact absurd h c1
          · exact absurd h c2
          · exact Or.inl h
          · exact Or.inr h
        exact ⟨_, Or.inr (C44_truncated p tcp udp first c1 c2 ht).1, rfl⟩
    obtain ⟨r, hr, he⟩ := hor
    rw [h] at he
    rcases hr with ⟨m', hm, hs, _⟩ | ⟨m', hm, hs, _⟩ <;> rw [← he] at hm <;> injection hm with hm <;> subst hm <;> exact hs
  · simp only [not_or] at c
    have f1 := ((reply_kinds tcp).resolve_left c.1).resolve_left c.2.2.1
    have f2 := ((reply_kinds udp).resolve_left c.2.1).resolve_left c.2.2.2
    obtain ⟨e, he⟩ := (C44_error p tcp udp first).1.2 ⟨f1, f2⟩
    rw [h] at he; cases he

/-- C56 is false for DNS over TLS and over HTTPS: there a SERVFAIL is an ordinary answer, so no other
upstream of the group is asked, and it counts as success. -/
theorem C56_encrypted_false (net : Net) (hnet : net ≠ .tcpUdp) (x : Exchanges W)
    (lookup : W → (List IP ⊕ UErr) × W) (ctxErr : W → Option UErr) (request : Request) (w w' w2 : W) (ip : IP)
    (ips : List IP) (hl : lookup w = (.inl (ip :: ips), w')) (m : Msg) (_hs : m.rcode = rcodeServFail)
    (hx : x.single ip request.req w' = (.msg m, w2)) :
    resolve x net lookup ctxErr request w = (.ok m, w2) := by
  apply C45_starts_at_first x net lookup ctxErr request w w' ip ips hl m w2
  cases net with
  | tcpUdp => exact absurd rfl hnet
  | tcpTls => exact hx
  | https => exact hx

/-! ### C57 -/

/-- The addresses the bootstrap's resolver gives for a host, if it answers for all types. -/
theorem resolveTypes_ok (parseIP : Str → Option IP) (ask : Str → Nat → W → (Msg ⊕ UErr) × W) (host : Str)
    (hp : parseIP host = none) (answers : Nat → Msg) :
    ∀ (ts : List Nat) (ips : List IP) (w : W), (∀ t ∈ ts, ∀ w, ∃ w', ask host t w = (.inl (answers t), w')) →
      ∃ w', resolveTypes parseIP ask host ts ips none w =
        (ips ++ ts.flatMap (fun t => if (answers t).rcode = rcodeSuccess then addresses (answers t).answer else []), none, w') := by
  intro ts
  induction ts with
  | nil => intro ips w _; exact ⟨w, by simp [resolveTypes]⟩
  | cons t ts ih =>
    intro ips w h
    obtain ⟨w1, h1⟩ := h t (List.mem_cons_self ..) w
    unfold resolveTypes resolveType
    simp only [hp, h1]
    by_cases hr : (answers t).rcode = rcodeSuccess
    · simp only [hr, ne_eq, not_true_eq_false, if_false]
      obtain ⟨w2, h2⟩ := ih (ips ++ addresses (answers t).answer) w1 (fun t ht => h t (List.mem_cons_of_mem _ ht))
      exact ⟨w2, by rw [h2]; simp [hr]⟩
    · simp only [ne_eq, hr, not_false_eq_true, if_true, List.append_nil]
      obtain ⟨w2, h2⟩ := ih ips w1 (fun t ht => h t (List.mem_cons_of_mem _ ht))
      exact ⟨w2, by rw [h2]; simp [hr]⟩

/-- `C57_lookup_partial` in terms of the model's functions. -/
theorem upstreamIPs_found (parseIP : Str → Option IP) (system : Str → W → (List IP ⊕ UErr) × W)
    (ask : Str → Nat → W → (Msg ⊕ UErr) × W) (v : IPVersion) (host : Str) (hp : parseIP host = none)
    (answers : Nat → Msg) (h : ∀ t ∈ v.qtypes, ∀ w, ∃ w', ask host t w = (.inl (answers t), w')) (w : W) :
    let found := v.qtypes.flatMap (fun t =>
      if (answers t).rcode = rcodeSuccess then addresses (answers t).answer else [])
    (found ≠ [] → (upstreamIPs parseIP none system (some ask) v host w).1 = .inl found) ∧
    (found = [] → ∃ e, (upstreamIPs parseIP none system (some ask) v host w).1 = .inr e) := by
  obtain ⟨w', hw⟩ := resolveTypes_ok parseIP ask host hp answers v.qtypes [] w h
  simp only [List.nil_append] at hw
  unfold upstreamIPs bootstrapResolve
  simp only [hp, hw]
  refine ⟨?_, ?_⟩
  · intro hf
    cases hx : (v.qtypes.flatMap (fun t =>
      if (answers t).rcode = rcodeSuccess then addresses (answers t).answer else [])) with
    | nil => exact absurd hx hf
    | cons a l => rfl
  · intro hf
    rw [hf]
    exact ⟨_, rfl⟩

/-- The record types that give addresses of the configured families: 1 (A), 28 (AAAA). -/
def Wanted : IPVersion → Nat → Prop
  | .dual, t => t = 1 ∨ t = 28
  | .v4, t => t = 1
  | .v6, t => t = 28

/-- The address is in a successful answer to one of the wanted types. -/
def HasAddr (v : IPVersion) (answers : Nat → Msg) (ip : IP) : Prop :=
  ∃ t, Wanted v t ∧ (answers t).rcode = 0 ∧ ∃ r ∈ (answers t).answer, r.data = .a ip ∨ r.data = .aaaa ip

/-- C57 if the bootstrap answers all lookups: the upstream's addresses are exactly those in its successful
answers, for the address families configured, and there is an error exactly if there are none. Nothing
but the configured families needs to be answered.
Missing: failing lookups (`C57_one_family_fails_false`). -/
theorem C57_lookup_partial (parseIP : Str → Option IP) (system : Str → W → (List IP ⊕ UErr) × W)
    (ask : Str → Nat → W → (Msg ⊕ UErr) × W) (v : IPVersion) (host : Str) (hp : parseIP host = none)
    (answers : Nat → Msg) (h : ∀ t, Wanted v t → ∀ w, ∃ w', ask host t w = (.inl (answers t), w')) (w : W) :
    ((∃ ip, HasAddr v answers ip) → ∃ found, (upstreamIPs parseIP none system (some ask) v host w).1 = .inl found ∧
      ∀ ip, ip ∈ found ↔ HasAddr v answers ip) ∧
    ((¬ ∃ ip, HasAddr v answers ip) → ∃ e, (upstreamIPs parseIP none system (some ask) v host w).1 = .inr e) := by
  have hw : ∀ t, t ∈ v.qtypes ↔ Wanted v t := by
    intro t
    cases v <;> simp [IPVersion.qtypes, Wanted, typeA, typeAAAA]
  have hmem : ∀ ip, ip ∈ (v.qtypes.flatMap (fun t =>
      if (answers t).rcode = rcodeSuccess then addresses (answers t).answer else [])) ↔ HasAddr v answers ip := by
    intro ip
    have haddr : ∀ l : List RR, ip ∈ addresses l ↔ ∃ r ∈ l, r.data = .a ip ∨ r.data = .aaaa ip := by
      intro l
      unfold addresses
      rw [List.mem_filterMap]
      constructor
      · rintro ⟨r, hr, hx⟩
        refine ⟨r, hr, ?_⟩
        cases hd : r.data <;> rw [hd] at hx <;> simp_all
      · rintro ⟨r, hr, hd | hd⟩ <;> exact ⟨r, hr, by rw [hd]⟩
    rw [List.mem_flatMap]
    constructor
    · rintro ⟨t, ht, hx⟩
      split at hx
      · rename_i h0
        exact ⟨t, (hw t).1 ht, h0, (haddr _).1 hx⟩
      · cases hx
    · rintro ⟨t, ht, h0, hx⟩
      refine ⟨t, (hw t).2 ht, ?_⟩
      rw [if_pos (show (answers t).rcode = rcodeSuccess from h0)]
      exact (haddr _).2 hx
  have hf := upstreamIPs_found parseIP system ask v host hp answers (fun t ht => h t ((hw t).1 ht)) w
  refine ⟨fun ⟨ip, hip⟩ => ⟨_, hf.1 (List.ne_nil_of_mem ((hmem ip).2 hip)), hmem⟩, fun hno => hf.2 ?_⟩
  apply List.eq_nil_iff_forall_not_mem.2
  intro ip hip
  exact hno ⟨ip, (hmem ip).1 hip⟩

example : (upstreamIPs (W := Unit) (fun _ => none) none (fun _ w => (.inr ⟨[], false, none⟩, w))
    (some (fun _ t w => (.inl (if t = typeA then { answer := [{ name := str! "dns.example.", rtype := 1, ttl := 60, data := .a (.v4 9#32) }] }
      else { rcode := rcodeNXDomain }), w))) .dual (str! "dns.example") ()).1 = .inl [.v4 9#32] := by decide

/-- C57 is false: with both families wanted (the default), a failing AAAA lookup makes the upstream
unusable although its IPv4 address was found. -/
theorem C57_one_family_fails_false (parseIP : Str → Option IP) (system : Str → W → (List IP ⊕ UErr) × W)
    (ask : Str → Nat → W → (Msg ⊕ UErr) × W) (host : Str) (hp : parseIP host = none) (e : UErr)
    (h : ∀ w, ∃ w', ask host typeAAAA w = (.inr e, w')) (w : W) :
    (upstreamIPs parseIP none system (some ask) .dual host w).1 = .inr e := by
  have h2 : ∀ ips w, ∃ w', resolveTypes parseIP ask host [typeAAAA] ips none w = (ips, some e, w') := by
    intro ips w
    obtain ⟨w', hw⟩ := h w
    exact ⟨w', by simp [resolveTypes, resolveType, hp, hw]⟩
  have h3 : ∀ ips e' w, ∃ w', resolveTypes parseIP ask host [typeAAAA] ips (some e') w = (ips, some e, w') := by
    intro ips e' w
    obtain ⟨w', hw⟩ := h w
    exact ⟨w', by simp [resolveTypes, resolveType, hp, hw]⟩
  have : ∃ ips w', resolveTypes parseIP ask host IPVersion.dual.qtypes [] none w = (ips, some e, w') := by
    unfold IPVersion.qtypes resolveTypes
    generalize resolveType parseIP ask host typeA w = x
    obtain ⟨r, w1⟩ := x
    cases r with
    | inr e1 => obtain ⟨w', hw⟩ := h3 [] e1 w1; exact ⟨_, _, hw⟩
    | inl is => obtain ⟨w', hw⟩ := h2 ([] ++ is) w1; exact ⟨_, _, hw⟩
  obtain ⟨ips, w', hw⟩ := this
  unfold upstreamIPs bootstrapResolve
  simp only [hp, hw]

end Verif.Props
