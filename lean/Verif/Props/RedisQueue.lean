/-
C84: publishing answers to redis does not delay queries. C85: credentials for redis.
-/
import Verif.Model.RedisQueue

namespace Verif.Props
open RedisQueue

variable {M : Type}

/-- The messages the queries publish, in order. -/
def messages : List (Ev M) → List M
  | [] => []
  | .publish _ m :: evs => m :: messages evs
  | .take :: evs => messages evs

/-- The queries that publish, in order. -/
def publishers : List (Ev M) → List Nat
  | [] => []
  | .publish i _ :: evs => i :: publishers evs
  | .take :: evs => publishers evs

theorem messages_append (a b : List (Ev M)) : messages (a ++ b) = messages a ++ messages b := by
  induction a with
  | nil => rfl
  | cons e a ih => cases e <;> simp [messages, ih]

theorem publishers_append (a b : List (Ev M)) : publishers (a ++ b) = publishers a ++ publishers b := by
  induction a with
  | nil => rfl
  | cons e a ih => cases e <;> simp [publishers, ih]

/-- Nothing is lost or reordered, and nobody waits unless the channel is full. -/
structure BufferOk (b : Buffer M) (ms : List M) (is : List Nat) : Prop where
  order : b.published ++ b.queue ++ b.waiting.map Prod.snd = ms
  passed : b.done ++ b.waiting.map Prod.fst = is
  full : b.waiting ≠ [] → b.queue.length = 1000
  bound : b.queue.length ≤ 1000
  count : b.done.length = b.published.length + b.queue.length

theorem step_ok (c : Client) (b : Buffer M) (ms : List M) (is : List Nat) (h : BufferOk b ms is) (e : Ev M) :
    BufferOk (step c b e) (ms ++ messages [e]) (is ++ publishers [e]) := by
  obtain ⟨h1, h2, h3, h4, h5⟩ := h
  cases e with
  | publish i m =>
    simp only [step, messages, publishers]
    split
    · rename_i hc
      obtain ⟨hc, hw⟩ := hc
      rw [hw] at h1 h2
      simp only [List.map_nil, List.append_nil] at h1 h2
      refine ⟨?_, ?_, ?_, ?_, ?_⟩
      · simp only [hw, List.map_nil, List.append_nil]; rw [← h1]; simp
      · simp only [hw, List.map_nil, List.append_nil]; rw [h2]
      · intro hn; exact absurd hw hn
      · simp only [chanCap] at hc; simp only [List.length_append, List.length_singleton]; omega
      · simp only [List.length_append, List.length_singleton]; omega
    · rename_i hc
      refine ⟨?_, ?_, ?_, h4, h5⟩
      · simp only [List.map_append, List.map_cons, List.map_nil]; rw [← h1]; simp
      · simp only [List.map_append, List.map_cons, List.map_nil]; rw [← h2]; simp
      · intro _
        by_cases hw : b.waiting = []
        · have : ¬ b.queue.length < chanCap := fun h => hc ⟨h, hw⟩
          simp only [chanCap] at this
          show b.queue.length = 1000
          omega
        · exact h3 hw
  | take =>
    simp only [step, messages, publishers, List.append_nil]
    split
    · split
      · exact ⟨h1, h2, h3, h4, h5⟩
      · rename_i m rest hq
        rw [hq] at h1 h3 h4 h5
        simp only [List.length_cons] at h3 h4 h5
        split
        · rename_i hw
          rw [hw] at h1 h2
          refine ⟨?_, ?_, ?_, ?_, ?_⟩
          · simp only [hw]; rw [← h1]; simp
          · simp only [hw]; exact h2
          · intro hn; exact absurd hw hn
          · show rest.length ≤ 1000; omega
          · simp only [List.length_append, List.length_singleton]; omega
        · rename_i i m' ws hw
          rw [hw] at h1 h2
          have h3 := h3 (by rw [hw]; simp)
          refine ⟨?_, ?_, ?_, ?_, ?_⟩
          · rw [← h1]; simp
          · rw [← h2]; simp
          · intro _; simp only [List.length_append, List.length_singleton]; omega
          · simp only [List.length_append, List.length_singleton]; omega
          · simp only [List.length_append, List.length_singleton]; omega
    · exact ⟨h1, h2, h3, h4, h5⟩

theorem run_ok (c : Client) (evs : List (Ev M)) : BufferOk (run c {} evs) (messages evs) (publishers evs) := by
  suffices h : ∀ evs (b : Buffer M) ms is, BufferOk b ms is →
      BufferOk (evs.foldl (step c) b) (ms ++ messages evs) (is ++ publishers evs) by
    have := h evs {} [] [] ⟨rfl, rfl, fun h => absurd rfl h, by simp, rfl⟩
    simpa [run] using this
  intro evs
  induction evs with
  | nil => intro b ms is h; simpa [messages, publishers] using h
  | cons e evs ih =>
    intro b ms is h
    have := ih _ _ _ (step_ok c b ms is h e)
    rw [List.append_assoc, List.append_assoc, ← messages_append, ← publishers_append] at this
    exact this

/-- **C84.** In every execution: answers are published in the order of the queries and none is lost (they are
published, in the channel, or held by a waiting query); queries get past publishing in their order; and a query
waits only while 1000 answers are buffered. -/
theorem C84_order (c : Client) (evs : List (Ev M)) :
    (run c {} evs).published ++ (run c {} evs).queue ++ (run c {} evs).waiting.map Prod.snd = messages evs ∧
    (run c {} evs).done ++ (run c {} evs).waiting.map Prod.fst = publishers evs ∧
    ((run c {} evs).waiting ≠ [] → (run c {} evs).queue.length = 1000) :=
  ⟨(run_ok c evs).order, (run_ok c evs).passed, (run_ok c evs).full⟩

/-- **C84, no delay.** If the goroutine keeps up - never more than 1000 answers behind, counting those it has
published - no query waits. -/
theorem C84_no_delay_partial (c : Client) (evs : List (Ev M))
    (h : (publishers evs).length ≤ (run c {} evs).published.length + 1000) :
    (run c {} evs).waiting = [] ∧ (run c {} evs).done = publishers evs := by
  have hok := run_ok c evs
  have hl := congrArg List.length hok.passed
  simp only [List.length_append, List.length_map] at hl
  have hw : (run c {} evs).waiting = [] := by
    rcases Classical.em ((run c {} evs).waiting = []) with h' | h'
    · exact h'
    · have := hok.full h'
      have := hok.count
      exact List.length_eq_zero_iff.1 (by omega)
  refine ⟨hw, ?_⟩
  have := hok.passed
  rwa [hw, List.map_nil, List.append_nil] at this

theorem stopped_published (evs : List (Ev M)) (b : Buffer M) :
    (evs.foldl (step ⟨false⟩) b).published = b.published := by
  induction evs generalizing b with
  | nil => rfl
  | cons e evs ih =>
    simp only [List.foldl_cons]
    rw [ih]
    cases e with
    | publish i m => simp only [step]; split <;> rfl
    | take => rfl

/-- **C84 is false when redis is optional.** If redis answers the ping but refuses the subscription (for example
because the user may not use the channel), the server starts with a client that nothing empties. The first 1000
answers go into its buffer; every later query that obtains an answer from upstream never gets past publishing it,
so its client never gets a reply. -/
theorem C84_optional_false :
    (∃ (cfg : Cfg) (a : Answers), cfg.required = false ∧ a.ping = true ∧ serverClient cfg a = some (some ⟨false⟩)) ∧
    ∀ evs : List (Ev M), (run ⟨false⟩ {} evs).done = (publishers evs).take 1000 ∧
      (run ⟨false⟩ {} evs).waiting.map Prod.fst = (publishers evs).drop 1000 := by
  refine ⟨⟨{ address := str! "redis:6379" }, ⟨true, false⟩, rfl, rfl, rfl⟩, ?_⟩
  intro evs
  have hok := run_ok ⟨false⟩ evs
  have hp : (run ⟨false⟩ {} evs).published = ([] : List M) := stopped_published evs {}
  have hc := hok.count
  rw [hp, List.length_nil, Nat.zero_add] at hc
  have hpass := hok.passed
  by_cases hw : (run ⟨false⟩ {} evs).waiting = []
  · rw [hw, List.map_nil, List.append_nil] at hpass
    have hb := hok.bound
    rw [hw, hpass]
    have : (publishers evs).length ≤ 1000 := by rw [← hpass]; omega
    rw [List.take_of_length_le this, List.drop_eq_nil_of_le this]
    exact ⟨rfl, rfl⟩
  · have := hok.full hw
    have hl : (run ⟨false⟩ {} evs).done.length = 1000 := by omega
    rw [← hpass, ← hl, List.take_left, List.drop_left]
    exact ⟨rfl, rfl⟩

/-- **C84, start of the server.** Otherwise the server gets a working client, or none: with redis required it
starts only with a working one; without an answer to the ping it starts without redis if that is optional. -/
theorem C84_start (cfg : Cfg) (a : Answers) :
    (cfg.address = [] → serverClient cfg a = some none) ∧
    (cfg.address ≠ [] → a.ping = true → a.subscribe = true → serverClient cfg a = some (some ⟨true⟩)) ∧
    (cfg.address ≠ [] → cfg.required = true → serverClient cfg a = none ∨ serverClient cfg a = some (some ⟨true⟩)) ∧
    (cfg.address ≠ [] → cfg.required = false → a.ping = false → serverClient cfg a = some none) := by
  unfold serverClient new Cfg.isEnabled
  refine ⟨?_, ?_, ?_, ?_⟩
  · intro h; simp [h]
  · intro h h1 h2; simp [h, h1, h2]
  · intro h h1
    obtain ⟨p, s⟩ := a
    cases p <;> cases s <;> simp [h, h1]
  · intro h h1 h2; simp [h, h1, h2]

-- Concrete: the buffer in use; 1001 queries with a client that nothing empties: the last one waits.
example : (run ⟨true⟩ {} [.publish 1 'a', .publish 2 'b', .take, .publish 3 'c', .take]).published = ['a', 'b'] := by decide

theorem publishers_replicate (n i : Nat) (m : M) : publishers (List.replicate n (Ev.publish i m)) = List.replicate n i := by
  induction n with
  | zero => rfl
  | succ n ih => simp [List.replicate_succ, publishers, ih]

example : (run ⟨false⟩ {} (List.replicate 1000 (Ev.publish 1 'x') ++ [.publish 2 'y', .take])).waiting.map Prod.fst = [2] := by
  rw [((C84_optional_false (M := Char)).2 _).2, publishers_append, publishers_replicate]
  exact List.drop_left' (List.length_replicate ..)


/-! ### C85 -/

/-- **C85.** The client connects to the configured address with the configured user and password, or with
sentinels to these, for the configured master, with the configured user and passwords - if the user name for
the sentinels is that for redis. -/
theorem C85_credentials_partial (c : Cfg) :
    (c.sentinelAddresses = [] → options c = .direct c.address c.username c.password c.database) ∧
    (c.sentinelAddresses ≠ [] → c.sentinelUsername = c.username →
      options c = .failover c.address c.sentinelAddresses c.sentinelUsername c.sentinelPassword c.username c.password c.database) := by
  unfold options
  constructor
  · intro h; simp [h]
  · intro h h1
    have : c.sentinelAddresses.length > 0 := List.length_pos_iff.2 h
    simp [this, h1]

/-- **C85 is false in general.** The configured user name for the sentinels is never used: they get the one for
redis. -/
theorem C85_sentinel_user_false (c : Cfg) (u : Str) : options { c with sentinelUsername := u } = options c ∧
    ∃ c : Cfg, ∃ m as su sp ru rp db, options c = .failover m as su sp ru rp db ∧ su ≠ c.sentinelUsername :=
  ⟨rfl, { address := str! "master", username := str! "redisuser", sentinelUsername := str! "watcher", sentinelAddresses := [str! "s1:26379"] },
    _, _, _, _, _, _, _, rfl, by decide⟩

/-- **C85.** Without further settings the client connects without credentials to database 0, and the start does not depend
on redis. -/
theorem C85_defaults (address : Str) (a : Answers) : options { address := address } = .direct address [] [] 0 ∧
    serverClient { address := address } a ≠ none := by
  refine ⟨rfl, ?_⟩
  unfold serverClient
  split
  · simp
  · simp

end Verif.Props
