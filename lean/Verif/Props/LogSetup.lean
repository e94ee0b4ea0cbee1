/-
C94: where the query log goes, and for how long it is kept.
-/
import Verif.Model.LogSetup

namespace Verif.Props
open LogSetup QueryLogFile

variable {W : Type}

/-! ### Attempts -/

/-- The world before the attempt with number `k` (from 0), if all earlier ones failed. -/
def worldBefore (env : LogSetup.Env W) (cfg : LogSetup.Cfg) (w : W) : Nat → W
  | 0 => w
  | k + 1 => env.pause cfg.cooldown (getWriter env cfg (worldBefore env cfg w k)).2

theorem toUint_of {n : Int} (h0 : 0 ≤ n) (h : n < 2 ^ 64) : (toUint n : Int) = n := by
  unfold toUint
  rw [Int.emod_eq_of_lt h0 h, Int.toNat_of_nonneg h0]

theorem retry_skip {env : LogSetup.Env W} {cfg : LogSetup.Cfg} {w : W} {limit : Nat} (k fuel : Nat)
    (hf : ∀ i < k, (getWriter env cfg (worldBefore env cfg w i)).1 = none) (hk : limit = 0 ∨ k < limit) :
    retryDo (getWriter env cfg) (env.pause cfg.cooldown) limit (fuel + k) 0 w =
      retryDo (getWriter env cfg) (env.pause cfg.cooldown) limit fuel k (worldBefore env cfg w k) := by
  induction k generalizing fuel with
  | zero => rfl
  | succ k ih =>
    rw [show fuel + (k + 1) = (fuel + 1) + k from by omega,
      ih (fuel + 1) (fun i hi => hf i (by omega)) (by omega)]
    have := hf k (by omega)
    rw [retryDo]
    revert this
    rcases hg : getWriter env cfg (worldBefore env cfg w k) with ⟨r, w'⟩
    intro this
    simp only at this
    subst this
    simp only
    rw [if_neg (by omega), worldBefore, hg]

/-- What is written to for a configuration. -/
def WriterFor (cfg : LogSetup.Cfg) : Writer → Prop
  | .console => cfg.type = .console
  | .none => cfg.type = .none
  | .file target perClient retention =>
    target = cfg.target ∧ retention = cfg.retention ∧ cfg.type = if perClient then .csvClient else .csv
  | .database retention flush =>
    retention = cfg.retention ∧ flush = cfg.flushInterval ∧
      (cfg.type = .mysql ∨ cfg.type = .postgresql ∨ cfg.type = .timescale)

theorem openDatabase_some {env : LogSetup.Env W} {m : Bool} {target : Str} {retention : Nat} {flush : Int} {t : Str}
    {w w' : W} {r : Writer} (h : openDatabase env m target retention flush t w = (some r, w')) :
    r = .database retention flush := by
  unfold openDatabase at h
  split at h
  · simp at h
  · split at h
    · simp at h
    · simp only [Prod.mk.injEq, Option.some.injEq] at h
      exact h.1.symm

/-- **C94** What an attempt creates is the writer that is configured. -/
theorem C94_kind (env : LogSetup.Env W) (cfg : LogSetup.Cfg) (w w' : W) (r : Writer)
    (h : getWriter env cfg w = (some r, w')) : WriterFor cfg r := by
  unfold getWriter at h
  split at h
  · rename_i ht
    unfold newCSVWriter at h
    split at h <;> simp only [Prod.mk.injEq, Option.some.injEq, reduceCtorEq, false_and] at h
    rw [← h.1]
    exact ⟨rfl, rfl, by simpa using ht⟩
  · rename_i ht
    unfold newCSVWriter at h
    split at h <;> simp only [Prod.mk.injEq, Option.some.injEq, reduceCtorEq, false_and] at h
    rw [← h.1]
    exact ⟨rfl, rfl, by simpa using ht⟩
  · rename_i ht
    simp only [newDatabaseWriter, if_true] at h
    rw [openDatabase_some h]
    exact ⟨rfl, rfl, .inl ht⟩
  · rename_i ht
    rw [newDatabaseWriter, if_neg (by decide), if_pos (.inl rfl)] at h
    rw [openDatabase_some h]
    exact ⟨rfl, rfl, .inr (.inl ht)⟩
  · rename_i ht
    rw [newDatabaseWriter, if_neg (by decide), if_pos (.inr rfl)] at h
    rw [openDatabase_some h]
    exact ⟨rfl, rfl, .inr (.inr ht)⟩
  · rename_i ht
    simp only [Prod.mk.injEq, Option.some.injEq] at h
    rw [← h.1]
    exact ht
  · rename_i ht
    simp only [Prod.mk.injEq, Option.some.injEq] at h
    rw [← h.1]
    exact ht

/-- **C94** Log files can be written to any directory that is not missing; nothing else is looked at. -/
theorem C94_directory (env : LogSetup.Env W) (cfg : LogSetup.Cfg) (ht : cfg.type = .csv ∨ cfg.type = .csvClient) (w : W) :
    (getWriter env cfg w).1 = none ↔ cfg.target ≠ [] ∧ env.stat cfg.target w = .missing := by
  unfold getWriter
  rcases ht with ht | ht <;> rw [ht] <;> simp only [newCSVWriter] <;> split <;> simp_all

/-- **C94** If an attempt succeeds and it is not more than the configured number of attempts, the log goes to the
configured writer, whatever failed before; periodic clean-up runs if there is a retention time, except with Timescale. -/
theorem C94_created_partial (env : LogSetup.Env W) (cfg : LogSetup.Cfg) (w : W) (k fuel : Nat) (r : Writer) (w' : W) (id : Str)
    (hfail : ∀ i < k, (getWriter env cfg (worldBefore env cfg w i)).1 = none)
    (hok : getWriter env cfg (worldBefore env cfg w k) = (some r, w'))
    (hk : (k : Int) < cfg.attempts) (hmax : cfg.attempts < 2 ^ 64) (hfuel : k < fuel)
    (hflush : 0 < cfg.flushInterval) (hid : readInstanceID env.hostnameFile env.osHostname = some id) :
    WriterFor cfg r ∧
    newResolver env cfg fuel w =
      .created ⟨r, cfg.type, id, decide (0 < cfg.retention ∧ cfg.type ≠ .timescale)⟩ (k + 1) w' := by
  have hw := C94_kind env cfg _ _ _ hok
  refine ⟨hw, ?_⟩
  have hu := toUint_of (n := cfg.attempts) (by omega) hmax
  obtain ⟨f, rfl⟩ : ∃ f, fuel = (f + 1) + k := ⟨fuel - k - 1, by omega⟩
  unfold newResolver
  rw [retry_skip k (f + 1) hfail (by omega), retryDo, hok]
  simp only [finishSetup]
  have ht : tickerPanics r = false := by
    cases r with
    | database a b =>
      obtain ⟨-, hb, -⟩ := hw
      simp only [tickerPanics, decide_eq_false_iff_not, hb]
      omega
    | _ => rfl
  simp [ht, hid]

/-- A directory that appears before the second attempt. -/
example :
    let env : LogSetup.Env Nat := ⟨fun _ w => if w = 0 then .missing else .found, fun _ _ w => (false, w), fun _ w => (none, w),
      fun _ w => w + 1, none, some (str! "host")⟩
    newResolver env ⟨str! "/logs", .csvClient, 7, 3, 0, 30⟩ 5 0 =
      .created ⟨.file (str! "/logs") true 7, .csvClient, str! "host", true⟩ 2 1 := rfl

/-- **C94** If every attempt fails, there are exactly as many as configured, and the log goes to the console. -/
theorem C94_fallback_partial (env : LogSetup.Env W) (cfg : LogSetup.Cfg) (w : W) (fuel : Nat) (id : Str)
    (hfail : ∀ i : Nat, (i : Int) < cfg.attempts → (getWriter env cfg (worldBefore env cfg w i)).1 = none)
    (h1 : 1 ≤ cfg.attempts) (hmax : cfg.attempts < 2 ^ 64) (hfuel : cfg.attempts ≤ fuel)
    (hid : readInstanceID env.hostnameFile env.osHostname = some id) :
    ∃ w', newResolver env cfg fuel w =
      .created ⟨.console, .console, id, decide (0 < cfg.retention)⟩ cfg.attempts.toNat w' := by
  have hu := toUint_of (n := cfg.attempts) (by omega) hmax
  obtain ⟨k, hk⟩ : ∃ k : Nat, cfg.attempts = k + 1 := ⟨(cfg.attempts - 1).toNat, by omega⟩
  obtain ⟨f, rfl⟩ : ∃ f, fuel = (f + 1) + k := ⟨fuel - k - 1, by omega⟩
  refine ⟨(getWriter env cfg (worldBefore env cfg w k)).2, ?_⟩
  unfold newResolver
  rw [retry_skip k (f + 1) (fun i hi => hfail i (by omega)) (by omega), retryDo]
  have := hfail k (by omega)
  revert this
  rcases getWriter env cfg (worldBefore env cfg w k) with ⟨r, w'⟩
  intro this
  simp only at this
  subst this
  simp only
  rw [if_pos (by omega)]
  simp only [finishSetup, Option.getD_none, tickerPanics, Bool.false_eq_true, if_false, hid]
  rw [hk]
  simp

/-- A directory that never appears. -/
example :
    let env : LogSetup.Env Nat := ⟨fun _ _ => .missing, fun _ _ w => (false, w), fun _ w => (none, w), fun _ w => w + 1, none,
      some (str! "host")⟩
    newResolver env ⟨str! "/logs", .csv, 0, 3, 0, 30⟩ 5 0 = .created ⟨.console, .console, str! "host", false⟩ 3 2 ∧
    newResolver env ⟨str! "/logs", .csv, 0, 0, 0, 30⟩ 5 0 = .trying := ⟨rfl, rfl⟩

/-- **C94** With 0 attempts configured there is no limit: as long as the writer cannot be created blocky does not start. -/
theorem C94_no_limit (env : LogSetup.Env W) (cfg : LogSetup.Cfg) (h0 : cfg.attempts = 0) (w : W)
    (hfail : ∀ i : Nat, (getWriter env cfg (worldBefore env cfg w i)).1 = none) (fuel : Nat) :
    newResolver env cfg fuel w = .trying := by
  unfold newResolver
  have hu : toUint cfg.attempts = 0 := by rw [h0]; rfl
  rw [hu]
  have := retry_skip (env := env) (cfg := cfg) (w := w) (limit := 0) fuel 0 (fun i _ => hfail i) (.inl rfl)
  rw [Nat.zero_add] at this
  rw [this, retryDo]

/-! ### Databases that come up late -/

/-- A database log. -/
def databaseLog (type : LogType) (retention : Nat) (attempts cooldown : Int) : LogSetup.Cfg where
  target := str! "blocky:secret@tcp(db)/blocky"
  type := type
  retention := retention
  attempts := attempts
  cooldown := cooldown
  flushInterval := 30000000000

/-- The database is the log's configured target. -/
def IsDatabase (t : LogType) : Prop := t = .mysql ∨ t = .postgresql ∨ t = .timescale

theorem sql_attempt {cfg : LogSetup.Cfg} (ht : IsDatabase cfg.type) (from_ : Int) (host : Option Str) (w : Int × Db) :
    ∃ db', getWriter (sqlEnv from_ host) cfg w =
      if from_ ≤ w.1 then (some (.database cfg.retention cfg.flushInterval), (w.1, db')) else (none, w) := by
  by_cases h : from_ ≤ w.1
  · have hm : ∀ t : Str, ∃ db', databaseMigration (sqlEnv from_ host) t cfg.retention w = (true, (w.1, db')) := by
      intro t
      unfold databaseMigration
      simp only [sqlEnv, execStmt]
      split
      · split
        · rename_i h2
          split at h2
          · simp only [Prod.mk.injEq, Option.some.injEq] at h2
            obtain ⟨rfl, rfl⟩ := h2
            refine ⟨w.2, Prod.ext ?_ rfl⟩
            simp only
            decide
          · simp at h2
        · rename_i h2
          split at h2
          · simp at h2
          · simp only [Prod.mk.injEq, true_and] at h2
            subst h2
            exact ⟨_, rfl⟩
      · split
        · exact ⟨_, rfl⟩
        · split
          · exact ⟨_, rfl⟩
          · exact ⟨_, rfl⟩
    have ho : ∀ m t, ∃ db', openDatabase (sqlEnv from_ host) m cfg.target cfg.retention cfg.flushInterval t w =
        (some (.database cfg.retention cfg.flushInterval), (w.1, db')) := by
      intro m t
      obtain ⟨db', hm⟩ := hm t
      refine ⟨db', ?_⟩
      unfold openDatabase
      rw [show (sqlEnv from_ host).openDb m cfg.target w = (true, w) from by simp [sqlEnv, h]]
      simp only [hm]
    simp only [if_pos h]
    unfold getWriter
    rcases ht with ht | ht | ht <;> rw [ht] <;> simp only [newDatabaseWriter]
    · exact ho _ _
    · rw [if_neg (by decide), if_pos (.inl trivial)]
      exact ho _ _
    · rw [if_neg (by decide), if_pos (.inr trivial)]
      exact ho _ _
  · refine ⟨w.2, ?_⟩
    have ho : ∀ m t, openDatabase (sqlEnv from_ host) m cfg.target cfg.retention cfg.flushInterval t w = (none, w) := by
      intro m t
      unfold openDatabase
      rw [show (sqlEnv from_ host).openDb m cfg.target w = (false, w) from by simp [sqlEnv, h]]
    rw [if_neg h]
    unfold getWriter
    rcases ht with ht | ht | ht <;> rw [ht] <;> simp only [newDatabaseWriter]
    · exact ho _ _
    · rw [if_neg (by decide), if_pos (.inl trivial)]
      exact ho _ _
    · rw [if_neg (by decide), if_pos (.inr trivial)]
      exact ho _ _

theorem sql_worldBefore {cfg : LogSetup.Cfg} (ht : IsDatabase cfg.type) (from_ : Int) (host : Option Str) (now : Int)
    (db : Db) (hc : 0 ≤ cfg.cooldown) (k : Nat) (h : ∀ i < k, now + i * cfg.cooldown < from_) :
    worldBefore (sqlEnv from_ host) cfg (now, db) k = (now + k * cfg.cooldown, db) := by
  induction k with
  | zero => simp [worldBefore]
  | succ k ih =>
    rw [worldBefore, ih (fun i hi => h i (by omega))]
    obtain ⟨db', e⟩ := sql_attempt ht from_ host (now + k * cfg.cooldown, db)
    rw [e]
    have := h k (by omega)
    simp only
    rw [if_neg (by omega)]
    simp only [sqlEnv, Prod.mk.injEq, and_true]
    rw [Int.max_eq_left hc]
    push_cast
    rw [Int.add_mul]
    omega

/-- **C94** A database that is reachable from a certain time on is used exactly if that time is not after the last
attempt, that is, the start plus one pause less than there are attempts; otherwise the console is used. -/
theorem C94_late_database (cfg : LogSetup.Cfg) (ht : IsDatabase cfg.type) (from_ now : Int) (db : Db) (host : Str)
    (h1 : 1 ≤ cfg.attempts) (hmax : cfg.attempts < 2 ^ 64) (hc : 0 ≤ cfg.cooldown) (hflush : 0 < cfg.flushInterval)
    (fuel : Nat) (hfuel : cfg.attempts ≤ fuel) :
    ∃ s n w', newResolver (sqlEnv from_ (some host)) cfg fuel (now, db) = .created s n w' ∧
      (from_ ≤ now + (cfg.attempts - 1) * cfg.cooldown →
        s.writer = .database cfg.retention cfg.flushInterval ∧ s.type = cfg.type ∧
        ∀ i : Nat, i + 1 < n → now + i * cfg.cooldown < from_) ∧
      (now + (cfg.attempts - 1) * cfg.cooldown < from_ →
        s.writer = .console ∧ s.type = .console ∧ n = cfg.attempts) := by
  obtain ⟨m, hm⟩ : ∃ m : Nat, cfg.attempts = m + 1 := ⟨(cfg.attempts - 1).toNat, by omega⟩
  have hlast : (cfg.attempts - 1) * cfg.cooldown = m * cfg.cooldown := by rw [hm]; simp
  rw [hlast]
  by_cases hl : from_ ≤ now + m * cfg.cooldown
  · -- the first attempt that succeeds
    have hex : ∃ k : Nat, k ≤ m ∧ from_ ≤ now + k * cfg.cooldown ∧ ∀ i < k, now + (i : Int) * cfg.cooldown < from_ := by
      clear hlast hm
      induction m with
      | zero => exact ⟨0, Nat.le_refl _, hl, fun i hi => absurd hi (by omega)⟩
      | succ m ih =>
        by_cases hm' : from_ ≤ now + (m : Int) * cfg.cooldown
        · obtain ⟨k, h1, h2, h3⟩ := ih hm'
          exact ⟨k, by omega, h2, h3⟩
        · refine ⟨m + 1, Nat.le_refl _, hl, fun i hi => ?_⟩
          have : (i : Int) * cfg.cooldown ≤ m * cfg.cooldown :=
            Int.mul_le_mul_of_nonneg_right (by omega) hc
          omega
    obtain ⟨k, hkm, hk, hmin⟩ := hex
    have hworld : ∀ i ≤ k, worldBefore (sqlEnv from_ (some host)) cfg (now, db) i = (now + i * cfg.cooldown, db) :=
      fun i hi => sql_worldBefore ht from_ _ now db hc i (fun j hj => hmin j (by omega))
    obtain ⟨db', e⟩ := sql_attempt ht from_ (some host) (now + k * cfg.cooldown, db)
    rw [if_pos hk] at e
    have := (C94_created_partial (sqlEnv from_ (some host)) cfg (now, db) k fuel _ _ (trimSpace host)
      (fun i hi => by
        rw [hworld i (by omega)]
        obtain ⟨db', e⟩ := sql_attempt ht from_ (some host) (now + i * cfg.cooldown, db)
        have := hmin i hi
        rw [e]
        simp only
        rw [if_neg (by omega)])
      (by rw [hworld k (Nat.le_refl _)]; exact e) (by omega) hmax (by omega) hflush rfl).2
    refine ⟨_, _, _, this, fun _ => ⟨rfl, rfl, fun i hi => hmin i (by omega)⟩, fun h => absurd h (by omega)⟩
  · have hall : ∀ i : Nat, i ≤ m → now + (i : Int) * cfg.cooldown < from_ := by
      intro i hi
      have : (i : Int) * cfg.cooldown ≤ m * cfg.cooldown := Int.mul_le_mul_of_nonneg_right (by omega) hc
      omega
    obtain ⟨w', e⟩ := C94_fallback_partial (sqlEnv from_ (some host)) cfg (now, db) fuel (trimSpace host)
      (fun i hi => by
        rw [sql_worldBefore ht from_ _ now db hc i (fun j hj => hall j (by omega))]
        obtain ⟨db', e⟩ := sql_attempt ht from_ (some host) (now + i * cfg.cooldown, db)
        have := hall i (by omega)
        rw [e]
        simp only
        rw [if_neg (by omega)])
      h1 hmax hfuel rfl
    refine ⟨_, _, _, e, fun h => absurd h hl, fun _ => ⟨rfl, rfl, by omega⟩⟩

/-- Three attempts with pauses of two seconds: a database that needs four seconds is used, one that needs five is not. -/
example :
    (∃ w, newResolver (sqlEnv 4000000000 (some (str! "blocky1\n"))) (databaseLog .mysql 7 3 2000000000) 3 (0, {}) =
      .created ⟨.database 7 30000000000, .mysql, str! "blocky1", true⟩ 3 w) ∧
    (∃ w, newResolver (sqlEnv 5000000000 (some (str! "blocky1\n"))) (databaseLog .mysql 7 3 2000000000) 3 (0, {}) =
      .created ⟨.console, .console, str! "blocky1", true⟩ 3 w) :=
  ⟨⟨_, rfl⟩, ⟨_, rfl⟩⟩

/-- **C94** So "max attempts" does not hold for 0: with a database that never comes up, blocky never starts. -/
theorem C94_starts_false :
    ¬ ∀ (env : LogSetup.Env (Int × Db)) (cfg : LogSetup.Cfg) (w : Int × Db), ∃ fuel, newResolver env cfg fuel w ≠ .trying := by
  intro h
  -- the pauses have no length, so that the database stays away
  obtain ⟨fuel, hf⟩ := h (sqlEnv 1 (some (str! "blocky1"))) (databaseLog .mysql 7 0 0) (0, {})
  refine hf (C94_no_limit _ _ rfl _ (fun i => ?_) fuel)
  rw [sql_worldBefore (.inl rfl) 1 _ 0 {} (Int.le_refl _) i (fun j _ => by simp [databaseLog])]
  obtain ⟨db', e⟩ := sql_attempt (cfg := databaseLog .mysql 7 0 0) (.inl rfl) 1 (some (str! "blocky1"))
    (0 + i * (databaseLog .mysql 7 0 0).cooldown, {})
  rw [e]
  simp [databaseLog]

/-- **C94** The same with a long cooldown and one negative number of attempts: it is read as a huge one. -/
theorem C94_negative_attempts (n : Nat) (h1 : 1 ≤ n) (h2 : n ≤ 2 ^ 63) : toUint (-(n : Int)) = 2 ^ 64 - n := by
  unfold toUint
  omega

/-- **C94** A flush interval of zero or less ends the process, for every database that can be reached. -/
theorem C94_flush_interval_crashes (cfg : LogSetup.Cfg) (ht : IsDatabase cfg.type) (now : Int) (db : Db) (host : Str)
    (from_ : Int) (hup : from_ ≤ now) (hflush : cfg.flushInterval ≤ 0) (fuel : Nat) (hfuel : 1 ≤ fuel) :
    ∃ w, newResolver (sqlEnv from_ (some host)) cfg fuel (now, db) = .crashed w := by
  obtain ⟨f, rfl⟩ : ∃ f, fuel = f + 1 := ⟨fuel - 1, by omega⟩
  obtain ⟨db', e⟩ := sql_attempt ht from_ (some host) (now, db)
  simp only at e
  rw [if_pos hup] at e
  refine ⟨(now, db'), ?_⟩
  unfold newResolver
  rw [retryDo, e]
  simp [finishSetup, tickerPanics, hflush]

/-- **C94** Without a host name there is no server, even if no query is to be logged. -/
theorem C94_host_name_needed (env : LogSetup.Env W) (cfg : LogSetup.Cfg) (ht : cfg.type = .none)
    (hf : env.hostnameFile = none) (ho : env.osHostname = none) (fuel : Nat) (hfuel : 1 ≤ fuel) (w : W) :
    newResolver env cfg fuel w = .failed w := by
  obtain ⟨f, rfl⟩ : ∃ f, fuel = f + 1 := ⟨fuel - 1, by omega⟩
  unfold newResolver
  rw [retryDo]
  simp [getWriter, ht, finishSetup, tickerPanics, readInstanceID, hf, ho]

theorem dropWhile_spaces {a b : Str} (ha : ∀ c ∈ a, isSpace c = true) (hb : ∀ c, b.head? = some c → isSpace c = false) :
    (a ++ b).dropWhile isSpace = b := by
  induction a with
  | nil =>
    cases b with
    | nil => rfl
    | cons c cs => simp [hb c rfl]
  | cons c cs ih =>
    rw [List.cons_append, List.dropWhile_cons, if_pos (ha c (by simp))]
    exact ih (fun x hx => ha x (List.mem_cons_of_mem _ hx))

/-- **C94** The instance id is what is in `/etc/hostname` without the white space around it, else the name the system
gives. -/
theorem C94_instance (before name after : Str) (hb : ∀ c ∈ before, isSpace c = true) (ha : ∀ c ∈ after, isSpace c = true)
    (hfirst : ∀ c, name.head? = some c → isSpace c = false) (hlast : ∀ c, name.getLast? = some c → isSpace c = false)
    (hne : name ≠ []) (os : Option Str) :
    readInstanceID (some (before ++ name ++ after)) os = some name ∧ readInstanceID none os = os := by
  refine ⟨?_, rfl⟩
  simp only [readInstanceID, trimSpace, Option.some.injEq]
  rw [List.append_assoc, dropWhile_spaces hb, List.reverse_append, dropWhile_spaces, List.reverse_reverse]
  · intro c hc
    exact ha c (List.mem_reverse.1 hc)
  · intro c hc
    rw [List.head?_reverse] at hc
    exact hlast c hc
  · intro c hc
    cases name with
    | nil => exact absurd rfl hne
    | cons x xs => exact hfirst c hc

example : readInstanceID (some (str! "blocky1\n")) none = some (str! "blocky1") := by decide

/-! ### What is kept -/

/-- `AddDate` in a time zone without daylight saving time. -/
def plainDays (now days : Int) : Int := now + days * dayNs

/-- The rows stored in a run. -/
def storedRows (es : List DbEvent) : List Row :=
  es.filterMap (fun | .store r => some r | _ => none)

theorem dbStep_policy (addDays : Int → Int → Int) (s : Setup) (db : Db) (e : DbEvent) :
    (dbStep addDays s db e).policy = db.policy := by
  cases e with
  | store r => rfl
  | tick now =>
    simp only [dbStep]
    split <;> rfl
  | policyJob now spare =>
    simp only [dbStep]
    split <;> simp_all

/-- **C94** Without a retention time nothing is ever deleted from a mysql or PostgreSQL database (without a policy of its
own). -/
theorem C94_kept_for_ever (addDays : Int → Int → Int) (s : Setup) (hc : s.cleanUp = false) (db : Db)
    (hp : db.policy = none) (es : List DbEvent) : (dbRun addDays s db es).rows = db.rows ++ storedRows es := by
  induction es generalizing db with
  | nil => simp [dbRun, storedRows]
  | cons e es ih =>
    have hp' : (dbStep addDays s db e).policy = none := by rw [dbStep_policy, hp]
    have := ih _ hp'
    rw [dbRun, List.foldl_cons, ← dbRun, this]
    cases e with
    | store r => simp [dbStep, storedRows]
    | tick now => simp [dbStep, hc, storedRows]
    | policyJob now spare => simp [dbStep, hp, storedRows]

theorem daysBack_of {n : Nat} (h : n ≤ 2 ^ 63) (h0 : 0 < n) : daysBack n = -(n : Int) := by
  unfold daysBack
  simp only
  rw [Int.emod_eq_of_lt (by omega) (by omega)]
  rw [if_neg (by omega)]
  omega

/-- **C94** With a retention time of `n` days the periodic clean-up deletes exactly the rows older than that. -/
theorem C94_clean_up_partial (s : Setup) (hc : s.cleanUp = true) (n : Nat) (flush : Int) (hw : s.writer = .database n flush)
    (h0 : 0 < n) (hn : n ≤ 2 ^ 63) (db : Db) (now : Int) (r : Row) :
    r ∈ (dbStep plainDays s db (.tick now)).rows ↔ r ∈ db.rows ∧ now - n * dayNs ≤ r.ts := by
  simp only [dbStep, hc, hw, dbCleanUp, List.mem_filter, daysBack_of hn h0, plainDays]
  simp only [Bool.not_eq_true', decide_eq_false_iff_not]
  refine and_congr_right fun _ => ?_
  have : (-(n : Int)) * dayNs = -(n * dayNs) := Int.neg_mul ..
  omega

/-- **C94** Over a whole run a row is only lost to a clean-up when it is older than the retention time. -/
theorem C94_not_too_early_partial (s : Setup) (n : Nat) (flush : Int) (hw : s.writer = .database n flush)
    (h0 : 0 < n) (hn : n ≤ 2 ^ 63) (db : Db) (hp : db.policy = none) (es : List DbEvent) (r : Row)
    (hr : r ∈ db.rows ∨ r ∈ storedRows es) (hyoung : ∀ now, DbEvent.tick now ∈ es → now - n * dayNs ≤ r.ts) :
    r ∈ (dbRun plainDays s db es).rows := by
  induction es generalizing db with
  | nil => simpa [dbRun, storedRows] using hr
  | cons e es ih =>
    rw [dbRun, List.foldl_cons, ← dbRun]
    have hy' : ∀ now, DbEvent.tick now ∈ es → now - n * dayNs ≤ r.ts :=
      fun now h => hyoung now (List.mem_cons_of_mem _ h)
    refine ih _ (by rw [dbStep_policy, hp]) ?_ hy'
    cases e with
    | store r' =>
      simp only [storedRows, List.filterMap_cons, List.mem_cons] at hr
      simp only [dbStep, List.mem_append, List.mem_singleton]
      rcases hr with hr | hr | hr
      · exact .inl (.inl hr)
      · exact .inl (.inr hr)
      · exact .inr hr
    | tick now =>
      simp only [storedRows, List.filterMap_cons] at hr
      rcases hr with hr | hr
      · left
        by_cases hc : s.cleanUp = true
        · exact (C94_clean_up_partial s hc n flush hw h0 hn db now r).2 ⟨hr, hyoung now (by simp)⟩
        · simp [dbStep, hc, hr]
      · exact .inr hr
    | policyJob now spare =>
      simp only [storedRows, List.filterMap_cons] at hr
      rcases hr with hr | hr
      · left
        simpa [dbStep, hp] using hr
      · exact .inr hr

/-- The setup of a server with a database log. -/
def databaseSetup (type : LogType) (n : Nat) : Setup :=
  ⟨.database n 30000000000, type, str! "blocky1", decide (n > 0 ∧ type ≠ .timescale)⟩

example : (dbRun plainDays (databaseSetup .mysql 1) {}
    [.store ⟨0, str! "a"⟩, .store ⟨dayNs, str! "b"⟩, .tick (dayNs + dayNs)]).rows = [⟨dayNs, str! "b"⟩] := by decide

/-- **C94** An existing log in mysql can be used again, and has a primary key either way. -/
theorem C94_mysql_restart (retention : Nat) (from_ now : Int) (host : Option Str) (db : Db) :
    databaseMigration (sqlEnv from_ host) (str! "mysql") retention (now, db) = (true, (now, { db with hasId := true })) := by
  unfold databaseMigration
  simp only [sqlEnv, execStmt, if_true]
  cases hi : db.hasId with
  | true =>
    simp only [if_true]
    rw [show db = { db with hasId := true } from by rw [← hi]]
    congr 1
  | false => simp

/-- **C94** PostgreSQL gets no primary key: the statement for it is never executed. -/
theorem C94_postgresql_no_key (retention : Nat) (from_ now : Int) (host : Option Str) (db : Db) :
    databaseMigration (sqlEnv from_ host) (str! "postgresql") retention (now, db) = (true, (now, db)) := by
  unfold databaseMigration
  simp only [sqlEnv, execStmt]
  rw [if_neg (by decide), if_neg (by decide), if_neg (by decide)]

/-- **C94** With Timescale the database itself deletes rows, after the number of days in the first configuration that was
ever used: a later change has no effect. -/
theorem C94_timescale_policy (retention : Nat) (from_ now : Int) (host : Option Str) (db : Db) :
    databaseMigration (sqlEnv from_ host) (str! "timescale") retention (now, db) =
      (true, (now, { db with hyper := true, policy := some (db.policy.getD retention) })) := by
  unfold databaseMigration
  simp only [sqlEnv, execStmt]
  rw [if_neg (by decide), if_neg (by decide), if_pos trivial]
  cases hp : db.policy <;> simp

/-- **C94** Of a Timescale table with a policy of `n` days no row younger than that is deleted. -/
theorem C94_timescale_young (addDays : Int → Int → Int) (m n : Nat) (db : Db) (hp : db.policy = some n)
    (es : List DbEvent) (r : Row) (hr : r ∈ db.rows ∨ r ∈ storedRows es)
    (hyoung : ∀ now spare, DbEvent.policyJob now spare ∈ es → now - n * dayNs ≤ r.ts) :
    r ∈ (dbRun addDays (databaseSetup .timescale m) db es).rows := by
  induction es generalizing db with
  | nil => simpa [dbRun, storedRows] using hr
  | cons e es ih =>
    rw [dbRun, List.foldl_cons, ← dbRun]
    refine ih _ (by rw [dbStep_policy, hp]) ?_ (fun now sp h => hyoung now sp (List.mem_cons_of_mem _ h))
    cases e with
    | store r' =>
      simp only [storedRows, List.filterMap_cons, List.mem_cons] at hr
      simp only [dbStep, List.mem_append, List.mem_singleton]
      rcases hr with hr | hr | hr
      · exact .inl (.inl hr)
      · exact .inl (.inr hr)
      · exact .inr hr
    | tick now =>
      simp only [storedRows, List.filterMap_cons] at hr
      rcases hr with hr | hr
      · exact .inl (by simpa [dbStep, databaseSetup] using hr)
      · exact .inr hr
    | policyJob now spare =>
      simp only [storedRows, List.filterMap_cons] at hr
      rcases hr with hr | hr
      · left
        simp only [dbStep, hp, List.mem_filter]
        refine ⟨hr, ?_⟩
        have := hyoung now spare (by simp)
        simp
        right
        exact this
      · exact .inr hr

/-- **C94** "0" does not mean "keep" with Timescale: a new database gets a policy of 0 days, and may delete a row right
after it was stored. -/
theorem C94_timescale_zero_false :
    ¬ ∀ (now : Int) (es : List DbEvent) (db : Db),
      databaseMigration (sqlEnv 0 (some (str! "blocky1"))) (str! "timescale") 0 (now, {}) = (true, (now, db)) →
      ∀ r ∈ storedRows es, r ∈ (dbRun plainDays (databaseSetup .timescale 0) db es).rows := by
  intro h
  have := h 0 [.store ⟨0, str! "a"⟩, .policyJob 1 (fun _ => false)] { hyper := true, policy := some 0 }
    (C94_timescale_policy 0 0 0 _ {}) ⟨0, str! "a"⟩ (by simp [storedRows])
  exact absurd this (by decide)

/-- **C94** Nor does a huge number mean "keep": the largest one makes the clean-up of a database delete every row, because
the sign is lost; the youngest row of the past goes too. -/
theorem C94_huge_retention_false (s : Setup) (hc : s.cleanUp = true) (flush : Int)
    (hw : s.writer = .database (2 ^ 64 - 1) flush) (db : Db) (now : Int) (hpast : ∀ r ∈ db.rows, r.ts ≤ now) :
    (dbStep plainDays s db (.tick now)).rows = [] := by
  simp only [dbStep, hc, hw, dbCleanUp]
  rw [List.filter_eq_nil_iff]
  intro r hr
  have := hpast r hr
  rw [show daysBack (2 ^ 64 - 1) = 1 from by decide]
  simp only [plainDays, dayNs]
  simp
  omega

/-! ### The console -/

/-- The fields of a log line with their values. -/
inductive ConsoleField (e : LogEntry) : Str → Value → Prop
  | ip : ConsoleField e (str! "client_ip") (.text e.clientIP)
  | names : ConsoleField e (str! "client_names") (.text (joinStr (str! "; ") e.clientNames))
  | reason : ConsoleField e (str! "response_reason") (.text e.responseReason)
  | type : ConsoleField e (str! "response_type") (.text e.responseType)
  | code : ConsoleField e (str! "response_code") (.text e.responseCode)
  | qname : ConsoleField e (str! "question_name") (.text e.questionName)
  | qtype : ConsoleField e (str! "question_type") (.text e.questionType)
  | answer : ConsoleField e (str! "answer") (.text e.answer)
  | duration : ConsoleField e (str! "duration_ms") (.number e.durationMs)
  | inst : ConsoleField e (str! "instance") (.text e.instanceID)

/-- **C94** A line on the console has exactly the fields of the entry that are neither empty nor 0. -/
theorem C94_console (e : LogEntry) (k : Str) (v : Value) :
    (k, v) ∈ logEntryFields e ↔ ConsoleField e k v ∧ v ≠ .text [] ∧ v ≠ .number 0 := by
  have hz : ∀ v : Value, v.isZero = false ↔ v ≠ .text [] ∧ v ≠ .number 0 := by
    intro v
    cases v with
    | text s => cases s <;> simp [Value.isZero]
    | number n => simp [Value.isZero]
  unfold logEntryFields withoutZeroes
  rw [List.mem_filter]
  simp only [Bool.not_eq_true', hz]
  refine and_congr_left fun _ => ?_
  constructor
  · intro h
    simp only [List.mem_cons, Prod.mk.injEq, List.not_mem_nil, or_false] at h
    rcases h with ⟨rfl, rfl⟩ | ⟨rfl, rfl⟩ | ⟨rfl, rfl⟩ | ⟨rfl, rfl⟩ | ⟨rfl, rfl⟩ | ⟨rfl, rfl⟩ | ⟨rfl, rfl⟩ | ⟨rfl, rfl⟩ |
      ⟨rfl, rfl⟩ | ⟨rfl, rfl⟩ <;> constructor
  · intro h
    cases h <;> simp

/-- **C94** So queries answered within a millisecond have no duration on the console. -/
theorem C94_fast_queries_without_duration (e : LogEntry) (h : e.durationMs = 0) (v : Value) :
    (str! "duration_ms", v) ∉ logEntryFields e := by
  rw [C94_console]
  rintro ⟨h1, -, h3⟩
  generalize hk : (str! "duration_ms" : Str) = k at h1
  cases h1 <;> simp_all

/-- **C94** A database is opened with the driver of its kind, MySQL's only for `mysql`; if it cannot be opened, or if
its tables cannot be brought up to date, there is no writer. -/
theorem C94_driver (env : LogSetup.Env W) (cfg : LogSetup.Cfg) (w : W)
    (h : cfg.type = .mysql ∨ cfg.type = .postgresql ∨ cfg.type = .timescale) :
    ((env.openDb (decide (cfg.type = .mysql)) cfg.target w).1 = false →
      getWriter env cfg w = (none, (env.openDb (decide (cfg.type = .mysql)) cfg.target w).2)) ∧
    ((env.openDb (decide (cfg.type = .mysql)) cfg.target w).1 = true →
      (env.exec .autoMigrate (env.openDb (decide (cfg.type = .mysql)) cfg.target w).2).1 ≠ none →
      (getWriter env cfg w).1 = none) := by
  have key : ∀ m dbType, ((env.openDb m cfg.target w).1 = false →
      openDatabase env m cfg.target cfg.retention cfg.flushInterval dbType w = (none, (env.openDb m cfg.target w).2)) ∧
      ((env.openDb m cfg.target w).1 = true → (env.exec .autoMigrate (env.openDb m cfg.target w).2).1 ≠ none →
        (openDatabase env m cfg.target cfg.retention cfg.flushInterval dbType w).1 = none) := by
    intro m dbType
    unfold openDatabase databaseMigration
    rcases env.openDb m cfg.target w with ⟨b, w1⟩
    cases b with
    | false => simp
    | true =>
      simp only [reduceCtorEq, false_implies, true_and, forall_const]
      rcases env.exec .autoMigrate w1 with ⟨e, w2⟩
      cases e <;> simp
  unfold getWriter
  rcases h with h | h | h
  all_goals
    rw [h]
    exact key _ _

example : ((sqlEnv 1 none).openDb (decide ((databaseLog .mysql 7 3 0).type = .mysql)) (databaseLog .mysql 7 3 0).target
    (2, {})).1 = true := rfl

end Verif.Props
