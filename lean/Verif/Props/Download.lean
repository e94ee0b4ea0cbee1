/-
C67: what is read of a list within the timeout.
-/
import Verif.Model.Download
import Verif.Props.Loading
import Verif.Props.ListRefresh

namespace Verif.Props
open Download Loading

/-- Something that comes at this time comes within the timeout (zero and negative: no timeout). -/
def InTime (timeout : Int) (t : Nat) : Prop := timeout ≤ 0 ∨ (t : Int) < timeout

/-- An attempt that fails: no header within the timeout, or a status that is not 200. -/
def TransferFails (timeout : Int) (t : Transfer) : Prop := ¬InTime timeout t.header ∨ t.status ≠ 200

private theorem expired_iff (timeout : Int) (t : Nat) : expired timeout t = true ↔ ¬InTime timeout t := by
  unfold expired InTime
  rw [Bool.and_eq_true, decide_eq_true_iff, decide_eq_true_iff]
  omega

private theorem expired_false (timeout : Int) (t : Nat) (h : InTime timeout t) : expired timeout t = false := by
  rw [← Bool.not_eq_true, expired_iff]
  exact fun hn => hn h

private theorem transfer_fails (timeout : Int) (t : Transfer) (h : TransferFails timeout t) :
    ∃ e, AttemptFails (attempt timeout t) e := by
  unfold attempt
  split
  · exact ⟨_, .inr (.inl ⟨rfl, rfl⟩)⟩
  · next hx =>
    rcases h with h | h
    · exact absurd ((expired_iff _ _).2 h) hx
    · exact ⟨_, .inl ⟨_, _, rfl, h, rfl⟩⟩

/-- The run up to the first attempt that gets a header with status 200 in time: no further attempt is made. -/
private theorem run_first (d : Downloader) (ts : Nat → Transfer) (k : Nat) (hk : d.attempts = 0 ∨ k < d.attempts)
    (hf : ∀ i < k, TransferFails d.timeout (ts i)) (h1 : InTime d.timeout (ts k).header) (h2 : (ts k).status = 200)
    (later : Nat) :
    Loading.Download.run d.attempts d.cooldown (fun i => attempt d.timeout (ts i)) (k + 1 + later) =
      { n := k, requests := k + 1, events := k, waited := k * d.cooldown,
        result := some (.ok ((ts k).pieces.flatMap (·.2))) } := by
  refine C67_first_success d.attempts d.cooldown _ k _ hk (fun i hi => transfer_fails _ _ (hf i hi)) ?_ later
  unfold AttemptDelivers attempt
  rw [expired_false _ _ h1, h2]
  rfl

/-- **C67** A list whose body comes within the timeout, in the first attempt with a good header, is read completely. -/
theorem C67_body_partial (d : Downloader) (ts : Nat → Transfer) (k : Nat) (hk : d.attempts = 0 ∨ k < d.attempts)
    (hf : ∀ i < k, TransferFails d.timeout (ts i)) (h1 : InTime d.timeout (ts k).header) (h2 : (ts k).status = 200)
    (hp : ∀ p ∈ (ts k).pieces, InTime d.timeout p.1) (ho : InTime d.timeout (ts k).over) (later : Nat) :
    openSource d ts (k + 1 + later) = some (.opened ⟨(ts k).pieces.flatMap (·.2), false⟩) := by
  unfold openSource
  simp only [run_first d ts k hk hf h1 h2 later]
  unfold body
  have e1 : (ts k).pieces.takeWhile (fun p => !expired d.timeout p.1) = (ts k).pieces := by
    have := List.takeWhile_append_of_pos (p := fun p : Nat × Str => !expired d.timeout p.1) (l₁ := (ts k).pieces)
      (l₂ := []) (fun p h => by rw [expired_false _ _ (hp p h)]; rfl)
    simpa using this
  rw [e1, expired_false _ _ ho,
    List.any_eq_false.2 (fun p h => by rw [expired_false _ _ (hp p h)]; exact Bool.false_ne_true)]
  rfl

/-- **C67** The body of that attempt is not asked for again if it does not come completely within the timeout: what came so
far is read, then an error; no further request is made, although attempts may be left. -/
theorem C67_slow_body (d : Downloader) (ts : Nat → Transfer) (k : Nat) (hk : d.attempts = 0 ∨ k < d.attempts)
    (hf : ∀ i < k, TransferFails d.timeout (ts i)) (h1 : InTime d.timeout (ts k).header) (h2 : (ts k).status = 200)
    (early late : List (Nat × Str)) (hp : (ts k).pieces = early ++ late) (hearly : ∀ p ∈ early, InTime d.timeout p.1)
    (hlate : ∃ p ps, late = p :: ps ∧ ¬InTime d.timeout p.1) (later : Nat) :
    openSource d ts (k + 1 + later) = some (.opened ⟨early.flatMap (·.2), true⟩) ∧
    (Loading.Download.run d.attempts d.cooldown (fun i => attempt d.timeout (ts i)) (k + 1 + later)).requests = k + 1 := by
  obtain ⟨p, ps, rfl, hl⟩ := hlate
  unfold openSource
  simp only [run_first d ts k hk hf h1 h2 later, and_true]
  unfold body
  have he := (expired_iff _ _).2 hl
  rw [hp, List.takeWhile_append_of_pos (fun q h => by rw [expired_false _ _ (hearly q h)]; rfl),
    List.takeWhile_cons_of_neg (by rw [he]; decide), List.any_append, List.any_cons, he]
  simp

/-- A server that needs 8 s for the list at first, and is quick afterwards. -/
def busyServer : Nat → Transfer
  | 0 => ⟨200, 1000000000, [(2000000000, str! "a.com\n"), (8000000000, str! "b.com\n")], 8000000000⟩
  | _ => ⟨200, 100000000, [(200000000, str! "a.com\nb.com\n")], 200000000⟩

/-- **C67** is false for lists that take long: with the default timeout of 5 s and 3 attempts, half of a list is taken for
the whole list, without an error, although the second attempt would have got all of it. -/
theorem C67_half_list_false :
    (∃ s, openSource {} busyServer 3 = some s ∧ Lists.parseFile demoEnv (some 5) none s = ⟨[str! "a.com"], none⟩) ∧
    openSource {} (fun i => busyServer (i + 1)) 3 = some (.opened ⟨str! "a.com\nb.com\n", false⟩) ∧
    fileItems (str! "a.com\nb.com\n") = [str! "a.com", str! "b.com"] := by
  have h1 : Lists.parseFile demoEnv (some 5) none (.opened ⟨str! "a.com\n", true⟩) = ⟨[str! "a.com"], none⟩ := by
    unfold Lists.parseFile
    simp only
    rw [C35_parse_all _ _ _ (by intro n hn; cases hn; decide)]
    decide
  refine ⟨⟨.opened ⟨str! "a.com\n", true⟩, ?_, h1⟩, ?_, by decide⟩
  · exact (C67_slow_body {} busyServer 0 (.inr (by decide)) (fun i h => absurd h (by omega)) (.inr (by decide)) rfl
      [(2000000000, str! "a.com\n")] [(8000000000, str! "b.com\n")] rfl (by unfold InTime; decide)
      ⟨_, _, rfl, by unfold InTime; decide⟩ 2).1
  · exact C67_body_partial {} (fun i => busyServer (i + 1)) 0 (.inr (by decide)) (fun i h => absurd h (by omega))
      (.inr (by decide)) rfl (by unfold InTime; decide) (.inr (by decide)) 2

/-- **C67** If no attempt gets a header with status 200 in time, the source cannot be opened; after a timeout at the end the
group keeps its content whatever else was read. -/
theorem C67_nothing (d : Downloader) (ts : Nat → Transfer) (h0 : 0 < d.attempts)
    (hf : ∀ i < d.attempts, TransferFails d.timeout (ts i)) (later : Nat) :
    ∃ e, openSource d ts (d.attempts + later) = some (.openFails e) ∧
      (e = .transient ↔ ¬InTime d.timeout (ts (d.attempts - 1)).header) := by
  have hall : ∀ i < d.attempts, ∃ e, AttemptFails (attempt d.timeout (ts i)) e :=
    fun i hi => transfer_fails _ _ (hf i hi)
  by_cases hl : InTime d.timeout (ts (d.attempts - 1)).header
  · have hs : (ts (d.attempts - 1)).status ≠ 200 := by
      rcases hf (d.attempts - 1) (by omega) with h | h
      · exact absurd hl h
      · exact h
    have := C67_all_fail d.attempts d.cooldown _ (.status (ts (d.attempts - 1)).status) h0 hall
      (.inl ⟨_, _, by unfold attempt; rw [expired_false _ _ hl]; rfl, hs, rfl⟩) later
    refine ⟨.other, ?_, ?_⟩
    · unfold openSource
      simp only [this]
    · simp [hl]
  · have := C67_all_fail d.attempts d.cooldown _ .transient h0 hall
      (.inr (.inl ⟨by unfold attempt; rw [(expired_iff _ _).2 hl]; rfl, rfl⟩)) later
    refine ⟨.transient, ?_, ?_⟩
    · unfold openSource
      simp only [this]
    · simp [hl]

/-- **C67** As long as attempts fail and more are left, nothing is opened. -/
theorem C67_unfinished (d : Downloader) (ts : Nat → Transfer) (k : Nat) (hk : d.attempts = 0 ∨ k < d.attempts)
    (hf : ∀ i < k, TransferFails d.timeout (ts i)) : openSource d ts k = none := by
  unfold openSource
  simp only [download_failing d.attempts d.cooldown (fun i => attempt d.timeout (ts i)) k hk (fun i hi => transfer_fails _ _ (hf i hi))]

instance (timeout : Int) (t : Nat) : Decidable (InTime timeout t) := inferInstanceAs (Decidable (_ ∨ _))

/-- A server that first says "not found" and then sends the list, slowly or not. -/
def secondTime (slow : Nat) (i : Nat) : Transfer :=
  if i = 0 then ⟨404, 0, [], 0⟩ else ⟨200, 1000000000, [(1000000000, str! "ads.com"), (slow, str! " tracker.com")], slow⟩

example : openSource {} (secondTime 2000000000) 3 = some (.opened ⟨str! "ads.com tracker.com", false⟩) :=
  C67_body_partial {} (secondTime 2000000000) 1 (.inr (by decide)) (fun i hi => by rw [show i = 0 by omega]; exact .inr (by decide))
    (by decide) rfl (by decide) (by decide) 1

example : openSource {} (secondTime 6000000000) 3 = some (.opened ⟨str! "ads.com", true⟩) :=
  (C67_slow_body {} (secondTime 6000000000) 1 (.inr (by decide)) (fun i hi => by rw [show i = 0 by omega]; exact .inr (by decide))
    (by decide) rfl [(1000000000, str! "ads.com")] _ rfl (by decide) ⟨_, _, rfl, by decide⟩ 1).1

example : openSource {} (secondTime 6000000000) 1 = none :=
  C67_unfinished {} (secondTime 6000000000) 1 (.inr (by decide)) (fun i hi => by rw [show i = 0 by omega]; exact .inr (by decide))

example : 0 < ({} : Downloader).attempts ∧
    ∀ i < ({} : Downloader).attempts, TransferFails ({} : Downloader).timeout (⟨404, i, [], i⟩ : Transfer) :=
  ⟨by decide, fun _ _ => .inr (by simp)⟩

/-- Without settings a download has the times and attempts of the documentation (docs/configuration.md 930-938): a body that
comes within five seconds is whole, one that takes five seconds is not; three attempts, half a second apart. The HTTP
servers of blocky use the other three times (server/http.go 21-31). -/
theorem C67_defaults (d : Downloader) (hd : d = {}) (elapsed : Nat) :
    (expired d.timeout elapsed = false ↔ elapsed < 5 * 1000000000) ∧
    (expired d.readTimeout elapsed = false ↔ elapsed < 20 * 1000000000) ∧
    (expired d.readHeaderTimeout elapsed = false ↔ elapsed < 20 * 1000000000) ∧
    (expired d.writeTimeout elapsed = false ↔ elapsed < 20 * 1000000000) ∧
    d.attempts = 3 ∧ 2 * d.cooldown = 1000000000 := by
  subst hd
  refine ⟨?_, ?_, ?_, ?_, rfl, rfl⟩ <;> simp [expired] <;> omega

end Verif.Props
