/-
C93: what the commands do, what they print and how they end.
-/
import Verif.Model.Cli
import Verif.Props.BlockingStatus
import Verif.Props.Duration
import Verif.Props.Listener

namespace Verif.Props
open Cli ConfigFiles Blocking

variable {C W S : Type}

/-- The words of `blocky blocking disable` and its short forms. -/
def DisableWords (words : List Str) : Prop :=
  ∃ a b, words = [a, b] ∧ (a = str! "blocking" ∨ a = str! "block") ∧ (b = str! "disable" ∨ b = str! "off")

/-- The words of `blocky blocking enable` and its short forms. -/
def EnableWords (words : List Str) : Prop :=
  ∃ a b, words = [a, b] ∧ (a = str! "blocking" ∨ a = str! "block") ∧ (b = str! "enable" ∨ b = str! "on")

/-- The words of `blocky blocking status` and its short form. -/
def StatusWords (words : List Str) : Prop :=
  ∃ a, words = [a, str! "status"] ∧ (a = str! "blocking" ∨ a = str! "block")

/-- A server, set up with `c` and `h`, behind the address that the configuration gives. -/
structure Reaches (d : Decoder C) (fs : Str → Root) (env : ConfigFiles.Env) (f : Flags) (c : BCfg) (h : Controls W)
    (peer : Peer (World W)) : Prop where
  reach : ∃ path a, initConfig d fs env f.config f.api = some (path, a) ∧
    ∀ call w, peer (apiAuthority a) call w = (some (Cli.serve c h call w).1, (Cli.serve c h call w).2)

/-- What a command with the hook does. -/
theorem blocky_run (d : Decoder C) (fs : Str → Root) (env : ConfigFiles.Env) (typeOf : Str → Nat) (c : BCfg) (h : Controls W)
    (peer : Peer (World W)) (f : Flags) (hr : Reaches d fs env f c h peer) (words : List Str) (w : World W)
    (a : Action) (args : List Str) (call : Call) (finish : Option Reply → End)
    (hf : find words = .run a true args) (ha : apiCommand typeOf f args a = some (some (call, finish))) :
    blocky d fs env typeOf peer words f w = some (finish (some (Cli.serve c h call w).1), (Cli.serve c h call w).2) := by
  obtain ⟨path, a, h1, h2⟩ := hr.reach
  unfold blocky
  simp only [hf, ha, addressOf, h1, if_true, Option.map_some, h2]

theorem find_disable {words : List Str} (h : DisableWords words) : find words = .run .disable true [] := by
  obtain ⟨a, b, rfl, rfl | rfl, rfl | rfl⟩ := h <;> decide +kernel

theorem find_enable {words : List Str} (h : EnableWords words) : find words = .run .enable true [] := by
  obtain ⟨a, b, rfl, rfl | rfl, rfl | rfl⟩ := h <;> decide +kernel

theorem find_status {words : List Str} (h : StatusWords words) : find words = .run .status true [] := by
  obtain ⟨a, rfl, rfl | rfl⟩ := h <;> decide +kernel

/-- **C93** `blocking disable` ends with 0 exactly if all groups it names are known, and then exactly these groups (all
of them, if none is named) are disabled from now on for the duration; otherwise blocking stays as it is. -/
theorem C93_disable_partial (d : Decoder C) (fs : Str → Root) (env : ConfigFiles.Env) (typeOf : Str → Nat) (c : BCfg)
    (h : Controls W) (peer : Peer (World W)) (f : Flags) (hr : Reaches d fs env f c h peer) (words : List Str)
    (hw : DisableWords words) (hd : IsDuration f.duration) (hg : ∀ g ∈ f.groups, g ≠ [] ∧ ',' ∉ g) (w : World W) :
    ∃ e w', blocky d fs env typeOf peer words f w = some (e, w') ∧ w'.rest = w.rest ∧ e.exit ≤ 1 ∧
      (e.exit = 0 ↔ ∀ g ∈ f.groups, KnownGroup c g) ∧
      (e.exit = 0 → w'.blocking.enabled = false ∧ w'.blocking.disableEnd = w.blocking.now + f.duration ∧
        (∀ g, g ∈ w'.blocking.disabledGroups ↔ g ∈ f.groups ∨ f.groups = [] ∧ KnownGroup c g) ∧
        w'.blocking.timer = if f.duration = 0 then none else some (w.blocking.now + f.duration)) ∧
      (e.exit = 1 → w'.blocking.enabled = w.blocking.enabled ∧
        w'.blocking.disabledGroups = w.blocking.disabledGroups) := by
  have e1 := blocky_run d fs env typeOf c h peer f hr words w .disable [] _ _ (find_disable hw) rfl
  have e2 : Cli.serve c h { clientCall (str! "blocking/disable") (str! "GET") with
        duration := some (Duration.cliDisable f.duration f.groups).1,
        groups := some (Duration.cliDisable f.duration f.groups).2 } w =
      (if (internalDisable c w.blocking f.duration f.groups).2 then plain 200 [] else plain 400 [],
        { w with blocking := (internalDisable c w.blocking f.duration f.groups).1 }) := by
    unfold Cli.serve
    have : route { clientCall (str! "blocking/disable") (str! "GET") with
        duration := some (Duration.cliDisable f.duration f.groups).1,
        groups := some (Duration.cliDisable f.duration f.groups).2 } = some .disable := by
      unfold route; rw [if_pos ⟨rfl, rfl⟩]
    rw [this]
    simp only [C66_disable_partial f.duration hd f.groups hg]
  rw [e2] at e1
  have hacc := C18_accepted_iff c w.blocking f.duration f.groups
  by_cases hk : (internalDisable c w.blocking f.duration f.groups).2 = true
  · rw [if_pos hk] at e1
    refine ⟨_, _, e1, rfl, (by simp [printOkOrError, plain]), ?_, ?_, by intro h0; cases h0⟩
    · exact ⟨fun _ => hacc.1 hk, fun _ => rfl⟩
    · intro _
      simp only [disable_accepted c w.blocking f.duration f.groups hk]
      refine ⟨trivial, trivial, ?_, trivial⟩
      intro g
      by_cases h0 : f.groups = []
      · simp [h0, mem_allGroups]
      · rw [if_neg (by simpa using h0)]
        simp [h0]
  · rw [if_neg hk] at e1
    have hk' : (internalDisable c w.blocking f.duration f.groups).2 = false := by simpa using hk
    refine ⟨_, _, e1, rfl, (by simp [printOkOrError, plain, failed]), ?_, (by intro h0; cases h0), ?_⟩
    · exact ⟨fun h0 => (by cases h0), fun h0 => absurd (hacc.2 h0) hk⟩
    · intro _
      simp only [disable_rejected c w.blocking f.duration f.groups hk']
      exact ⟨trivial, trivial⟩

/-- **C93** `blocking enable` ends with 0, and all groups block again. -/
theorem C93_enable (d : Decoder C) (fs : Str → Root) (env : ConfigFiles.Env) (typeOf : Str → Nat) (c : BCfg) (h : Controls W)
    (peer : Peer (World W)) (f : Flags) (hr : Reaches d fs env f c h peer) (words : List Str)
    (hw : EnableWords words) (w : World W) :
    ∃ w', blocky d fs env typeOf peer words f w = some (⟨0, [str! "OK"]⟩, w') ∧ w'.rest = w.rest ∧
      w'.blocking.enabled = true ∧ w'.blocking.disabledGroups = [] ∧ w'.blocking.timer = none :=
  ⟨_, blocky_run d fs env typeOf c h peer f hr words w .enable [] _ _ (find_enable hw) rfl, rfl, rfl, rfl, rfl⟩

/-- **C93** `lists refresh` ends with 0 exactly if the server refreshed all lists without an error. -/
theorem C93_refresh (d : Decoder C) (fs : Str → Root) (env : ConfigFiles.Env) (typeOf : Str → Nat) (c : BCfg) (h : Controls W)
    (peer : Peer (World W)) (f : Flags) (hr : Reaches d fs env f c h peer) (w : World W) :
    ∃ e, blocky d fs env typeOf peer [str! "lists", str! "refresh"] f w =
        some (e, { w with rest := (h.refresh w.rest).2 }) ∧
      e.exit = if (h.refresh w.rest).1 = none then 0 else 1 := by
  have e1 := blocky_run d fs env typeOf c h peer f hr [str! "lists", str! "refresh"] w .refresh [] _ _
    (by decide +kernel) rfl
  refine ⟨_, e1, ?_⟩
  have : route (clientCall (str! "lists/refresh") (str! "POST")) = some .refresh := by decide +kernel
  unfold Cli.serve
  rw [this]
  simp only
  generalize (h.refresh w.rest).1 = r
  cases r <;> rfl

/-- **C93** `cache flush` (or `clear`) ends with 0, and the server has flushed its caches. -/
theorem C93_flush (d : Decoder C) (fs : Str → Root) (env : ConfigFiles.Env) (typeOf : Str → Nat) (c : BCfg) (h : Controls W)
    (peer : Peer (World W)) (f : Flags) (hr : Reaches d fs env f c h peer) (b : Str)
    (hb : b = str! "flush" ∨ b = str! "clear") (w : World W) :
    blocky d fs env typeOf peer [str! "cache", b] f w =
      some (⟨0, [str! "OK"]⟩, { w with rest := h.flush w.rest }) :=
  blocky_run d fs env typeOf c h peer f hr _ w .flush [] _ _
    (by rcases hb with rfl | rfl <;> decide +kernel) rfl

/-- The result of a query as the server has it, or that it has none. -/
def resultOf : QueryReply → Option ApiResult
  | .ok r => some r
  | _ => none

/-- **C93** `query` ends with 0 exactly if the server has a result, and prints it (each part to the right of a column
of 20 characters); a type that does not exist is refused without asking. -/
theorem C93_query (d : Decoder C) (fs : Str → Root) (env : ConfigFiles.Env) (typeOf : Str → Nat) (c : BCfg) (h : Controls W)
    (peer : Peer (World W)) (f : Flags) (hr : Reaches d fs env f c h peer) (name : Str) (w : World W) :
    (typeOf f.type = 0 →
      ∃ e, blocky d fs env typeOf peer [str! "query", name] f w = some (e, w) ∧ e.exit = 1) ∧
    (typeOf f.type ≠ 0 →
      ∃ e, blocky d fs env typeOf peer [str! "query", name] f w =
          some (e, { w with rest := (h.query name f.type w.rest).2 }) ∧
        (resultOf (h.query name f.type w.rest).1 = none → e.exit = 1) ∧
        (∀ x, resultOf (h.query name f.type w.rest).1 = some x → e.exit = 0 ∧ e.printed.length = 5 ∧
          ∀ part ∈ [(str! "\treason: ", x.reason), (str! "\tresponse type: ", x.responseType),
              (str! "\tresponse: ", x.response), (str! "\treturn code: ", x.returnCode)],
            ∃ line ∈ e.printed, part.1 <+: line ∧ part.2 <:+ line)) := by
  have hf : find [str! "query", name] = .run .query true [name] := by
    unfold find
    have : tops.find? (fun t => t.names.contains (str! "query")) = some ⟨[str! "query"], true, .exactly 1, some .query, []⟩ := by
      rfl
    simp only [this]
    simp [runnable, Args.ok]
  constructor
  · intro h0
    obtain ⟨path, a, h1, h2⟩ := hr.reach
    refine ⟨failed, ?_, rfl⟩
    unfold blocky
    simp only [hf, apiCommand, h0, if_true, addressOf, h1, Option.map_some]
  · intro h0
    have e1 := blocky_run d fs env typeOf c h peer f hr [str! "query", name] w .query [name] _ _ hf
      (by unfold apiCommand; rw [if_neg h0])
    refine ⟨_, e1, ?_⟩
    have : route { clientCall (str! "query") (str! "POST") with body := some (([name] : List Str).headD [], f.type) } = some .query := by
      rfl
    unfold Cli.serve
    rw [this]
    dsimp only [List.headD]
    generalize (h.query name f.type w.rest).1 = r
    cases r with
    | badRequest t => exact ⟨fun _ => rfl, fun x hx => (nomatch hx)⟩
    | serverError t => exact ⟨fun _ => rfl, fun x hx => (nomatch hx)⟩
    | ok r =>
      refine ⟨fun hx => (nomatch hx), fun x hx => ?_⟩
      cases hx
      refine ⟨rfl, rfl, ?_⟩
      have suf : ∀ (p q s : Str), p <+: (p ++ q) ++ pad20 s ∧ s <:+ (p ++ q) ++ pad20 s := by
        intro p q s
        exact ⟨⟨q ++ pad20 s, by simp⟩, ⟨p ++ q ++ List.replicate (20 - s.length) ' ', by simp [pad20]⟩⟩
      intro part hp
      simp only [List.mem_cons, List.not_mem_nil, or_false] at hp
      rcases hp with rfl | rfl | rfl | rfl
      · exact ⟨_, .tail _ (.head _), suf (str! "\treason: ") (str! "       ") _⟩
      · exact ⟨_, .tail _ (.tail _ (.head _)), suf (str! "\tresponse type: ") [] _⟩
      · exact ⟨_, .tail _ (.tail _ (.tail _ (.head _))), suf (str! "\tresponse: ") (str! "     ") _⟩
      · exact ⟨_, .tail _ (.tail _ (.tail _ (.tail _ (.head _)))), suf (str! "\treturn code: ") (str! "  ") _⟩

/-! ### The status -/

/-- Names separated by semicolons. -/
inductive SemicolonList : List Str → Str → Prop where
  | nil : SemicolonList [] []
  | one (g : Str) : SemicolonList [g] g
  | more (g : Str) (gs : List Str) (t : Str) : gs ≠ [] → SemicolonList gs t → SemicolonList (g :: gs) (g ++ str! "; " ++ t)

theorem joinSemicolon_listed (gs : List Str) : SemicolonList gs (joinSemicolon gs) := by
  induction gs with
  | nil => exact .nil
  | cons g gs ih =>
    cases gs with
    | nil => exact .one g
    | cons a b => exact .more g (a :: b) _ (by simp) ih

/-- **C93.** A server that says "in 0 seconds" is understood like one that says nothing of an end, whatever the groups. -/
theorem C93_zero_seconds (gs : List Str) (json : Reply) (h : json.code = 200) (hj : json.json = true) (n : Option Int) (hn : n = none ∨ n = some 0)
    (hb : json.body = .status ⟨n, some gs, false⟩) : (statusEnd (some json)).printed = [str! "blocking disabled for groups: " ++ joinSemicolon gs] := by
  rcases hn with rfl | rfl <;> simp [statusEnd, h, hj, hb, statusLine]

example : (statusEnd (some ⟨200, true, .status ⟨some 0, some [str! "ads", str! "tv"], false⟩⟩)).printed =
    [str! "blocking disabled for groups: ads; tv"] :=
  C93_zero_seconds [str! "ads", str! "tv"] _ rfl rfl _ (.inr rfl) rfl

theorem statusLine_disabled (r : Report) (h : r.enabled = false) :
    statusLine (apiStatus r) =
      if r.autoEnableInSec > 0 then
        str! "blocking disabled for groups: '" ++ joinSemicolon r.disabledGroups ++ str! "', for " ++
          Nat.toDigits 10 r.autoEnableInSec.natAbs ++ str! " seconds"
      else str! "blocking disabled for groups: " ++ joinSemicolon r.disabledGroups := by
  obtain ⟨e, gs, n⟩ := r
  simp only at h
  subst h
  by_cases h0 : n > 0
  · have h1 : ¬ n < 0 := by omega
    have h2 : n ≠ 0 := by omega
    cases gs <;> simp [statusLine, apiStatus, h0, h1, h2, decimal, joinSemicolon]
  · cases gs <;> simp [statusLine, apiStatus, h0, joinSemicolon]

theorem status_run (d : Decoder C) (fs : Str → Root) (env : ConfigFiles.Env) (typeOf : Str → Nat) (c : BCfg) (h : Controls W)
    (peer : Peer (World W)) (f : Flags) (hr : Reaches d fs env f c h peer) (words : List Str) (hw : StatusWords words)
    (w : World W) :
    blocky d fs env typeOf peer words f w = some (⟨0, [statusLine (apiStatus (blockingStatus w.blocking))]⟩, w) := by
  have e1 := blocky_run d fs env typeOf c h peer f hr words w .status [] _ _ (find_status hw) rfl
  rw [e1]
  have : route (clientCall (str! "blocking/status") (str! "GET")) = some .status := by decide +kernel
  unfold Cli.serve
  rw [this]
  rfl

/-- **C93** What `blocking status` prints, whatever state blocking is in: that blocking is enabled; or the disabled
groups, and the full seconds that are left if there is at least one. The server is left as it is. -/
theorem C93_status (d : Decoder C) (fs : Str → Root) (env : ConfigFiles.Env) (typeOf : Str → Nat) (c : BCfg) (h : Controls W)
    (peer : Peer (World W)) (f : Flags) (hr : Reaches d fs env f c h peer) (words : List Str) (hw : StatusWords words)
    (w : World W) :
    ∃ line, blocky d fs env typeOf peer words f w = some (⟨0, [line]⟩, w) ∧
      (w.blocking.enabled = true → line = str! "blocking enabled") ∧
      (w.blocking.enabled = false → ∃ names, SemicolonList w.blocking.disabledGroups names ∧
        (∀ k : Nat, 0 < k → w.blocking.now + k * 1000000000 ≤ w.blocking.disableEnd →
          w.blocking.disableEnd < w.blocking.now + (k + 1) * 1000000000 →
          line = str! "blocking disabled for groups: '" ++ names ++ str! "', for " ++ Nat.toDigits 10 k ++ str! " seconds") ∧
        (w.blocking.disableEnd < w.blocking.now + 1000000000 →
          line = str! "blocking disabled for groups: " ++ names)) := by
  refine ⟨_, status_run d fs env typeOf c h peer f hr words hw w, ?_, ?_⟩
  · intro he
    simp [statusLine, apiStatus, blockingStatus, he]
  · intro he
    refine ⟨joinSemicolon w.blocking.disabledGroups, joinSemicolon_listed _, ?_, ?_⟩
    · intro k hk h1 h2
      have hs : (blockingStatus w.blocking).autoEnableInSec = k := by
        unfold blockingStatus
        simp only [he, true_and]
        rw [if_pos (by omega)]
        omega
      rw [statusLine_disabled _ he, hs, if_pos (by omega)]
      rfl
    · intro h1
      have hs : (blockingStatus w.blocking).autoEnableInSec = 0 := by
        unfold blockingStatus
        simp only [he, true_and]
        split <;> omega
      rw [statusLine_disabled _ he, hs, if_neg (by omega)]
      rfl

/-- **C93** `blocking disable`, some time, `blocking status`: the status names the groups that were given, and - if the
disabling still has a full second to go - the seconds left of the duration that was given. -/
theorem C93_status_after_disable_partial (d : Decoder C) (fs : Str → Root) (env : ConfigFiles.Env) (typeOf : Str → Nat)
    (c : BCfg) (h : Controls W) (peer : Peer (World W)) (f f' : Flags) (hr : Reaches d fs env f c h peer)
    (hr' : Reaches d fs env f' c h peer) (words words' : List Str) (hw : DisableWords words) (hw' : StatusWords words')
    (hd : IsDuration f.duration) (hg : ∀ g ∈ f.groups, g ≠ [] ∧ ',' ∉ g ∧ KnownGroup c g) (hne : f.groups ≠ [])
    (w : World W) (waited k : Nat) (hk : 0 < k) (h1 : waited + k * 1000000000 ≤ f.duration)
    (h2 : f.duration < waited + (k + 1) * 1000000000) :
    ∃ e w' names, blocky d fs env typeOf peer words f w = some (e, w') ∧ e.exit = 0 ∧ SemicolonList f.groups names ∧
      (blocky d fs env typeOf peer words' f' { w' with blocking := tstep c w'.blocking (.tick waited) }).map (·.1) =
        some ⟨0, [str! "blocking disabled for groups: '" ++ names ++ str! "', for " ++ Nat.toDigits 10 k ++
          str! " seconds"]⟩ := by
  have hacc := (C18_accepted_iff c w.blocking f.duration f.groups).2 (fun g hg' => (hg g hg').2.2)
  have e1 := blocky_run d fs env typeOf c h peer f hr words w .disable [] _ _ (find_disable hw) rfl
  have hroute : route { clientCall (str! "blocking/disable") (str! "GET") with
      duration := some (Duration.cliDisable f.duration f.groups).1,
      groups := some (Duration.cliDisable f.duration f.groups).2 } = some .disable := by
    unfold route; rw [if_pos ⟨rfl, rfl⟩]
  unfold Cli.serve at e1
  rw [hroute] at e1
  simp only [C66_disable_partial f.duration hd f.groups (fun g hg' => ⟨(hg g hg').1, (hg g hg').2.1⟩), hacc, if_true,
    disable_accepted c w.blocking f.duration f.groups hacc] at e1
  rw [if_neg (by simpa using hne)] at e1
  refine ⟨_, _, joinSemicolon f.groups, e1, rfl, joinSemicolon_listed _, ?_⟩
  obtain ⟨line, e3, _, e4⟩ := C93_status d fs env typeOf c h peer f' hr' words' hw'
    { blocking := tstep c { w.blocking with
        disabledGroups := f.groups, enabled := false, disableEnd := w.blocking.now + f.duration,
        timer := if f.duration = 0 then none else some (w.blocking.now + f.duration) } (.tick waited), rest := w.rest }
  obtain ⟨names, e5, e6, _⟩ := e4 rfl
  have huniq : names = joinSemicolon f.groups := by
    have : ∀ (gs : List Str) (t : Str), SemicolonList gs t → t = joinSemicolon gs := by
      intro gs t ht
      induction ht with
      | nil => rfl
      | one g => rfl
      | more g gs t hgs _ ih =>
        cases gs with
        | nil => exact absurd rfl hgs
        | cons a b => rw [ih]; rfl
    exact this _ _ e5
  rw [e3, Option.map_some, e6 k hk (by simp only [tstep]; omega) (by simp only [tstep]; omega), huniq]

/-! ### What is not so -/

/-- A command that asks the API. -/
def AsksApi (a : Action) : Prop := a ∈ [Action.refresh, .query, .enable, .disable, .status, .flush]

/-- **C93** Every command that asks the API takes the address from the configuration, unless it is `blocky refresh`. -/
theorem C93_address (words : List Str) (a : Action) (hook : Bool) (args : List Str)
    (hf : find words = .run a hook args) (ha : AsksApi a) (hn : words.head? ≠ some (str! "refresh")) : hook = true := by
  have run : ∀ (a' : Action) (hook' : Bool) (x : Args) (rest : List Str), runnable a' hook' x rest = .run a hook args →
      a' = a ∧ hook' = hook := by
    intro a' hook' x rest h
    unfold runnable at h
    split at h
    · cases h; exact ⟨rfl, rfl⟩
    · cases h
  cases words with
  | nil => cases hf; rfl
  | cons word words =>
    unfold find at hf
    simp only at hf
    cases ht : tops.find? (fun t => t.names.contains word) with
    | none => rw [ht] at hf; cases hf
    | some top =>
      rw [ht] at hf
      have hm := List.mem_of_find?_eq_some ht
      have hc := List.find?_some ht
      have key : top.hook = true ∨ top.names = [str! "refresh"] ∨ (top.subs = [] ∧
          (top.action = some .version ∨ top.action = some .healthcheck ∨ top.action = some .validate)) := by
        have : ∀ t ∈ tops, t.hook = true ∨ t.names = [str! "refresh"] ∨ (t.subs = [] ∧
          (t.action = some .version ∨ t.action = some .healthcheck ∨ t.action = some .validate)) := by
          intro t ht
          simp only [tops, List.mem_cons, List.not_mem_nil, or_false] at ht
          rcases ht with rfl | rfl | rfl | rfl | rfl | rfl | rfl | rfl | rfl <;> simp
        exact this top hm
      rcases key with key | key | ⟨ks, key⟩
      · rw [← key]
        cases words with
        | nil =>
          simp only at hf
          split at hf
          · exact (run _ _ _ _ hf).2.symm
          · cases hf
        | cons sub rest =>
          simp only at hf
          split at hf
          · exact (run _ _ _ _ hf).2.symm
          · split at hf
            · exact (run _ _ _ _ hf).2.symm
            · cases hf
      · rw [key] at hc
        simp only [List.contains_cons, List.contains_nil, Bool.or_false, beq_iff_eq] at hc
        exact absurd (by rw [hc]; rfl) hn
      · have hact : ∀ a', top.action = some a' → a' ≠ a := by
          rintro a' h1 rfl
          rw [h1] at key
          rcases key with k | k | k <;> · cases k; revert ha; unfold AsksApi; decide
        exfalso
        cases words with
        | nil =>
          simp only at hf
          split at hf
          · rename_i a' h1; exact hact a' h1 (run _ _ _ _ hf).1
          · cases hf
        | cons sub rest =>
          simp only [ks, List.find?_nil] at hf
          split at hf
          · rename_i a' h1; exact hact a' h1 (run _ _ _ _ hf).1
          · cases hf

/-- Commands with a configuration that can be read: its text is the address of the API. -/
def listenDecoder : Decoder Str := ⟨some, [], fun t => if t = [] then [] else [t]⟩

/-- A file system with one configuration. -/
def cliFile (text : Str) : Str → Root := fun path => if path = defaultConfigPath then .file (some text) else .missing

/-- No environment variables. -/
def emptyEnv : ConfigFiles.Env := ⟨none, none⟩

/-- Counts refreshes and flushes; the refresh number 3 fails; queries get a fixed answer. -/
def countingControls : Controls (Nat × Nat) where
  refresh n := (if n.1 = 3 then some (str! "no list") else none, (n.1 + 1, n.2))
  flush n := (n.1, n.2 + 1)
  query _ _ n := (.ok ⟨str! "RESOLVED", str! "A (1.2.3.4)", str! "RESOLVED", str! "NOERROR"⟩, n)

/-- A server with the groups `ads` and `kids`. -/
def cliGroups : BCfg := { denyGroups := [str! "ads", str! "kids"] }

/-- Somebody listens on port 4444 and nowhere else. -/
def onPort4444 : Peer (World (Nat × Nat)) := fun authority call w =>
  if authority = str! "localhost:4444" then
    (some (Cli.serve cliGroups countingControls call w).1, (Cli.serve cliGroups countingControls call w).2)
  else (none, w)

/-- The configuration says `localhost:4444`. -/
theorem reaches4444 (f : Flags) (hf : f.config = defaultConfigPath) :
    Reaches listenDecoder (cliFile (str! "localhost:4444")) emptyEnv f cliGroups countingControls onPort4444 := by
  have e : apiAuthority ⟨str! "localhost", 4444⟩ = str! "localhost:4444" := by decide +kernel
  have e2 : apiAddr f.api [str! "localhost:4444"] = some ⟨str! "localhost", 4444⟩ := by
    have e3 : splitChar ':' (str! "localhost:4444") = [str! "localhost", str! "4444"] := by decide +kernel
    have e4 : UpstreamUrl.convertPort (str! "4444") = some 4444 := by decide +kernel
    simp [apiAddr, e3, e4, joinChar]
  refine ⟨defaultConfigPath, ⟨str! "localhost", 4444⟩, ?_, fun call w => ?_⟩
  · simp only [hf, initConfig, pathUsed, emptyEnv, if_true, cliFile, load, listenDecoder]
    simp only [List.cons_ne_nil, if_false, e2]
  · simp only [e, onPort4444, if_true]

/-- Runs of `blocky` one after the other, with this server. -/
def session (w : World (Nat × Nat)) : List (List Str × Flags) → List (Nat × List Str)
  | [] => []
  | (words, f) :: more =>
    match blocky listenDecoder (cliFile (str! "localhost:4444")) emptyEnv (fun t => if t = str! "A" then 1 else 0)
        onPort4444 words f w with
    | some (e, w') => (e.exit, e.printed) :: session w' more
    | none => session w more

/-- The server at the start. -/
def cliWorld : World (Nat × Nat) := ⟨{ now := 0 }, (0, 0)⟩

example : session cliWorld
    [([str! "blocking", str! "status"], {}),
     ([str! "block", str! "off"], { duration := 90000000000, groups := [str! "ads", str! "kids"] }),
     ([str! "blocking", str! "status"], {}),
     ([str! "blocking", str! "disable"], { groups := [str! "other"] }),
     ([str! "lists", str! "refresh"], {}),
     ([str! "cache", str! "clear"], {}),
     ([str! "query", str! "x.org"], { type := str! "B" })] =
    [(0, [str! "blocking enabled"]), (0, [str! "OK"]),
     (0, [str! "blocking disabled for groups: 'ads; kids', for 90 seconds"]), (1, []),
     (0, [str! "OK"]), (0, [str! "OK"]), (1, [])] := by decide +kernel

-- the hypotheses of the theorems above are met
example : Reaches listenDecoder (cliFile (str! "localhost:4444")) emptyEnv
      { duration := 90500000000, groups := [str! "ads", str! "kids"] } cliGroups countingControls onPort4444 ∧
    DisableWords [str! "block", str! "disable"] ∧ EnableWords [str! "blocking", str! "on"] ∧
    StatusWords [str! "blocking", str! "status"] ∧ IsDuration 90500000000 ∧
    (∀ g ∈ [str! "ads", str! "kids"], g ≠ [] ∧ ',' ∉ g ∧ KnownGroup cliGroups g) ∧
    (1000000000 : Int) + 89 * 1000000000 ≤ 90500000000 ∧ (90500000000 : Int) < 1000000000 + (89 + 1) * 1000000000 :=
  ⟨reaches4444 _ rfl, ⟨_, _, rfl, .inr rfl, .inl rfl⟩, ⟨_, _, rfl, .inl rfl, .inr rfl⟩, ⟨_, rfl, .inl rfl⟩,
    (by unfold IsDuration; omega), (by unfold KnownGroup cliGroups; decide), by omega, by omega⟩

/-- **C93** Whoever is asked: a command that was found and ends with 0 has got a reply with status 200. -/
theorem C93_zero_means_200 (d : Decoder C) (fs : Str → Root) (env : ConfigFiles.Env) (typeOf : Str → Nat) (peer : Peer S)
    (f : Flags) (s s' : S) (words : List Str) (e : End) (a : Action) (hook : Bool) (args : List Str)
    (hf : find words = .run a hook args) (hb : blocky d fs env typeOf peer words f s = some (e, s')) (he : e.exit = 0) :
    ∃ address call r, peer (apiAuthority address) call s = (some r, s') ∧ r.code = 200 := by
  unfold blocky at hb
  rw [hf] at hb
  simp only at hb
  have fin : ∀ (call : Call) (finish : Option Reply → End) (x : Option Reply),
      apiCommand typeOf f args a = some (some (call, finish)) → (finish x).exit = 0 → ∃ r, x = some r ∧ r.code = 200 := by
    intro call finish x hc hx
    have key : finish = printOkOrError ∨ finish = statusEnd ∨ ∃ q t, finish = queryEnd q t := by
      cases a <;> simp only [apiCommand] at hc
      case query =>
        split at hc
        · cases hc
        · cases hc; exact .inr (.inr ⟨_, _, rfl⟩)
      all_goals cases hc
      all_goals first | exact .inl rfl | exact .inr (.inl rfl)
    cases x with
    | none => rcases key with rfl | rfl | ⟨q, t, rfl⟩ <;> cases hx
    | some r =>
      refine ⟨r, rfl, Decidable.byContradiction fun hn => ?_⟩
      rcases key with rfl | rfl | ⟨q, t, rfl⟩
      · rw [printOkOrError, if_neg hn] at hx; cases hx
      · rw [statusEnd, if_neg hn] at hx; cases hx
      · rw [queryEnd, if_neg hn] at hx; cases hx
  split at hb
  · cases hb
  · rename_i request hreq
    split at hb
    · cases hb; cases he
    · rename_i address _
      split at hb
      · cases hb; cases he
      · rename_i call finish
        cases hb
        obtain ⟨r, h1, h2⟩ := fin call finish _ hreq he
        exact ⟨address, call, r, Prod.ext h1 rfl, h2⟩

/-- **C93** `blocky refresh` does not read the configuration: with the API on another port than 4000 it fails, while
`blocky lists refresh` works. -/
theorem C93_refresh_ignores_config :
    session cliWorld [([str! "lists", str! "refresh"], {}), ([str! "refresh"], {})] = [(0, [str! "OK"]), (1, [])] := by
  decide +kernel

/-- **C93** A word below `blocking` that is no command - a typing mistake - is taken for success: the exit code is 0
and nothing is done, for every state and every word. -/
theorem C93_typo_succeeds (d : Decoder C) (fs : Str → Root) (env : ConfigFiles.Env) (typeOf : Str → Nat)
    (peer : Peer S) (f : Flags) (s : S) (word : Str) (rest : List Str)
    (h : word ∉ [str! "enable", str! "on", str! "disable", str! "off", str! "status"]) :
    ∃ e, blocky d fs env typeOf peer (str! "blocking" :: word :: rest) f s = some (e, s) ∧ e.exit = 0 := by
  have hf : find (str! "blocking" :: word :: rest) = .help := by
    simp only [List.mem_cons, List.not_mem_nil, or_false, not_or] at h
    unfold find
    have h1 : tops.find? (fun t => t.names.contains (str! "blocking")) = some ⟨[str! "blocking", str! "block"], true, .any, none,
      [⟨[str! "enable", str! "on"], .none, .enable⟩,
       ⟨[str! "disable", str! "off"], .none, .disable⟩,
       ⟨[str! "status"], .none, .status⟩]⟩ := rfl
    simp only [h1]
    simp [h]
  exact ⟨⟨0, [str! "Usage:"]⟩, by unfold blocky; rw [hf], rfl⟩

example : str! "dissable" ∉ [str! "enable", str! "on", str! "disable", str! "off", str! "status"] := by decide

/-- **C93** A first word that is no command ends with 1 and nothing is asked of anybody. (`help` and `completion` are commands
cobra adds.) So does a surplus word after a command that takes none. -/
theorem C93_unknown_command (d : Decoder C) (fs : Str → Root) (env : ConfigFiles.Env) (typeOf : Str → Nat)
    (peer : Peer S) (f : Flags) (s : S) (rest : List Str) :
    (∀ word, word ∉ [str! "refresh", str! "query", str! "version", str! "serve", str! "blocking", str! "block", str! "lists",
      str! "healthcheck", str! "cache", str! "validate", str! "help", str! "completion"] →
      blocky d fs env typeOf peer (word :: rest) f s = some (⟨1, []⟩, s)) ∧
    (∀ words extra, words ∈ [[str! "version"], [str! "serve"], [str! "blocking", str! "enable"],
      [str! "blocking", str! "disable"], [str! "blocking", str! "status"], [str! "cache", str! "flush"], [str! "validate"]] →
      blocky d fs env typeOf peer (words ++ extra :: rest) f s = some (⟨1, []⟩, s)) := by
  constructor
  · intro word h
    have hf : find (word :: rest) = .wrong := by
      simp only [List.mem_cons, List.not_mem_nil, or_false, not_or] at h
      obtain ⟨h1, h2, h3, h4, h5, h6, h7, h8, h9, h10, _, _⟩ := h
      unfold find
      have : tops.find? (fun t => t.names.contains word) = none := by
        simp [tops, h1, h2, h3, h4, h5, h6, h7, h8, h9, h10]
      simp only [this]
    unfold blocky
    rw [hf]
    rfl
  · intro words extra h
    have hf : find (words ++ extra :: rest) = .wrong := by
      simp only [List.mem_cons, List.not_mem_nil, or_false] at h
      rcases h with h | h | h | h | h | h | h <;> subst h <;> rfl
    unfold blocky
    rw [hf]
    rfl

example : str! "blocing" ∉ [str! "refresh", str! "query", str! "version", str! "serve", str! "blocking", str! "block",
    str! "lists", str! "healthcheck", str! "cache", str! "validate", str! "help", str! "completion"] := by decide

/-- **C93** A temporary disabling in its last second is reported like one without an end. -/
theorem C93_last_second_looks_endless :
    session cliWorld [([str! "blocking", str! "disable"], { duration := 900000000, groups := [str! "ads"] }),
      ([str! "blocking", str! "status"], {})] =
    session cliWorld [([str! "blocking", str! "disable"], { duration := 0, groups := [str! "ads"] }),
      ([str! "blocking", str! "status"], {})] := by
  decide +kernel

/-- **C93** A reply with status 200 that is not JSON, as another HTTP server sends it, crashes `blocking status` and
`query`; the commands without a result take it for success. -/
theorem C93_foreign_server (d : Decoder C) (fs : Str → Root) (env : ConfigFiles.Env) (typeOf : Str → Nat) (f : Flags)
    (path : Str) (a : ApiAddr) (h : initConfig d fs env f.config f.api = some (path, a)) (page : Str) (s : S) :
    let peer : Peer S := fun _ _ s => (some ⟨200, false, .text page⟩, s)
    (∃ e, blocky d fs env typeOf peer [str! "blocking", str! "status"] f s = some (e, s) ∧ e.exit = 2) ∧
    (∃ e, blocky d fs env typeOf peer [str! "cache", str! "flush"] f s = some (e, s) ∧ e.exit = 0) := by
  have f1 : find [str! "blocking", str! "status"] = .run .status true [] := by decide +kernel
  have f2 : find [str! "cache", str! "flush"] = .run .flush true [] := by decide +kernel
  constructor
  · refine ⟨crashed, ?_, rfl⟩
    unfold blocky
    simp only [f1, apiCommand, addressOf, h, if_true, Option.map_some]
    rfl
  · refine ⟨⟨0, [str! "OK"]⟩, ?_, rfl⟩
    unfold blocky
    simp only [f2, apiCommand, addressOf, h, if_true, Option.map_some]
    rfl

/-! ### The health check -/

/-- **C93** A server that listens is healthy, whatever its resolvers do; and nothing is resolved for it. -/
theorem C93_healthy (env : Server.Env) (chain : Cond.MResolver W) (remote : Server.Addr) (sni : Option Str) (id : Nat) (w : W) :
    ∃ r, Listener.receive env chain remote sni (packet (healthQuestion id)) w = ([r], w) ∧
      healthcheck id (some r) = ⟨0, [str! "OK"]⟩ := by
  have hr : Listener.receive env chain remote sni (packet (healthQuestion id)) w =
      (Server.onHealthCheck (healthQuestion id), w) := by rfl
  refine ⟨_, hr, ?_⟩
  exact if_pos rfl

/-- **C93** So is any other server that answers at all, even one that refuses: `OK` means no more than a message with
the id of the question. -/
theorem C93_refusal_healthy (id rcode : Nat) :
    healthcheck id (some { ({} : Dns.Msg).setReply (healthQuestion id) with rcode := rcode }) = ⟨0, [str! "OK"]⟩ ∧
    (healthcheck id none).exit = 1 := by
  refine ⟨?_, rfl⟩
  exact if_pos rfl

end Verif.Props
