/-
C93: the API by itself, and the commands that need no configuration.
-/
import Verif.Props.Cli

namespace Verif.Props
open Cli ConfigFiles Blocking

variable {W : Type}

/-- The operations of the API (docs/api/openapi.yaml). -/
def operations : List (Str × Str) :=
  [(str! "GET", str! "/api/blocking/disable"), (str! "GET", str! "/api/blocking/enable"),
   (str! "GET", str! "/api/blocking/status"), (str! "POST", str! "/api/cache/flush"),
   (str! "POST", str! "/api/lists/refresh"), (str! "POST", str! "/api/query")]

/-- **C93** A request that is no operation of the API changes nothing and fails. -/
theorem C93_no_operation (c : BCfg) (h : Controls W) (call : Call) (hc : (call.method, call.path) ∉ operations) (w : World W) :
    (Cli.serve c h call w).2 = w ∧ (Cli.serve c h call w).1.code = 404 := by
  have : route call = none := by
    unfold operations at hc
    simp only [List.mem_cons, List.not_mem_nil, or_false, not_or, Prod.mk.injEq] at hc
    obtain ⟨h1, h2, h3, h4, h5, h6⟩ := hc
    unfold route
    simp only [if_neg h1, if_neg h2, if_neg h3, if_neg h4, if_neg h5, if_neg h6]
  unfold Cli.serve
  rw [this]
  exact ⟨rfl, rfl⟩

/-- **C93** Asking for the status changes nothing, whatever the parameters, and always succeeds. -/
theorem C93_status_reads (c : BCfg) (h : Controls W) (call : Call) (hm : call.method = str! "GET")
    (hp : call.path = str! "/api/blocking/status") (w : World W) :
    (Cli.serve c h call w).2 = w ∧ (Cli.serve c h call w).1.code = 200 := by
  have : route call = some .status := by unfold route; rw [hm, hp]; decide +kernel
  unfold Cli.serve
  rw [this]
  exact ⟨rfl, rfl⟩

/-- **C93** A query has the effect of the query and nothing else; its status is 200 for a result, 400 if the type does
not exist or the body cannot be read, and 500 if it fails. -/
theorem C93_query_codes (c : BCfg) (h : Controls W) (call : Call) (hm : call.method = str! "POST")
    (hp : call.path = str! "/api/query") (w : World W) :
    (Cli.serve c h call w).2.blocking = w.blocking ∧
    (call.body = none → (Cli.serve c h call w).2 = w ∧ (Cli.serve c h call w).1.code = 400) ∧
    ∀ q t, call.body = some (q, t) →
      (Cli.serve c h call w).2.rest = (h.query q t w.rest).2 ∧
      (∀ x, (h.query q t w.rest).1 = .ok x → (Cli.serve c h call w).1 = ⟨200, true, .result x⟩) ∧
      (∀ x, (h.query q t w.rest).1 = .badRequest x → (Cli.serve c h call w).1 = ⟨400, false, .text x⟩) ∧
      (∀ x, (h.query q t w.rest).1 = .serverError x → (Cli.serve c h call w).1 = ⟨500, false, .text x⟩) := by
  have hr : route call = some .query := by unfold route; rw [hm, hp]; decide +kernel
  unfold Cli.serve
  rw [hr]
  simp only
  refine ⟨?_, ?_, ?_⟩
  · split <;> rfl
  · intro hb; rw [hb]; exact ⟨rfl, rfl⟩
  · intro q t hb
    rw [hb]
    simp only
    refine ⟨trivial, ?_, ?_, ?_⟩ <;> (intro x hx; simp only [hx, plain])

/-- **C93** Disabling with a duration that is none changes nothing and gets status 400. -/
theorem C93_bad_duration (c : BCfg) (h : Controls W) (call : Call) (hm : call.method = str! "GET")
    (hp : call.path = str! "/api/blocking/disable") (hd : Duration.apiDisable call.duration call.groups = .badRequest)
    (w : World W) : (Cli.serve c h call w).2 = w ∧ (Cli.serve c h call w).1.code = 400 := by
  have : route call = some .disable := by unfold route; rw [hm, hp]; decide +kernel
  unfold Cli.serve
  rw [this]
  simp only [hd, plain, and_self]

example : Duration.apiDisable (some (str! "soon")) none = .badRequest := by decide +kernel
example : (str! "DELETE", str! "/api/blocking/disable") ∉ operations ∧ (str! "GET", str! "/api/query") ∉ operations := by
  decide +kernel

/-- **C93** `version`, `healthcheck` and `validate` (which reads the configuration itself) and the hidden short form
`refresh` run without a configuration; all others need one that can be read. -/
theorem C93_needs_config (words : List Str) (a : Action) (hook : Bool) (args : List Str) (h : find words = .run a hook args) :
    hook = false ↔ words.head? ∈ [some (str! "version"), some (str! "healthcheck"), some (str! "validate"),
      some (str! "refresh")] := by
  cases words with
  | nil =>
    unfold find at h
    cases h
    decide
  | cons word words =>
    unfold find at h
    simp only at h
    cases ht : tops.find? (fun t => t.names.contains word) with
    | none => rw [ht] at h; cases h
    | some top =>
      rw [ht] at h
      have hhook : hook = top.hook := by
        have run' : ∀ a' hk ar r, runnable a' hk ar r = .run a hook args → hook = hk := by
          intro a' hk ar r hr
          unfold runnable at hr
          split at hr
          · cases hr; rfl
          · cases hr
        simp only at h
        split at h
        · split at h
          · exact run' _ _ _ _ h
          · cases h
        · split at h
          · exact run' _ _ _ _ h
          · split at h
            · exact run' _ _ _ _ h
            · cases h
      have hmem := List.mem_of_find?_eq_some ht
      have hnames : word ∈ top.names := by simpa using List.find?_some ht
      rw [hhook]
      unfold tops at hmem
      simp only [List.mem_cons, List.not_mem_nil, or_false] at hmem
      simp only [List.head?_cons]
      rcases hmem with rfl | rfl | rfl | rfl | rfl | rfl | rfl | rfl | rfl <;>
        simp only [List.mem_cons, List.not_mem_nil, or_false] at hnames <;>
        first
        | (subst hnames; decide)
        | (rcases hnames with rfl | rfl <;> decide)

example : find [str! "version"] = .run .version false [] ∧ find [str! "blocking", str! "on"] = .run .enable true [] := by
  decide +kernel

/-- **C93** The health check asks for the address of a name of its own, and takes only the reply to its own question. -/
theorem C93_health_question (id : Nat) :
    (healthQuestion id).question = [⟨str! "healthcheck.blocky.", 1, 1⟩] ∧ (healthQuestion id).id = id ∧
    ∀ r : Dns.Msg, r.id ≠ id → healthcheck id (some r) = ⟨1, [str! "NOT OK"]⟩ := by
  refine ⟨rfl, rfl, fun r hr => ?_⟩
  unfold healthcheck
  simp only [if_neg hr]

/-- **C93** The result of a query is printed below a line that names question and type. -/
theorem C93_query_title (query type : Str) (x : ApiResult) :
    (queryEnd query type (some ⟨200, true, .result x⟩)).printed.head? =
      some (str! "Query result for '" ++ query ++ str! "' (" ++ type ++ str! "):") ∧
    ∀ t, queryEnd query type (some ⟨200, false, .text t⟩) =
      ⟨2, [str! "Query result for '" ++ query ++ str! "' (" ++ type ++ str! "):"]⟩ :=
  ⟨rfl, fun _ => rfl⟩

end Verif.Props
