/-
C48: deprecated options and their replacements.
-/
import Verif.Model.Migrate

namespace Verif.Props
open Migrate

theorem step_other (d c : Cfg) (o : Old) (v : Option Val) (n : New) (h : n ≠ dest o) : step d c o v n = c n := by
  unfold step
  split
  · rfl
  · split
    · simp only [if_neg h]
    · rfl

theorem step_set (d c : Cfg) (o : Old) (v : Option Val) (n : New) (h : c n ≠ d n) : step d c o v n = c n := by
  by_cases hn : n = dest o
  · unfold step
    split
    · rfl
    · rw [if_neg (by rw [← hn]; exact h)]
  · exact step_other d c o v n hn

theorem step_hit (d c : Cfg) (o : Old) (v : Val) (h : c (dest o) = d (dest o)) :
    step d c o (some v) (dest o) = apply o v (c (dest o)) := by
  unfold step
  simp only
  rw [if_pos h, if_pos rfl]

theorem foldl_other (d : Cfg) (old : Old → Option Val) (n : New) (os : List Old) (c : Cfg)
    (h : ∀ o ∈ os, n = dest o → old o = none) : os.foldl (fun c o => step d c o (old o)) c n = c n := by
  induction os generalizing c with
  | nil => rfl
  | cons o os ih =>
    rw [List.foldl_cons, ih _ (fun o' ho' => h o' (List.mem_cons_of_mem _ ho'))]
    by_cases hn : n = dest o
    · rw [h o (List.mem_cons_self ..) hn]; rfl
    · exact step_other d c o _ n hn

theorem foldl_set (d : Cfg) (old : Old → Option Val) (n : New) (os : List Old) (c : Cfg) (h : c n ≠ d n) :
    os.foldl (fun c o => step d c o (old o)) c n = c n := by
  induction os generalizing c with
  | nil => rfl
  | cons o os ih =>
    rw [List.foldl_cons, ih _ (by rw [step_set d c o _ n h]; exact h), step_set d c o _ n h]

/-- C48: a new option whose value differs from its default is never changed, whatever deprecated options
the file contains. -/
theorem C48_new_option_wins_partial (d : Cfg) (old : Old → Option Val) (written : New → Option Val) (n : New) (v : Val)
    (hw : written n = some v) (hv : v ≠ d n) : migrate d old (load d written) n = v := by
  have h : load d written n = v := by simp [load, hw]
  unfold migrate
  rw [foldl_set d old n order _ (by rw [h]; exact hv), h]

/-- C48: an option none of whose deprecated forms is in the file keeps its value. -/
theorem C48_untouched (d : Cfg) (old : Old → Option Val) (cfg : Cfg) (n : New) (h : ∀ o, dest o = n → old o = none) :
    migrate d old cfg n = cfg n :=
  foldl_other d old n order cfg (fun o _ hn => h o hn.symm)

theorem order_mem (o : Old) : o ∈ order := by cases o <;> decide

theorem order_nodup : order.Nodup := by decide

/-- C48: a deprecated option in the file, the only one for its replacement, is used when the replacement has
its default value. -/
theorem C48_deprecated_used (d : Cfg) (old : Old → Option Val) (cfg : Cfg) (o : Old) (v : Val) (ho : old o = some v)
    (honly : ∀ o', dest o' = dest o → o' ≠ o → old o' = none) (hd : cfg (dest o) = d (dest o)) :
    migrate d old cfg (dest o) = apply o v (d (dest o)) := by
  obtain ⟨l, r, hlr⟩ := List.append_of_mem (order_mem o)
  have hnd := order_nodup
  rw [hlr] at hnd
  have hl : ∀ o' ∈ l, dest o = dest o' → old o' = none := by
    intro o' hm he
    refine honly o' he.symm ?_
    rintro rfl
    exact (List.nodup_append.1 hnd).2.2 _ hm _ (List.mem_cons_self ..) rfl
  have hr : ∀ o' ∈ r, dest o = dest o' → old o' = none := by
    intro o' hm he
    refine honly o' he.symm ?_
    rintro rfl
    exact (List.nodup_cons.1 (List.nodup_append.1 hnd).2.1).1 hm
  unfold migrate
  rw [hlr, List.foldl_append, List.foldl_cons, foldl_other d old _ r _ hr]
  have hc := foldl_other d old (dest o) l cfg hl
  generalize List.foldl (fun c o => step d c o (old o)) cfg l = c at hc ⊢
  unfold step
  rw [ho]
  simp only
  rw [if_pos (by rw [hc]; exact hd)]
  simp only [if_true]
  rw [hc, hd]

/-- The deprecated options whose value is simply taken over. -/
def moved (o : Old) : Prop := o ≠ .disableIPv6 ∧ o ≠ .startVerifyUpstream ∧ o ≠ .failStartOnListError ∧ o ≠ .filePath

theorem apply_moved (o : Old) (h : moved o) (v c : Val) : apply o v c = v := by
  obtain ⟨h1, h2, h3, h4⟩ := h
  cases o <;> first | rfl | contradiction

/-- C48: taken over unchanged, for the options without a conversion. -/
theorem C48_moved (d : Cfg) (old : Old → Option Val) (cfg : Cfg) (o : Old) (v : Val) (hm : moved o) (ho : old o = some v)
    (honly : ∀ o', dest o' = dest o → o' ≠ o → old o' = none) (hd : cfg (dest o) = d (dest o)) :
    migrate d old cfg (dest o) = v := by
  rw [C48_deprecated_used d old cfg o v ho honly hd, apply_moved o hm]

/-- C48: the options with a conversion. Filtering AAAA is added to the filtered types (all of which stay), upstreams are checked
strictly or not at all, and a hosts file is added to the sources. -/
theorem C48_converted (d : Cfg) (old : Old → Option Val) (cfg : Cfg) :
    (∀ l, d .filteringQueryTypes = .data l → cfg .filteringQueryTypes = d .filteringQueryTypes →
      (old .disableIPv6 = some (.bool true) → ∃ l', migrate d old cfg .filteringQueryTypes = .data l' ∧ ∀ t, t ∈ l' ↔ t ∈ l ∨ t = str! "AAAA") ∧
      (old .disableIPv6 = some (.bool false) → migrate d old cfg .filteringQueryTypes = .data l)) ∧
    (cfg .upstreamsInitStrategy = d .upstreamsInitStrategy → ∀ b, old .startVerifyUpstream = some (.bool b) →
      migrate d old cfg .upstreamsInitStrategy = .strategy (match b with | true => .failOnError | false => .fast)) ∧
    (∀ l f, d .hostsSources = .data l → cfg .hostsSources = d .hostsSources → old .filePath = some (.data f) →
      migrate d old cfg .hostsSources = .data (l ++ f)) := by
  have one : ∀ (o o' : Old), o = .disableIPv6 ∨ o = .startVerifyUpstream ∨ o = .filePath → dest o' = dest o → o' = o := by
    intro o o' h
    rcases h with rfl | rfl | rfl <;> cases o' <;> decide
  refine ⟨?_, ?_, ?_⟩
  · intro l hl hc
    refine ⟨?_, ?_⟩
    · intro ho
      have := C48_deprecated_used d old cfg .disableIPv6 _ ho (fun o' h1 h2 => absurd (one _ o' (Or.inl rfl) h1) h2) hc
      refine ⟨_, this.trans (by show apply .disableIPv6 (.bool true) (d .filteringQueryTypes) = _; rw [hl]; rfl), ?_⟩
      intro t
      split
      · rename_i h
        constructor
        · exact Or.inl
        · rintro (ht | rfl)
          · exact ht
          · exact h
      · rw [List.mem_append, List.mem_singleton]
    · intro ho
      have := C48_deprecated_used d old cfg .disableIPv6 _ ho (fun o' h1 h2 => absurd (one _ o' (Or.inl rfl) h1) h2) hc
      exact this.trans (by show apply .disableIPv6 (.bool false) (d .filteringQueryTypes) = _; rw [hl]; rfl)
  · intro hc b ho
    have := C48_deprecated_used d old cfg .startVerifyUpstream _ ho (fun o' h1 h2 => absurd (one _ o' (Or.inr (Or.inl rfl)) h1) h2) hc
    exact this.trans (by cases b <;> rfl)
  · intro l f hl hc ho
    have := C48_deprecated_used d old cfg .filePath _ ho (fun o' h1 h2 => absurd (one _ o' (Or.inr (Or.inr rfl)) h1) h2) hc
    exact this.trans (by show apply .filePath (.data f) (d .hostsSources) = _; rw [hl]; rfl)

/-- C48: an option that is in the file in neither form has its default value. -/
theorem C48_default (d : Cfg) (old : Old → Option Val) (written : New → Option Val) (n : New) (hw : written n = none)
    (h : ∀ o, dest o = n → old o = none) : migrate d old (load d written) n = d n := by
  rw [C48_untouched d old _ n h]
  simp [load, hw]

/-- C48: only one replacement has two deprecated forms. -/
theorem C48_one_each (o o' : Old) (h : dest o = dest o') :
    o = o' ∨ ((o = .failStartOnListError ∨ o = .startStrategy) ∧ (o' = .failStartOnListError ∨ o' = .startStrategy)) := by
  revert h
  cases o <;> cases o' <;> decide

/-- C48: the option with two deprecated forms. `failStartOnListError: true` wins over `startStrategy`;
`failStartOnListError: false` has no effect. -/
theorem C48_loading_strategy (d : Cfg) (old : Old → Option Val) (cfg : Cfg) (hd : d .loadingStrategy = .strategy .blocking)
    (hc : cfg .loadingStrategy = d .loadingStrategy) (b : Option Bool) (s : Option Strategy)
    (hb : old .failStartOnListError = b.map .bool) (hs : old .startStrategy = s.map .strategy) :
    migrate d old cfg .loadingStrategy = .strategy (if b = some true then .failOnError else s.getD .blocking) := by
  have hsplit : order = ([.upstream, .upstreamTimeout, .disableIPv6, .logLevel, .logFormat, .logPrivacy, .logTimestamp,
      .port, .httpPort, .httpsPort, .tlsPort, .startVerifyUpstream, .dohUserAgent,
      .blackLists, .whiteLists, .downloadTimeout, .downloadAttempts, .downloadCooldown, .refreshPeriod] : List Old) ++
      .failStartOnListError :: .processingConcurrency :: .startStrategy ::
      [.maxErrorsPerFile, .hostsRefreshPeriod, .filePath] := rfl
  unfold migrate
  rw [hsplit, List.foldl_append, List.foldl_cons, List.foldl_cons, List.foldl_cons, foldl_other d old _ _ _ (fun o ho hn => absurd hn (by revert o; decide))]
  have h1 := foldl_other d old .loadingStrategy [.upstream, .upstreamTimeout, .disableIPv6, .logLevel, .logFormat, .logPrivacy, .logTimestamp,
      .port, .httpPort, .httpsPort, .tlsPort, .startVerifyUpstream, .dohUserAgent,
      .blackLists, .whiteLists, .downloadTimeout, .downloadAttempts, .downloadCooldown, .refreshPeriod] cfg (fun o ho hn => absurd hn (by revert o; decide))
  generalize List.foldl (fun c o => step d c o (old o)) cfg _ = c at h1 ⊢
  rw [hc, hd] at h1
  have h2 : step d c .failStartOnListError (old .failStartOnListError) .loadingStrategy =
      .strategy (if b = some true then .failOnError else .blocking) := by
    rw [hb]
    cases b with
    | none => exact h1
    | some b =>
      have := step_hit d c .failStartOnListError (.bool b) (h1.trans hd.symm)
      refine this.trans ?_
      rw [show c (dest .failStartOnListError) = _ from h1]
      cases b <;> rfl
  generalize step d c .failStartOnListError (old .failStartOnListError) = c2 at h2 ⊢
  have h3 : step d c2 .processingConcurrency (old .processingConcurrency) .loadingStrategy = c2 .loadingStrategy :=
    step_other d c2 _ _ _ (by decide)
  rw [h2] at h3
  generalize step d c2 .processingConcurrency (old .processingConcurrency) = c3 at h3 ⊢
  rw [hs]
  by_cases hb1 : b = some true
  · rw [if_pos hb1] at h3 ⊢
    rw [step_set d c3 _ _ _ (by rw [h3, hd]; decide), h3]
  · rw [if_neg hb1] at h3 ⊢
    cases s with
    | none => exact h3
    | some s =>
      exact step_hit d c3 .startStrategy (.strategy s) (h3.trans hd.symm)

/-- Defaults for the examples: config.go 267 (`ports.dns`), 327 (`strategy`). -/
def sampleDefaults : Cfg
  | .portsDns => .data [str! ":53"]
  | .loadingStrategy => .strategy .blocking
  | .upstreamsInitStrategy => .strategy .blocking
  | .upstreamsTimeout => .num 2000000000
  | .logPrivacy => .bool false
  | .logTimestamp => .bool true
  | .downloadsTimeout => .num 5000000000
  | .downloadsAttempts => .num 3
  | .downloadsCooldown => .num 500000000
  | .blockingRefreshPeriod => .num 14400000000000
  | .hostsRefreshPeriod => .num 14400000000000
  | .loadingConcurrency => .num 4
  | .maxErrorsPerSource => .num 5
  | _ => .data []

/-- C48 is false for new options explicitly set to their default value: with `ports: {dns: 53}` and the
deprecated `port: 5353` in the file, the server listens on 5353. -/
theorem C48_explicit_default_overridden :
    ∃ (old : Old → Option Val) (written : New → Option Val),
      written .portsDns = some (.data [str! ":53"]) ∧
      migrate sampleDefaults old (load sampleDefaults written) .portsDns = .data [str! ":5353"] :=
  ⟨fun | .port => some (.data [str! ":5353"]) | _ => none, fun | .portsDns => some (.data [str! ":53"]) | _ => none,
    rfl, by decide⟩

example : migrate sampleDefaults (fun | .port => some (.data [str! ":5353"]) | _ => none)
    (load sampleDefaults (fun | .portsDns => some (.data [str! ":54"]) | _ => none)) .portsDns = .data [str! ":54"] :=
  C48_new_option_wins_partial _ _ _ _ _ rfl (by decide)

example : migrate sampleDefaults (fun | .failStartOnListError => some (.bool true) | .startStrategy => some (.strategy .fast) | _ => none)
    sampleDefaults .loadingStrategy = .strategy .failOnError :=
  C48_loading_strategy sampleDefaults _ sampleDefaults rfl rfl (some true) (some .fast) rfl rfl

example : migrate sampleDefaults (fun | .disableIPv6 => some (.bool true) | _ => none) sampleDefaults .filteringQueryTypes =
    .data [str! "AAAA"] := by
  refine (C48_deprecated_used sampleDefaults _ sampleDefaults .disableIPv6 (.bool true) rfl ?_ rfl).trans (by decide)
  intro o' h1 h2
  cases o' <;> first | rfl | (exact absurd rfl h2) | (revert h1; decide)

end Verif.Props
