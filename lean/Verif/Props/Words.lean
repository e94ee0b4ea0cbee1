/-
C111: the words of the configuration mean what they say.
-/
import Verif.Model.Words
import Verif.Model.Waiting

namespace Verif.Props
open Dns Words

/-! ### Words and values -/

/-- What is expected of a type with words: `table` has the documented words with their values. Exactly the documented
words are read, letter by letter; a text that is not one of them is refused and changes nothing; a value is printed as
its word; a value without word is not valid, is never read, and is not printed as any of the words; the words are listed
in the documented order. -/
structure Speaks (e : Enum) (table : List (Str × Nat)) : Prop where
  reads : ∀ text x, e.parse text = some x ↔ (text, x) ∈ table
  takes : ∀ old text x, (text, x) ∈ table → e.unmarshal old text = (true, x)
  refuses : ∀ old text, (∀ x, (text, x) ∉ table) → e.unmarshal old text = (false, old)
  prints : ∀ word x, (word, x) ∈ table → e.string x = word ∧ e.isValid x = true
  unknown : ∀ x, (∀ word, (word, x) ∉ table) → e.isValid x = false ∧ ∀ word y, (word, y) ∈ table → e.string x ≠ word
  lists : e.words = table.map Prod.fst

/-- What can be checked by looking at the tables. -/
def agrees (e : Enum) (table : List (Str × Nat)) : Bool :=
  decide (e.byWord = table) && decide (e.map.map (fun p => (slice e.text p.2, p.1)) = table) &&
  decide (table.map Prod.fst).Nodup && decide (table.map Prod.snd).Nodup && decide (e.words = table.map Prod.fst) &&
  table.all (fun p => decide (p.1.getLast? ≠ some ')'))

theorem get_iff_mem {K V : Type} [DecidableEq K] {m : AMap K V} (h : (m.map Prod.fst).Nodup) (k : K) (v : V) :
    AMap.get m k = some v ↔ (k, v) ∈ m :=
  ⟨AMap.get_eq_some_mem, fun hm => AMap.Uniq.get_of_mem (m := m) h hm⟩

theorem speaks_of_agrees {e : Enum} {table : List (Str × Nat)} (h : agrees e table = true) : Speaks e table := by
  simp only [agrees, Bool.and_eq_true, decide_eq_true_eq] at h
  obtain ⟨⟨⟨⟨⟨hw, hm⟩, hn⟩, hv⟩, hl⟩, hc⟩ := h
  have reads : ∀ text x, e.parse text = some x ↔ (text, x) ∈ table := by
    intro text x
    unfold Enum.parse
    rw [hw]
    exact get_iff_mem hn text x
  have keys : (e.map.map Prod.fst).Nodup := by
    have : e.map.map Prod.fst = table.map Prod.snd := by
      rw [← hm, List.map_map]; rfl
    rw [this]; exact hv
  have byValue : ∀ word x, (word, x) ∈ table → ∃ c, AMap.get e.map x = some c ∧ slice e.text c = word := by
    intro word x hx
    rw [← hm] at hx
    obtain ⟨⟨y, c⟩, hp, he⟩ := List.mem_map.mp hx
    simp only [Prod.mk.injEq] at he
    obtain ⟨h1, rfl⟩ := he
    exact ⟨c, (get_iff_mem keys _ c).mpr hp, h1⟩
  refine ⟨reads, ?_, ?_, ?_, ?_, hl⟩
  · intro old text x hx
    unfold Enum.unmarshal
    rw [(reads text x).mpr hx]
  · intro old text hx
    unfold Enum.unmarshal
    cases hp : e.parse text with
    | none => rfl
    | some x => exact absurd ((reads text x).mp hp) (hx x)
  · intro word x hx
    obtain ⟨c, hc, hs⟩ := byValue word x hx
    unfold Enum.string Enum.isValid
    rw [hc]
    exact ⟨hs, rfl⟩
  · intro x hx
    have hno : AMap.get e.map x = none := by
      cases hg : AMap.get e.map x with
      | none => rfl
      | some c =>
        refine absurd ?_ (hx (slice e.text c))
        rw [← hm]
        exact List.mem_map.mpr ⟨(x, c), AMap.get_eq_some_mem hg, rfl⟩
    refine ⟨by unfold Enum.isValid; rw [hno]; rfl, ?_⟩
    intro word y hy he
    have := List.all_eq_true.mp hc _ hy
    simp only [decide_eq_true_eq] at this
    apply this
    rw [← he]
    unfold Enum.string
    rw [hno]
    simp only [List.getLast?_append, List.getLast?_singleton, Option.some_or]

/-- The documented words (docs/configuration.md 19, 69-79, 55, 86, 692-702, 720; docs/blocky-grafana.json for the response
types) with the values their constants have. -/
theorem C111_words :
    Speaks ipVersion [(str! "dual", 0), (str! "v4", 1), (str! "v6", 2)] ∧
    Speaks initStrategy [(str! "blocking", 0), (str! "failOnError", 1), (str! "fast", 2)] ∧
    Speaks netProtocol [(str! "tcp+udp", 0), (str! "tcp-tls", 1), (str! "https", 2)] ∧
    Speaks queryLogType [(str! "console", 0), (str! "none", 1), (str! "mysql", 2), (str! "postgresql", 3),
      (str! "csv", 4), (str! "csv-client", 5), (str! "timescale", 6)] ∧
    Speaks tlsVersion [(str! "1.0", 0x0301), (str! "1.1", 0x0302), (str! "1.2", 0x0303), (str! "1.3", 0x0304)] ∧
    Speaks upstreamStrategy [(str! "parallel_best", 0), (str! "strict", 1), (str! "random", 2)] ∧
    Speaks bytesSourceType [(str! "text", 1), (str! "http", 2), (str! "file", 3)] ∧
    Speaks formatType [(str! "text", 0), (str! "json", 1)] ∧
    Speaks listCacheType [(str! "denylist", 0), (str! "allowlist", 1)] ∧
    Speaks requestProtocol [(str! "TCP", 0), (str! "UDP", 1)] ∧
    Speaks responseType [(str! "RESOLVED", 0), (str! "CACHED", 1), (str! "BLOCKED", 2), (str! "CONDITIONAL", 3),
      (str! "CUSTOMDNS", 4), (str! "HOSTSFILE", 5), (str! "FILTERED", 6), (str! "NOTFQDN", 7), (str! "SPECIAL", 8)] := by
  refine ⟨?_, ?_, ?_, ?_, ?_, ?_, ?_, ?_, ?_, ?_, ?_⟩ <;> exact speaks_of_agrees (by decide +kernel)

/-- A word in other case is refused, and the default stays. -/
example : upstreamStrategy.unmarshal 2 (str! "Strict") = (false, 2) ∧ upstreamStrategy.unmarshal 2 (str! "strict") = (true, 1) :=
  by decide

/-! ### What the words select -/

/-- The strategy of a group of `upstreams.groups`: two upstreams race; one is asked and after a failure another; all are
asked in order. Every accepted word selects one of these. -/
theorem C111_group_strategy (old : Nat) (text : Str) (x : Nat) (h : upstreamStrategy.unmarshal old text = (true, x)) :
    (text = str! "parallel_best" ∧ treeKind x = some (.race 2 false)) ∨
    (text = str! "random" ∧ treeKind x = some (.race 1 true)) ∨
    (text = str! "strict" ∧ treeKind x = some .inOrder) := by
  have hs := C111_words.2.2.2.2.2.1
  have hp : upstreamStrategy.parse text = some x := by
    unfold Enum.unmarshal at h
    cases hp : upstreamStrategy.parse text with
    | none => rw [hp] at h; simp at h
    | some y => rw [hp] at h; simp only [Prod.mk.injEq, true_and] at h; rw [h]
  have hm := (hs.reads text x).mp hp
  simp only [List.mem_cons, Prod.mk.injEq, List.not_mem_nil, or_false] at hm
  rcases hm with ⟨rfl, rfl⟩ | ⟨rfl, rfl⟩ | ⟨rfl, rfl⟩
  · exact .inl ⟨rfl, rfl⟩
  · exact .inr (.inr ⟨rfl, rfl⟩)
  · exact .inr (.inl ⟨rfl, rfl⟩)

example : upstreamStrategy.unmarshal 0 (str! "random") = (true, 2) := by decide

/-- The strategy is followed by the upstreams of `conditional.mapping` and `bootstrapDns` as well, unless it is
`strict`. -/
theorem C111_other_groups_partial (text : Str) (x : Nat) (h : upstreamStrategy.parse text = some x)
    (hs : text ≠ str! "strict") : treeKind x = some (conditionalKind x) ∧ treeKind x = some (bootstrapKind x) := by
  have hm := (C111_words.2.2.2.2.2.1.reads text x).mp h
  simp only [List.mem_cons, Prod.mk.injEq, List.not_mem_nil, or_false] at hm
  rcases hm with ⟨rfl, rfl⟩ | ⟨rfl, rfl⟩ | ⟨rfl, rfl⟩
  · exact ⟨rfl, rfl⟩
  · exact absurd rfl hs
  · exact ⟨rfl, rfl⟩

example : upstreamStrategy.parse (str! "random") = some 2 ∧ str! "random" ≠ str! "strict" := by decide

/-- With `strict` the upstreams of `conditional.mapping` are not asked in order: two of them race. -/
theorem C111_conditional_strict_false :
    ¬ ∀ text x, upstreamStrategy.parse text = some x → treeKind x = some (conditionalKind x) :=
  fun h => absurd (h (str! "strict") 1 (by decide)) (by decide)

/-- `connectIPVersion`: the network that the system's resolver is asked with and the types that the bootstrap asks for.
No accepted word leads to the panics of `Net` and `QTypes`. -/
theorem C111_ip_version (text : Str) (x : Nat) (h : ipVersion.parse text = some x) :
    (text = str! "dual" ∧ net x = some (str! "ip") ∧ ipTypes x = some [typeA, typeAAAA]) ∨
    (text = str! "v4" ∧ net x = some (str! "ip4") ∧ ipTypes x = some [typeA]) ∨
    (text = str! "v6" ∧ net x = some (str! "ip6") ∧ ipTypes x = some [typeAAAA]) := by
  have hm := (C111_words.1.reads text x).mp h
  simp only [List.mem_cons, Prod.mk.injEq, List.not_mem_nil, or_false] at hm
  rcases hm with ⟨rfl, rfl⟩ | ⟨rfl, rfl⟩ | ⟨rfl, rfl⟩
  · exact .inl ⟨rfl, rfl, rfl⟩
  · exact .inr (.inl ⟨rfl, rfl, rfl⟩)
  · exact .inr (.inr ⟨rfl, rfl, rfl⟩)

example : ipVersion.parse (str! "v6") = some 2 := by decide

/-- `minTlsServeVersion`: the least version the listeners accept is the one of the word if that is 1.2 or 1.3; no
accepted word leads to a version before 1.2. -/
theorem C111_tls_version_partial (text : Str) (x : Nat) (h : tlsVersion.parse text = some x) :
    0x0303 ≤ Transport.serveVersion x ∧
    (text = str! "1.2" → Transport.serveVersion x = 0x0303) ∧ (text = str! "1.3" → Transport.serveVersion x = 0x0304) := by
  have hm := (C111_words.2.2.2.2.1.reads text x).mp h
  simp only [List.mem_cons, Prod.mk.injEq, List.not_mem_nil, or_false] at hm
  rcases hm with ⟨rfl, rfl⟩ | ⟨rfl, rfl⟩ | ⟨rfl, rfl⟩ | ⟨rfl, rfl⟩ <;> decide

example : tlsVersion.parse (str! "1.3") = some 772 := by decide

/-- `minTlsServeVersion: 1.1`, the example of the documentation, is accepted but not followed. -/
theorem C111_tls_version_false : ∃ x, tlsVersion.unmarshal 0x0303 (str! "1.1") = (true, x) ∧ x = 0x0302 ∧
    Transport.serveVersion x = 0x0303 := ⟨770, by decide, by decide, by decide⟩

/-- `queryLog.type`: each accepted word selects the writer with its name. -/
theorem C111_query_log_type (text : Str) (x : Nat) (h : queryLogType.parse text = some x) :
    (text, logType x) ∈ [(str! "console", some LogSetup.LogType.console), (str! "none", some .none),
      (str! "mysql", some .mysql), (str! "postgresql", some .postgresql), (str! "csv", some .csv),
      (str! "csv-client", some .csvClient), (str! "timescale", some .timescale)] := by
  have hm := (C111_words.2.2.2.1.reads text x).mp h
  simp only [List.mem_cons, Prod.mk.injEq, List.not_mem_nil, or_false] at hm
  rcases hm with ⟨rfl, rfl⟩ | ⟨rfl, rfl⟩ | ⟨rfl, rfl⟩ | ⟨rfl, rfl⟩ | ⟨rfl, rfl⟩ | ⟨rfl, rfl⟩ | ⟨rfl, rfl⟩ <;> decide

example : queryLogType.parse (str! "csv-client") = some 5 := by decide

/-- The loading strategies: with `fast` nothing is done before the start, and no error is returned; with `blocking` the
work is done before but its error is only logged; with `failOnError` it is returned. -/
theorem C111_loading_strategy {W : Type} (text : Str) (x : Nat) (h : initStrategy.parse text = some x)
    (init : W → Loading.TaskResult × W) (w : W) (e : Str) (hi : (init w).1 = .err e) :
    (text = str! "fast" ∧ ((initKind x).run init w).returned = none ∧ ((initKind x).run init w).world = w ∧
      ((initKind x).run init w).background.isSome = true) ∨
    (text = str! "blocking" ∧ ((initKind x).run init w).returned = none ∧ ((initKind x).run init w).world = (init w).2 ∧
      ((initKind x).run init w).logged = [e]) ∨
    (text = str! "failOnError" ∧ ((initKind x).run init w).returned = some e) := by
  have hm := (C111_words.2.1.reads text x).mp h
  simp only [List.mem_cons, Prod.mk.injEq, List.not_mem_nil, or_false] at hm
  rcases hm with ⟨rfl, rfl⟩ | ⟨rfl, rfl⟩ | ⟨rfl, rfl⟩
  · refine .inr (.inl ⟨rfl, rfl, rfl, ?_⟩)
    show (Loading.recoverToError Loading.initPanic (init w).1).toList = [e]
    rw [hi]; rfl
  · refine .inr (.inr ⟨rfl, ?_⟩)
    show Loading.recoverToError Loading.initPanic (init w).1 = some e
    rw [hi]; rfl
  · exact .inl ⟨rfl, rfl, rfl, rfl⟩

example : initStrategy.parse (str! "fast") = some 2 ∧
    ((fun w : Nat => (Loading.TaskResult.err (str! "x"), w + 1)) 0).1 = .err (str! "x") := by decide

/-! ### Lists of words -/

theorem mapM_some_mem {α β : Type} {f : α → Option β} : ∀ {l : List α} {r : List β}, l.mapM f = some r →
    ∀ b, b ∈ r ↔ ∃ a ∈ l, f a = some b
  | [], r, h, b => by
    simp only [List.mapM_nil, Option.pure_def, Option.some.injEq] at h
    subst h; simp
  | a :: l, r, h, b => by
    rw [List.mapM_cons] at h
    cases hf : f a with
    | none => rw [hf] at h; simp at h
    | some c =>
      cases hl : l.mapM f with
      | none => rw [hf, hl] at h; simp at h
      | some s =>
        rw [hf, hl] at h
        simp only [Option.bind_eq_bind, Option.bind_some, Option.pure_def, Option.some.injEq] at h
        subst h
        simp only [List.mem_cons, mapM_some_mem hl b, exists_eq_or_imp, hf, Option.some.injEq]
        constructor
        · rintro (rfl | h)
          · exact .inl rfl
          · exact .inr h
        · rintro (h | h)
          · exact .inl h.symm
          · exact .inr h

theorem mapM_none_iff {α β : Type} {f : α → Option β} : ∀ {l : List α}, l.mapM f = none ↔ ∃ a ∈ l, f a = none
  | [] => by simp
  | a :: l => by
    rw [List.mapM_cons]
    cases hf : f a with
    | none => simp [hf]
    | some c =>
      cases hl : l.mapM f with
      | none => simp [hf, mapM_none_iff.mp hl]
      | some s =>
        have : ¬ ∃ a ∈ l, f a = none := fun h => by rw [mapM_none_iff.mpr h] at hl; simp at hl
        simp only [Option.bind_eq_bind, Option.bind_some, Option.pure_def, List.mem_cons, exists_eq_or_imp, hf]
        simp only [reduceCtorEq, false_or, false_iff]
        exact this

theorem foldl_insert_mem (t : Nat) : ∀ (ts s : List Nat),
    t ∈ ts.foldl (fun s t => if s.contains t then s else s ++ [t]) s ↔ t ∈ s ∨ t ∈ ts
  | [], s => by simp
  | u :: ts, s => by
    rw [List.foldl_cons, foldl_insert_mem t ts]
    by_cases h : s.contains u = true
    · rw [if_pos h]
      have hu : u ∈ s := by simpa using h
      simp only [List.mem_cons]
      constructor
      · rintro (h | h)
        · exact .inl h
        · exact .inr (.inr h)
      · rintro (h | rfl | h)
        · exact .inl h
        · exact .inl hu
        · exact .inr h
    · rw [if_neg h]
      simp only [List.mem_append, List.mem_cons, List.not_mem_nil, or_false]
      constructor
      · rintro ((h | h) | h)
        · exact .inl h
        · exact .inr (.inl h)
        · exact .inr (.inr h)
      · rintro (h | h | h)
        · exact .inl (.inl h)
        · exact .inl (.inr h)
        · exact .inr h

/-- `filtering.queryTypes`: the list is refused exactly if a text is no name of a type; otherwise a query gets the empty
answer of the filter exactly if a text names the type of its question, and others are passed on as they are. -/
theorem C111_query_types {W : Type} (types : AMap Str Nat) (texts : List Str) :
    (qtypeSet types texts = none ↔ ∃ text ∈ texts, text ∉ types.map Prod.fst) ∧
    ∀ s, qtypeSet types texts = some s → ∀ (next : Resolver W) (request : Request) (q : Question) (qs : List Question) (w : W),
      request.req.question = q :: qs →
      ((∃ text ∈ texts, AMap.get types text = some q.qtype) →
        ∃ r, Small.filtering s next request w = (.ok r, w) ∧ r.rtype = .filtered ∧ r.res.answer = [] ∧
          r.res.rcode = 0 ∧ r.res.id = request.req.id) ∧
      ((¬ ∃ text ∈ texts, AMap.get types text = some q.qtype) → Small.filtering s next request w = next request w) := by
  constructor
  · have : qtypeSet types texts = none ↔ texts.mapM (qtype types) = none := by
      unfold qtypeSet
      cases texts.mapM (qtype types) <;> simp
    rw [this, mapM_none_iff]
    constructor
    · rintro ⟨a, ha, h⟩
      exact ⟨a, ha, AMap.get_eq_none_iff.mp h⟩
    · rintro ⟨a, ha, h⟩
      exact ⟨a, ha, AMap.get_eq_none_iff.mpr h⟩
  · intro s hs next request q qs w hq
    have hc : s.contains q.qtype = true ↔ ∃ text ∈ texts, AMap.get types text = some q.qtype := by
      unfold qtypeSet at hs
      cases hm : texts.mapM (qtype types) with
      | none => rw [hm] at hs; simp at hs
      | some ts =>
        rw [hm] at hs
        simp only [Option.some.injEq] at hs
        subst hs
        rw [List.contains_iff_mem, foldl_insert_mem, mapM_some_mem hm]
        simp only [List.not_mem_nil, false_or]
        rfl
    unfold Small.filtering
    rw [hq]
    constructor
    · intro h
      simp only [if_pos (hc.mpr h)]
      exact ⟨_, rfl, rfl, rfl, rfl, rfl⟩
    · intro h
      simp only
      rw [if_neg (fun h' => h (hc.mp h'))]

/-- Two types filtered, one of them named twice. -/
example : qtypeSet [(str! "A", 1), (str! "AAAA", 28), (str! "HTTPS", 65)] [str! "AAAA", str! "HTTPS", str! "AAAA"] =
    some [28, 65] ∧ qtypeSet [(str! "A", 1), (str! "AAAA", 28)] [str! "aaaa"] = none := by decide

/-- `queryLog.fields`: without list all fields are logged; with a list exactly the fields it names; a list with an unknown
word is refused. -/
theorem C111_fields (texts : List Str) :
    (∃ all, fields none = some all ∧ ∀ f, f ∈ all) ∧
    (fields (some texts) = none ↔ ∃ text ∈ texts, text ∉ [str! "clientIP", str! "clientName", str! "responseReason",
      str! "responseAnswer", str! "question", str! "duration"]) ∧
    ∀ fs, fields (some texts) = some fs →
      (QueryLog.Field.clientIP ∈ fs ↔ str! "clientIP" ∈ texts) ∧ (QueryLog.Field.clientName ∈ fs ↔ str! "clientName" ∈ texts) ∧
      (QueryLog.Field.responseReason ∈ fs ↔ str! "responseReason" ∈ texts) ∧
      (QueryLog.Field.responseAnswer ∈ fs ↔ str! "responseAnswer" ∈ texts) ∧
      (QueryLog.Field.question ∈ fs ↔ str! "question" ∈ texts) ∧ (QueryLog.Field.duration ∈ fs ↔ str! "duration" ∈ texts) := by
  refine ⟨⟨allFields, rfl, fun f => by cases f <;> decide⟩, ?_, ?_⟩
  · show texts.mapM (AMap.get fieldWords) = none ↔ _
    rw [mapM_none_iff]
    constructor
    · rintro ⟨a, ha, h⟩
      exact ⟨a, ha, AMap.get_eq_none_iff.mp h⟩
    · rintro ⟨a, ha, h⟩
      exact ⟨a, ha, AMap.get_eq_none_iff.mpr h⟩
  · intro fs h
    have hm := mapM_some_mem (show texts.mapM (AMap.get fieldWords) = some fs from h)
    have key : ∀ word f, (word, f) ∈ fieldWords → (∀ w', (w', f) ∈ fieldWords → w' = word) → (f ∈ fs ↔ word ∈ texts) := by
      intro word f hw hu
      rw [hm]
      constructor
      · rintro ⟨a, ha, he⟩
        rw [← hu a (AMap.get_eq_some_mem he)]
        exact ha
      · intro hw'
        exact ⟨word, hw', AMap.Uniq.get_of_mem (m := fieldWords) (by unfold AMap.Uniq; decide) hw⟩
    have uniq : ∀ f word, (word, f) ∈ fieldWords → ∀ w', (w', f) ∈ fieldWords → w' = word := by
      intro f word h1 w' h2
      simp only [fieldWords, List.mem_cons, Prod.mk.injEq, List.not_mem_nil, or_false] at h1 h2
      rcases h1 with ⟨rfl, rfl⟩ | ⟨rfl, rfl⟩ | ⟨rfl, rfl⟩ | ⟨rfl, rfl⟩ | ⟨rfl, rfl⟩ | ⟨rfl, rfl⟩ <;>
        simpa using h2
    refine ⟨key _ _ ?_ (uniq _ _ ?_), key _ _ ?_ (uniq _ _ ?_), key _ _ ?_ (uniq _ _ ?_), key _ _ ?_ (uniq _ _ ?_),
      key _ _ ?_ (uniq _ _ ?_), key _ _ ?_ (uniq _ _ ?_)⟩ <;> decide

example : fields (some [str! "question", str! "duration"]) = some [.question, .duration] ∧
    fields (some [str! "clientip"]) = none := by decide

/-! ### The log -/

/-- `log.format: text`: times are written if and only if `log.timestamp` says so, whatever was configured before. With
`json` the output is JSON. -/
theorem C111_log_partial (text : Str) (x : Nat) (h : formatType.parse text = some x) (timestamp : Bool) (old : LogFormat) :
    ((configureLogger x timestamp old).json = true ↔ text = str! "json") ∧
    (text = str! "text" → (configureLogger x timestamp old).times = timestamp) ∧
    (timestamp = true → (configureLogger x timestamp old).times = true) := by
  have hm := (C111_words.2.2.2.2.2.2.2.1.reads text x).mp h
  simp only [List.mem_cons, Prod.mk.injEq, List.not_mem_nil, or_false] at hm
  rcases hm with ⟨rfl, rfl⟩ | ⟨rfl, rfl⟩ <;> cases timestamp <;> simp [configureLogger]

example : formatType.parse (str! "text") = some 0 := by decide

/-- With `log.format: json` and `log.timestamp: false` times are written nevertheless. -/
theorem C111_json_timestamp_false : ∃ x, formatType.parse (str! "json") = some x ∧
    ∀ old, (configureLogger x false old).times = true := ⟨1, by decide, fun _ => rfl⟩

end Verif.Props
