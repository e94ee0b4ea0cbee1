/-
C106: every page of the HTTP server is found under its own address, and only there.

`Page` says independently of the router which handler belongs to which method and path.
-/
import Verif.Model.Routes

namespace Verif.Props
open Routes

/-- The methods of HTTP (RFC 9110, 9.3, and PATCH). -/
def Method (m : Str) : Prop :=
  m = str! "CONNECT" ∨ m = str! "DELETE" ∨ m = str! "GET" ∨ m = str! "HEAD" ∨ m = str! "OPTIONS" ∨ m = str! "PATCH" ∨
  m = str! "POST" ∨ m = str! "PUT" ∨ m = str! "TRACE"

/-- What the documentation (docs/interfaces.md, docs/openapi.yaml, docs/configuration.md) puts where, without the metrics. -/
inductive Page : Str → Str → Target → Prop
  | disable : Page (str! "GET") (str! "/api/blocking/disable") (.api .disable)
  | enable : Page (str! "GET") (str! "/api/blocking/enable") (.api .enable)
  | status : Page (str! "GET") (str! "/api/blocking/status") (.api .status)
  | flush : Page (str! "POST") (str! "/api/cache/flush") (.api .flush)
  | refresh : Page (str! "POST") (str! "/api/lists/refresh") (.api .refresh)
  | query : Page (str! "POST") (str! "/api/query") (.api .query)
  | debug {m} : Method m → Page m (str! "/debug") (.debug [])
  | debugBelow {m} (rest) : Method m → Page m (str! "/debug/" ++ rest) (.debug rest)
  | openapi : Page (str! "GET") (str! "/docs/openapi.yaml") .openapi
  | asset {m} (rest) : Method m → Page m (str! "/static/" ++ rest) (.asset rest)
  | index : Page (str! "GET") (str! "/") .index
  | dohGet : Page (str! "GET") (str! "/dns-query") (.dohGet [])
  | dohGetClient (c) : '/' ∉ c → Page (str! "GET") (str! "/dns-query/" ++ c) (.dohGet c)
  | dohPost : Page (str! "POST") (str! "/dns-query") (.dohPost [])
  | dohPostClient (c) : '/' ∉ c → Page (str! "POST") (str! "/dns-query/" ++ c) (.dohPost c)

/-- The metrics are at the path of the configuration, if they are enabled. -/
def MetricsPage (cfg : MetricsCfg) (m path : Str) (t : Target) : Prop :=
  cfg.enable = true ∧ Method m ∧ path = cfg.path ∧ t = .metrics

/-- A path for the metrics that begins with a slash, has no special characters of the router, and is not the path of
another page. -/
def OwnPath (cfg : MetricsCfg) : Prop :=
  cfg.enable = true → cfg.path.head? = some '/' ∧ '*' ∉ cfg.path ∧ ∀ m t, ¬ Page m cfg.path t

theorem method_mem (m : Str) : m ∈ chiMethods ↔ Method m := by
  simp [chiMethods, Method]

/-! ### The search -/

/-- What a pattern matches, and the rest. -/
def Fits (p : Pattern) (path rest : Str) : Prop :=
  match p with
  | .exact q => path = q ∧ rest = []
  | .seg q => path = q ++ rest ∧ rest ≠ [] ∧ '/' ∉ rest
  | .below q => path = q ++ rest

theorem mem_candidates (path : Str) (p : Pattern) (rest : Str) : (p, rest) ∈ candidates path ↔ Fits p path rest := by
  unfold candidates
  simp only [List.mem_flatMap, List.mem_reverse, List.mem_range]
  constructor
  · rintro ⟨k, _, h⟩
    unfold after at h
    simp only [List.mem_append, List.mem_ite_nil_right, List.mem_singleton, Prod.mk.injEq] at h
    rcases h with (⟨_, rfl, rfl⟩ | ⟨⟨h1, h2⟩, rfl, rfl⟩) | ⟨rfl, rfl⟩
    · exact ⟨rfl, rfl⟩
    · exact ⟨(List.take_append_drop k path).symm, h1, h2⟩
    · exact (List.take_append_drop k path).symm
  · intro h
    cases p with
    | exact q =>
      obtain ⟨rfl, rfl⟩ := h
      exact ⟨path.length, by omega, by simp [after]⟩
    | seg q =>
      obtain ⟨rfl, h1, h2⟩ := h
      refine ⟨q.length, by simp; omega, ?_⟩
      simp [after, h1, h2]
    | below q =>
      have h : path = q ++ rest := h
      subst h
      exact ⟨q.length, by simp; omega, by simp [after]⟩

theorem endpoint_some {t : List Row} {p : Pattern} {m : Str} {h : Str → Target} (e : endpoint t p m = some h) :
    ∃ r ∈ t, r.pattern = p ∧ m ∈ r.methods ∧ r.handler = h := by
  unfold endpoint at e
  rw [Option.map_eq_some_iff] at e
  obtain ⟨r, hr, rfl⟩ := e
  have h1 := List.mem_of_find?_eq_some hr
  have h2 := List.find?_some hr
  simp only [Bool.and_eq_true, decide_eq_true_eq] at h2
  exact ⟨r, List.mem_reverse.1 h1, h2.1, h2.2, rfl⟩

theorem endpoint_isSome {t : List Row} {r : Row} {m : Str} (hr : r ∈ t) (hm : m ∈ r.methods) :
    ∃ h, endpoint t r.pattern m = some h := by
  unfold endpoint
  cases e : t.reverse.find? (fun x => decide (x.pattern = r.pattern) && decide (m ∈ x.methods)) with
  | some x => exact ⟨_, rfl⟩
  | none =>
    rw [List.find?_eq_none] at e
    have := e r (List.mem_reverse.2 hr)
    simp [hm] at this

/-- The search without its order: a page that is found comes from a registration that fits. -/
theorem find_page {t : List Row} {m path : Str} {x : Target} (hp : path ≠ []) (h : find t m path = .page x) :
    ∃ r ∈ t, ∃ rest, Fits r.pattern path rest ∧ m ∈ r.methods ∧ x = r.handler rest := by
  unfold find at h
  simp only [if_neg hp] at h
  split at h
  · cases h
  · split at h
    · cases h
    · split at h
      · rename_i y e
        cases h
        obtain ⟨c, hc, e'⟩ := List.exists_of_findSome?_eq_some e
        rw [Option.map_eq_some_iff] at e'
        obtain ⟨hd, e'', rfl⟩ := e'
        obtain ⟨r, hr, h1, h2, rfl⟩ := endpoint_some e''
        obtain ⟨p, rest⟩ := c
        exact ⟨r, hr, rest, by rw [h1]; exact (mem_candidates _ _ _).1 hc, h2, rfl⟩
      · split at h <;> cases h

/-- A registration that fits makes the search succeed. -/
theorem find_some {t : List Row} {m path : Str} {r : Row} {rest : Str} (h0 : path.head? = some '/') (hk : m ∈ chiMethods)
    (hr : r ∈ t) (hf : Fits r.pattern path rest) (hm : m ∈ r.methods) : ∃ x, find t m path = .page x := by
  have hp : path ≠ [] := by rintro rfl; cases h0
  unfold find
  simp only [if_neg hp, if_neg (show ¬ m ∉ chiMethods from fun h => h hk), if_neg (show ¬ path.head? ≠ some '/' from fun h => h h0)]
  obtain ⟨h, e⟩ := endpoint_isSome hr hm
  cases e2 : (candidates path).findSome? (fun c => (endpoint t c.1 m).map (fun h => h c.2)) with
  | some x => exact ⟨x, rfl⟩
  | none =>
    rw [List.findSome?_eq_none_iff] at e2
    have := e2 (r.pattern, rest) ((mem_candidates _ _ _).2 hf)
    simp [e] at this

/-! ### The registrations -/

/-- The registrations without the metrics. -/
def Fixed (r : Row) : Prop := r ∈ apiRows ++ debugRows ++ [docsRow] ++ [staticRow] ++ [rootRow] ++ dohRows

theorem mem_table {cfg : MetricsCfg} {t : List Row} (ht : table cfg = some t) {r : Row} (hr : r ∈ t) :
    Fixed r ∨ (cfg.enable = true ∧ ∃ p, patternOf cfg.path = some p ∧ r = ⟨p, chiMethods, fun _ => .metrics⟩) := by
  unfold table at ht
  cases e : metricsRows cfg with
  | none => rw [e] at ht; cases ht
  | some ms =>
    rw [e] at ht
    cases ht
    simp only [List.mem_append] at hr
    rcases hr with (((((h | h) | h) | h) | h) | h) | h
    · left; simp [Fixed, h]
    · left; simp [Fixed, h]
    · left; simp [Fixed, List.mem_singleton.1 h]
    · left; simp [Fixed, List.mem_singleton.1 h]
    · left; simp [Fixed, List.mem_singleton.1 h]
    · right
      unfold metricsRows at e
      split at e
      · rename_i he
        split at e
        · cases e
        · rename_i p hp
          cases e
          rw [List.mem_singleton] at h
          exact ⟨he, p, hp, h⟩
      · cases e; cases h
    · left; simp [Fixed, h]

theorem table_fixed {cfg : MetricsCfg} {t : List Row} (ht : table cfg = some t) {r : Row} (hr : Fixed r) : r ∈ t := by
  unfold table at ht
  cases e : metricsRows cfg with
  | none => rw [e] at ht; cases ht
  | some ms =>
    rw [e] at ht
    cases ht
    simp only [Fixed, List.mem_append] at hr ⊢
    rcases hr with ((((h | h) | h) | h) | h) | h <;> simp [h]

theorem table_metrics {cfg : MetricsCfg} {t : List Row} (ht : table cfg = some t) (he : cfg.enable = true)
    (h0 : cfg.path.head? = some '/') (h1 : '*' ∉ cfg.path) :
    (⟨.exact cfg.path, chiMethods, fun _ => .metrics⟩ : Row) ∈ t := by
  have e : metricsRows cfg = some [onAll (.exact cfg.path) (fun _ => .metrics)] := by
    simp [metricsRows, he, patternOf, h0, h1]
  unfold table at ht
  rw [e] at ht
  cases ht
  simp [onAll]

/-- What the fixed registrations serve is documented. -/
theorem fixed_page {r : Row} (hr : Fixed r) {m path rest : Str} (hf : Fits r.pattern path rest) (hm : m ∈ r.methods) :
    Page m path (r.handler rest) := by
  simp only [Fixed, apiRows, debugRows, mount, docsRow, staticRow, rootRow, dohRows, onGet, onPost, onAll, List.mem_append,
    List.mem_cons, List.not_mem_nil, or_false] at hr
  rcases hr with (((((h | h | h | h | h | h) | h | h | h) | h) | h) | h) | h | h | h | h | h | h <;> subst h <;>
    simp only [List.mem_cons, List.not_mem_nil, or_false] at hm
  · subst hm; obtain ⟨rfl, rfl⟩ := hf; exact .disable
  · subst hm; obtain ⟨rfl, rfl⟩ := hf; exact .enable
  · subst hm; obtain ⟨rfl, rfl⟩ := hf; exact .status
  · subst hm; obtain ⟨rfl, rfl⟩ := hf; exact .flush
  · subst hm; obtain ⟨rfl, rfl⟩ := hf; exact .refresh
  · subst hm; obtain ⟨rfl, rfl⟩ := hf; exact .query
  · obtain ⟨rfl, rfl⟩ := hf; exact .debug ((method_mem m).1 hm)
  · obtain ⟨rfl, rfl⟩ := hf; exact .debugBelow [] ((method_mem m).1 hm)
  · have hf : path = str! "/debug/" ++ rest := hf
    subst hf; exact .debugBelow rest ((method_mem m).1 hm)
  · subst hm; obtain ⟨rfl, rfl⟩ := hf; exact .openapi
  · have hf : path = str! "/static/" ++ rest := hf
    subst hf; exact .asset rest ((method_mem m).1 hm)
  · subst hm; obtain ⟨rfl, rfl⟩ := hf; exact .index
  · subst hm; obtain ⟨rfl, rfl⟩ := hf; exact .dohGet
  · subst hm; obtain ⟨rfl, rfl⟩ := hf; exact .dohGetClient [] (by simp)
  · subst hm; obtain ⟨rfl, _, h2⟩ := hf; exact .dohGetClient rest h2
  · subst hm; obtain ⟨rfl, rfl⟩ := hf; exact .dohPost
  · subst hm; obtain ⟨rfl, rfl⟩ := hf; exact .dohPostClient [] (by simp)
  · subst hm; obtain ⟨rfl, _, h2⟩ := hf; exact .dohPostClient rest h2

/-- What is documented has a registration. -/
theorem page_fixed {m path : Str} {t : Target} (h : Page m path t) :
    ∃ r, Fixed r ∧ ∃ rest, Fits r.pattern path rest ∧ m ∈ r.methods := by
  have mem : ∀ r, Fixed r ↔ r ∈ apiRows ++ debugRows ++ [docsRow] ++ [staticRow] ++ [rootRow] ++ dohRows := fun _ => Iff.rfl
  cases h with
  | disable => exact ⟨onGet (.exact (str! "/api/blocking/disable")) (fun _ => .api .disable), by simp [mem, apiRows], [], ⟨rfl, rfl⟩, by simp [onGet]⟩
  | enable => exact ⟨onGet (.exact (str! "/api/blocking/enable")) (fun _ => .api .enable), by simp [mem, apiRows], [], ⟨rfl, rfl⟩, by simp [onGet]⟩
  | status => exact ⟨onGet (.exact (str! "/api/blocking/status")) (fun _ => .api .status), by simp [mem, apiRows], [], ⟨rfl, rfl⟩, by simp [onGet]⟩
  | flush => exact ⟨onPost (.exact (str! "/api/cache/flush")) (fun _ => .api .flush), by simp [mem, apiRows], [], ⟨rfl, rfl⟩, by simp [onPost]⟩
  | refresh => exact ⟨onPost (.exact (str! "/api/lists/refresh")) (fun _ => .api .refresh), by simp [mem, apiRows], [], ⟨rfl, rfl⟩, by simp [onPost]⟩
  | query => exact ⟨onPost (.exact (str! "/api/query")) (fun _ => .api .query), by simp [mem, apiRows], [], ⟨rfl, rfl⟩, by simp [onPost]⟩
  | debug hm => exact ⟨onAll (.exact (str! "/debug")) .debug, by simp [mem, debugRows, mount], [], ⟨rfl, rfl⟩, (method_mem m).2 hm⟩
  | debugBelow rest hm => exact ⟨onAll (.below (str! "/debug/")) .debug, by simp [mem, debugRows, mount], rest, rfl, (method_mem m).2 hm⟩
  | openapi => exact ⟨docsRow, by simp [mem], [], ⟨rfl, rfl⟩, by simp [docsRow, onGet]⟩
  | asset rest hm => exact ⟨staticRow, by simp [mem], rest, rfl, (method_mem m).2 hm⟩
  | index => exact ⟨rootRow, by simp [mem], [], ⟨rfl, rfl⟩, by simp [rootRow, onGet]⟩
  | dohGet => exact ⟨onGet (.exact (str! "/dns-query")) .dohGet, by simp [mem, dohRows], [], ⟨rfl, rfl⟩, by simp [onGet]⟩
  | dohGetClient c hc =>
    by_cases h : c = []
    · subst h
      exact ⟨onGet (.exact (str! "/dns-query/")) .dohGet, by simp [mem, dohRows], [], ⟨rfl, rfl⟩, by simp [onGet]⟩
    · exact ⟨onGet (.seg (str! "/dns-query/")) .dohGet, by simp [mem, dohRows], c, ⟨rfl, h, hc⟩, by simp [onGet]⟩
  | dohPost => exact ⟨onPost (.exact (str! "/dns-query")) .dohPost, by simp [mem, dohRows], [], ⟨rfl, rfl⟩, by simp [onPost]⟩
  | dohPostClient c hc =>
    by_cases h : c = []
    · subst h
      exact ⟨onPost (.exact (str! "/dns-query/")) .dohPost, by simp [mem, dohRows], [], ⟨rfl, rfl⟩, by simp [onPost]⟩
    · exact ⟨onPost (.seg (str! "/dns-query/")) .dohPost, by simp [mem, dohRows], c, ⟨rfl, h, hc⟩, by simp [onPost]⟩

theorem page_method {m path : Str} {t : Target} (h : Page m path t) : Method m ∧ path.head? = some '/' := by
  cases h <;> refine ⟨?_, rfl⟩ <;> first | assumption | simp [Method]

/-- Every address has one page at most. -/
theorem page_unique {m path : Str} {t t' : Target} (h : Page m path t) (h' : Page m path t') : t = t' := by
  generalize hp : path = q at h'
  generalize hm : m = n at h'
  cases h <;> cases h' <;> simp_all
theorem own_pattern {cfg : MetricsCfg} (ho : OwnPath cfg) (he : cfg.enable = true) {p : Pattern}
    (hp : patternOf cfg.path = some p) : p = .exact cfg.path := by
  obtain ⟨h0, h1, _⟩ := ho he
  simp only [patternOf, h0, ne_eq, not_true_eq_false, if_false, h1, not_false_eq_true, if_true, Option.some.injEq] at hp
  exact hp.symm

/-! ### The claim -/

/-- Whatever the path of the metrics is: what is found at an address is what belongs there, or it is the metrics, and then
they are enabled. -/
theorem C106_nothing_else {cfg : MetricsCfg} {t : List Row} (ht : table cfg = some t) {m path : Str} (hp : path ≠ [])
    {x : Target} (h : find t m path = .page x) : Page m path x ∨ (cfg.enable = true ∧ Method m ∧ x = .metrics) := by
  obtain ⟨r, hr, rest, hf, hm, rfl⟩ := find_page hp h
  rcases mem_table ht hr with h1 | ⟨he, p, hq, rfl⟩
  · exact .inl (fixed_page h1 hf hm)
  · exact .inr ⟨he, (method_mem m).1 hm, rfl⟩

/-- If the metrics have a path of their own, every page is found at its address, and nothing else is. -/
theorem C106_pages_partial {cfg : MetricsCfg} (ho : OwnPath cfg) {t : List Row} (ht : table cfg = some t) {m path : Str}
    (hp : path ≠ []) (x : Target) : find t m path = .page x ↔ Page m path x ∨ MetricsPage cfg m path x := by
  have only : ∀ y, find t m path = .page y → Page m path y ∨ MetricsPage cfg m path y := by
    intro y h
    obtain ⟨r, hr, rest, hf, hm, rfl⟩ := find_page hp h
    rcases mem_table ht hr with h1 | ⟨he, p, hq, rfl⟩
    · exact .inl (fixed_page h1 hf hm)
    · cases own_pattern ho he hq
      exact .inr ⟨he, (method_mem m).1 hm, hf.1, rfl⟩
  refine ⟨only x, ?_⟩
  rintro (h | ⟨he, hm, rfl, rfl⟩)
  · obtain ⟨r, hr, rest, hf, hm⟩ := page_fixed h
    obtain ⟨h1, h2⟩ := page_method h
    obtain ⟨y, hy⟩ := find_some h2 ((method_mem m).2 h1) (table_fixed ht hr) hf hm
    rcases only y hy with h' | ⟨he, _, rfl, _⟩
    · rw [hy, page_unique h h']
    · exact absurd h ((ho he).2.2 m x)
  · obtain ⟨h0, h1, h2⟩ := ho he
    obtain ⟨y, hy⟩ := find_some (rest := []) h0 ((method_mem m).2 hm) (table_metrics ht he h0 h1) ⟨rfl, rfl⟩ ((method_mem m).2 hm)
    rcases only y hy with h' | ⟨_, _, _, rfl⟩
    · exact absurd h' (h2 m y)
    · exact hy

theorem find_notFound {t : List Row} {m path : Str} (h0 : path.head? = some '/') :
    find t m path = .notFound ↔ m ∈ chiMethods ∧ (∀ x, find t m path ≠ .page x) ∧
      ¬ ∃ r ∈ t, ∃ rest, Fits r.pattern path rest := by
  have hp : path ≠ [] := by rintro rfl; cases h0
  unfold find
  simp only [if_neg hp, if_neg (show ¬ path.head? ≠ some '/' from fun h => h h0)]
  by_cases hm : m ∈ chiMethods
  · simp only [if_neg (show ¬ m ∉ chiMethods from fun h => h hm)]
    cases (candidates path).findSome? (fun c => (endpoint t c.1 m).map (fun h => h c.2)) with
    | some y => simp
    | none =>
      have : ((candidates path).any (fun c => t.any (fun r => decide (r.pattern = c.1)))) = true ↔
          ∃ r ∈ t, ∃ rest, Fits r.pattern path rest := by
        simp only [List.any_eq_true, decide_eq_true_eq]
        constructor
        · rintro ⟨⟨p, rest⟩, hc, r, hr, rfl⟩
          exact ⟨r, hr, rest, (mem_candidates _ _ _).1 hc⟩
        · rintro ⟨r, hr, rest, hf⟩
          exact ⟨(r.pattern, rest), (mem_candidates _ _ _).2 hf, r, hr, rfl⟩
      by_cases ha : ((candidates path).any (fun c => t.any (fun r => decide (r.pattern = c.1)))) = true
      · simp [ha, this.1 ha]
      · have := fun h => ha (this.2 h)
        simp only [Bool.not_eq_true] at ha
        simp [ha, hm]
        intro r hr rest hf
        exact this ⟨r, hr, rest, hf⟩
  · simp [hm]

theorem fixed_methods {r : Row} (hr : Fixed r) : ∃ m, m ∈ r.methods := by
  simp only [Fixed, apiRows, debugRows, mount, docsRow, staticRow, rootRow, dohRows, onGet, onPost, onAll, List.mem_append,
    List.mem_cons, List.not_mem_nil, or_false] at hr
  rcases hr with (((((h | h | h | h | h | h) | h | h | h) | h) | h) | h) | h | h | h | h | h | h <;> subst h <;>
    exact ⟨_, List.mem_cons_self⟩

/-- 404 is the answer to the methods of HTTP at paths without any page; 405 to the others that get no page. -/
theorem C106_no_page_partial {cfg : MetricsCfg} (ho : OwnPath cfg) {t : List Row} (ht : table cfg = some t) {m path : Str}
    (h0 : path.head? = some '/') :
    (find t m path = .notFound ↔ Method m ∧ ∀ m' x, ¬ (Page m' path x ∨ MetricsPage cfg m' path x)) ∧
    (find t m path = .notAllowed ↔ (∀ x, ¬ (Page m path x ∨ MetricsPage cfg m path x)) ∧
      (¬ Method m ∨ ∃ m' x, Page m' path x ∨ MetricsPage cfg m' path x)) := by
  have hp : path ≠ [] := by rintro rfl; cases h0
  have pages := fun x => C106_pages_partial ho ht (m := m) hp x
  have rows : (∃ r ∈ t, ∃ rest, Fits r.pattern path rest) ↔ ∃ m' x, Page m' path x ∨ MetricsPage cfg m' path x := by
    constructor
    · rintro ⟨r, hr, rest, hf⟩
      rcases mem_table ht hr with h1 | ⟨he, p, hq, rfl⟩
      · obtain ⟨m', hm⟩ := fixed_methods h1
        exact ⟨m', _, .inl (fixed_page h1 hf hm)⟩
      · cases own_pattern ho he hq
        exact ⟨str! "GET", .metrics, .inr ⟨he, by simp [Method], hf.1, rfl⟩⟩
    · rintro ⟨m', x, h | ⟨he, _, rfl, rfl⟩⟩
      · obtain ⟨r, hr, rest, hf, _⟩ := page_fixed h
        exact ⟨r, table_fixed ht hr, rest, hf⟩
      · obtain ⟨h0, h1, _⟩ := ho he
        exact ⟨_, table_metrics ht he h0 h1, [], ⟨rfl, rfl⟩⟩
  have nf : find t m path = .notFound ↔ Method m ∧ ∀ m' x, ¬ (Page m' path x ∨ MetricsPage cfg m' path x) := by
    rw [find_notFound h0, method_mem, rows]
    constructor
    · rintro ⟨h1, _, h3⟩
      exact ⟨h1, fun m' x h => h3 ⟨m', x, h⟩⟩
    · rintro ⟨h1, h2⟩
      exact ⟨h1, fun x h => h2 m x ((pages x).1 h), fun ⟨m', x, h⟩ => h2 m' x h⟩
  refine ⟨nf, ?_⟩
  constructor
  · intro h
    refine ⟨fun x hx => ?_, ?_⟩
    · rw [(pages x).2 hx] at h; cases h
    · by_cases hm : Method m
      · right
        apply Classical.byContradiction
        intro hn
        rw [nf.2 ⟨hm, fun m' x hx => hn ⟨m', x, hx⟩⟩] at h
        cases h
      · exact .inl hm
  · rintro ⟨h1, h2⟩
    cases e : find t m path with
    | page x => exact absurd ((pages x).1 e) (h1 x)
    | notFound =>
      obtain ⟨h3, h4⟩ := nf.1 e
      rcases h2 with h2 | ⟨m', x, h2⟩
      · exact absurd h3 h2
      · exact absurd h2 (h4 m' x)
    | notAllowed => rfl

/-- The empty path is the index page. -/
theorem C106_empty (t : List Row) (m : Str) : find t m [] = find t m (str! "/") := rfl

/-- Which paths of the metrics keep the server from starting (those without `{`). -/
theorem C106_start (cfg : MetricsCfg) :
    table cfg = none ↔ cfg.enable = true ∧ (cfg.path.head? ≠ some '/' ∨ '*' ∈ cfg.path.dropLast) := by
  unfold table metricsRows
  by_cases he : cfg.enable = true
  · simp only [he, if_true, true_and]
    unfold patternOf
    by_cases h0 : cfg.path.head? = some '/'
    · simp only [h0, ne_eq, not_true_eq_false, if_false, false_or]
      by_cases h1 : '*' ∈ cfg.path
      · by_cases h2 : '*' ∈ cfg.path.dropLast
        · simp [h1, h2]
        · simp [h1, h2]
      · have h2 : '*' ∉ cfg.path.dropLast := fun h => h1 (List.dropLast_subset _ h)
        simp [h1, h2]
    · simp [h0]
  · simp [he]

/-- With a path of their own the metrics do not keep the server from starting. -/
theorem C106_start_own {cfg : MetricsCfg} (ho : OwnPath cfg) : ∃ t, table cfg = some t := by
  cases e : table cfg with
  | some t => exact ⟨t, rfl⟩
  | none =>
    obtain ⟨he, h | h⟩ := (C106_start cfg).1 e
    · exact absurd (ho he).1 h
    · exact absurd (List.dropLast_subset _ h) (ho he).2.1

/-- Where a link of the index page should lead. -/
def leadsTo (title : Str) : Option Target :=
  if title = str! "Rest API Documentation (OpenAPI)" then some .openapi
  else if title = str! "Interactive Rest API Documentation (RapiDoc)" then some (.asset (str! "rapidoc.html"))
  else if title = str! "Go Profiler" then some (.debug [])
  else if title = str! "Prometheus endpoint" then some .metrics
  else none

/-- Every link of the index page leads to the page of its title. -/
theorem C106_links_partial {cfg : MetricsCfg} (ho : OwnPath cfg) {t : List Row} (ht : table cfg = some t) :
    ∀ l ∈ links cfg, ∃ x, leadsTo l.2 = some x ∧ find t (str! "GET") l.1 = .page x := by
  intro l hl
  simp only [links, List.mem_append, List.mem_cons, List.not_mem_nil, or_false, List.mem_ite_nil_right] at hl
  rcases hl with (rfl | rfl | rfl) | ⟨he, rfl⟩
  · exact ⟨_, rfl, (C106_pages_partial ho ht (by decide) _).2 (.inl .openapi)⟩
  · exact ⟨_, rfl, (C106_pages_partial ho ht (by decide) _).2 (.inl (.asset (str! "rapidoc.html") (by simp [Method])))⟩
  · exact ⟨_, rfl, (C106_pages_partial ho ht (by decide) _).2 (.inl (.debugBelow [] (by simp [Method])))⟩
  · refine ⟨.metrics, rfl, (C106_pages_partial ho ht ?_ _).2 (.inr ⟨he, by simp [Method], rfl, rfl⟩)⟩
    intro h
    have := (ho he).1
    simp only at h
    rw [h] at this; cases this

/-- The asset of the link is among the files that are built in. -/
theorem C106_asset : str! "rapidoc.html" ∈ assetFiles := by decide

/-- The operations of the API are where the model of the commands (C68) has them. -/
theorem C106_api_partial {cfg : MetricsCfg} (ho : OwnPath cfg) {t : List Row} (ht : table cfg = some t) (c : Cli.Call)
    (hp : c.path ≠ []) (r : Cli.Route) : find t c.method c.path = .page (.api r) ↔ Cli.route c = some r := by
  rw [C106_pages_partial ho ht hp]
  have hx : ¬ MetricsPage cfg c.method c.path (.api r) := by rintro ⟨_, _, _, h⟩; cases h
  simp only [hx, or_false]
  constructor
  · intro h
    generalize hm : c.method = m at h
    generalize hq : c.path = q at h
    cases h <;> simp [Cli.route, hm, hq]
  · intro h
    unfold Cli.route at h
    split at h
    · rename_i g; cases h; rw [g.1, g.2]; exact .disable
    split at h
    · rename_i g; cases h; rw [g.1, g.2]; exact .enable
    split at h
    · rename_i g; cases h; rw [g.1, g.2]; exact .status
    split at h
    · rename_i g; cases h; rw [g.1, g.2]; exact .flush
    split at h
    · rename_i g; cases h; rw [g.1, g.2]; exact .refresh
    split at h
    · rename_i g; cases h; rw [g.1, g.2]; exact .query
    cases h

/-- Whatever the metrics are: an operation of the API is started by its own method at its own path only. -/
theorem C106_api_only {cfg : MetricsCfg} {t : List Row} (ht : table cfg = some t) {m path : Str} (hp : path ≠ [])
    {r : Cli.Route} (h : find t m path = .page (.api r)) :
    (m, path, r) ∈ [(str! "GET", str! "/api/blocking/disable", Cli.Route.disable),
      (str! "GET", str! "/api/blocking/enable", .enable), (str! "GET", str! "/api/blocking/status", .status),
      (str! "POST", str! "/api/cache/flush", .flush), (str! "POST", str! "/api/lists/refresh", .refresh),
      (str! "POST", str! "/api/query", .query)] := by
  rcases C106_nothing_else ht hp h with h | ⟨_, _, h⟩
  · cases h <;> simp
  · cases h

/-- Without metrics there is no page with metrics. -/
theorem C106_disabled {cfg : MetricsCfg} (hd : cfg.enable = false) {t : List Row} (ht : table cfg = some t) (m path : Str)
    (hp : path ≠ []) : find t m path ≠ .page .metrics := by
  intro h
  rcases C106_nothing_else ht hp h with h | ⟨h, _⟩
  · cases h
  · rw [hd] at h; cases h

/-! ### Examples -/

/-- The default path (config/metrics.go 8). -/
def usual : MetricsCfg := ⟨true, str! "/metrics"⟩

theorem usual_own : OwnPath usual := by
  intro _
  refine ⟨by decide, by decide, ?_⟩
  intro m t h
  generalize hp : usual.path = p at h
  rw [usual] at hp
  cases h <;> simp_all

/-- What the router finds with these metrics. -/
def found (cfg : MetricsCfg) (m path : Str) : Option Found := (table cfg).map (fun t => find t m path)

example : found usual (str! "GET") (str! "/metrics") = some (.page .metrics) := by decide +kernel
example : found usual (str! "POST") (str! "/dns-query/laptop") = some (.page (.dohPost (str! "laptop"))) := by decide +kernel
example : found usual (str! "GET") (str! "/dns-query/laptop/x") = some .notFound := by decide +kernel
example : found usual (str! "GET") (str! "/static/rapidoc.html") = some (.page (.asset (str! "rapidoc.html"))) := by decide +kernel
example : found usual (str! "DELETE") (str! "/debug/pprof/heap") = some (.page (.debug (str! "pprof/heap"))) := by decide +kernel
example : found usual (str! "HEAD") (str! "/api/blocking/status") = some .notAllowed := by decide +kernel
example : found usual (str! "BREW") (str! "/nowhere") = some .notAllowed := by decide +kernel
example : found usual (str! "GET") (str! "/api/blocking/status/") = some .notFound := by decide +kernel

/-! ### What is wrong -/

/-- The path of the metrics is not checked: `/` hides the index page, -/
theorem C106_false_index :
    found ⟨true, str! "/"⟩ (str! "GET") (str! "/") = some (.page .metrics) ∧
    Page (str! "GET") (str! "/") .index := ⟨by decide +kernel, .index⟩

/-- the path of an operation takes the operation away, for every method, -/
theorem C106_false_api (m : Str) (hm : Method m) :
    found ⟨true, str! "/api/query"⟩ m (str! "/api/query") = some (.page .metrics) ∧
    Page (str! "POST") (str! "/api/query") (.api .query) := by
  refine ⟨?_, .query⟩
  rcases hm with h | h | h | h | h | h | h | h | h <;> subst h <;> decide +kernel

/-- the path of a client takes the DNS server away from that client, -/
theorem C106_false_client :
    found ⟨true, str! "/dns-query/laptop"⟩ (str! "POST") (str! "/dns-query/laptop") = some (.page .metrics) ∧
    Page (str! "POST") (str! "/dns-query/laptop") (.dohPost (str! "laptop")) :=
  ⟨by decide +kernel, .dohPostClient (str! "laptop") (by decide)⟩

/-- and with `/dns-query` the metrics themselves cannot be read, though the index page has a link to them. -/
theorem C106_false_metrics :
    found ⟨true, str! "/dns-query"⟩ (str! "GET") (str! "/dns-query") = some (.page (.dohGet [])) ∧
    (str! "/dns-query", str! "Prometheus endpoint") ∈ links ⟨true, str! "/dns-query"⟩ := by
  constructor <;> decide +kernel

/-- A path without the slash, which the documentation does not ask for, keeps the server from starting. -/
theorem C106_false_start : table ⟨true, str! "metrics"⟩ = none := rfl

/-- With `*` the metrics answer at every address that has no page of its own. -/
theorem C106_false_everywhere :
    found ⟨true, str! "/*"⟩ (str! "GET") (str! "/api/unknown") = some (.page .metrics) ∧
    found ⟨true, str! "/*"⟩ (str! "POST") (str! "/api/query") = some (.page (.api .query)) := by
  constructor <;> decide +kernel

end Verif.Props
