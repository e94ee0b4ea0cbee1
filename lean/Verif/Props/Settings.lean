import Verif.Model.Settings
import Verif.Model.Loading

/-!
# C113: settings that are left out have their documented defaults

What a file says about a setting is looked up here by walking down its mappings, without any reader. The table of the settings is that of
docs/configuration.md (default) with, in the last column, the value of nothing at all.
-/

namespace Verif.Props
open Verif Verif.Settings

/-! ## What a file says -/

/-- The file says `w` under the keys `p`. -/
inductive Says : Yaml → Path → Yaml → Prop
  | here (y : Yaml) : Says y [] y
  | under {es : Entries} {k : Str} {y : Yaml} {p : Path} {w : Yaml} : (k, y) ∈ es.toList → Says y p w → Says (.map es) (k :: p) w

/-- A setting, or a section it is in, is written down with nothing behind the colon. -/
def Emptied (doc : Yaml) (p : Path) : Prop := ∃ q, q <+: p ∧ Says doc q .null

/-- A setting is written down with something behind the colon. -/
def Written (doc : Yaml) (p : Path) (w : Yaml) : Prop := Says doc p w ∧ w ≠ .null

/-- A setting is left out. -/
def LeftOut (doc : Yaml) (p : Path) : Prop := ¬ Emptied doc p ∧ ∀ w, ¬ Written doc p w

/-- The fields of the query log. -/
def allFields : Yaml :=
  .seq (.cons [] (.scalar (str! "clientIP")) (.cons [] (.scalar (str! "clientName")) (.cons [] (.scalar (str! "responseReason"))
    (.cons [] (.scalar (str! "responseAnswer")) (.cons [] (.scalar (str! "question")) (.cons [] (.scalar (str! "duration")) .nil))))))

/-- The settings: keys, default (docs/configuration.md; for `hostsFile.loading.refreshPeriod` see below), value of nothing. -/
def documented : List (Path × Yaml × Yaml) :=
  [([str! "upstreams", str! "init", str! "strategy"], .scalar (str! "blocking"), .scalar (str! "blocking")),
   ([str! "upstreams", str! "timeout"], .scalar (str! "2s"), .scalar (str! "0")),
   ([str! "upstreams", str! "groups"], .map .nil, .map .nil),
   ([str! "upstreams", str! "strategy"], .scalar (str! "parallel_best"), .scalar (str! "parallel_best")),
   ([str! "upstreams", str! "userAgent"], .scalar [], .scalar []),
   ([str! "customDNS", str! "rewrite"], .map .nil, .map .nil),
   ([str! "customDNS", str! "fallbackUpstream"], .scalar (str! "false"), .scalar (str! "false")),
   ([str! "customDNS", str! "customTTL"], .scalar (str! "1h"), .scalar (str! "0")),
   ([str! "customDNS", str! "mapping"], .map .nil, .map .nil),
   ([str! "customDNS", str! "zone"], .scalar [], .scalar []),
   ([str! "customDNS", str! "filterUnmappedTypes"], .scalar (str! "true"), .scalar (str! "false")),
   ([str! "conditional", str! "rewrite"], .map .nil, .map .nil),
   ([str! "conditional", str! "fallbackUpstream"], .scalar (str! "false"), .scalar (str! "false")),
   ([str! "conditional", str! "mapping"], .map .nil, .map .nil),
   ([str! "blocking", str! "denylists"], .map .nil, .map .nil),
   ([str! "blocking", str! "allowlists"], .map .nil, .map .nil),
   ([str! "blocking", str! "clientGroupsBlock"], .map .nil, .map .nil),
   ([str! "blocking", str! "blockType"], .scalar (str! "ZEROIP"), .scalar []),
   ([str! "blocking", str! "blockTTL"], .scalar (str! "6h"), .scalar (str! "0")),
   ([str! "blocking", str! "loading", str! "strategy"], .scalar (str! "blocking"), .scalar (str! "blocking")),
   ([str! "blocking", str! "loading", str! "concurrency"], .scalar (str! "4"), .scalar (str! "0")),
   ([str! "blocking", str! "loading", str! "maxErrorsPerSource"], .scalar (str! "5"), .scalar (str! "0")),
   ([str! "blocking", str! "loading", str! "refreshPeriod"], .scalar (str! "4h"), .scalar (str! "0")),
   ([str! "blocking", str! "loading", str! "downloads", str! "timeout"], .scalar (str! "5s"), .scalar (str! "0")),
   ([str! "blocking", str! "loading", str! "downloads", str! "readTimeout"], .scalar (str! "20s"), .scalar (str! "0")),
   ([str! "blocking", str! "loading", str! "downloads", str! "readHeaderTimeout"], .scalar (str! "20s"), .scalar (str! "0")),
   ([str! "blocking", str! "loading", str! "downloads", str! "writeTimeout"], .scalar (str! "20s"), .scalar (str! "0")),
   ([str! "blocking", str! "loading", str! "downloads", str! "attempts"], .scalar (str! "3"), .scalar (str! "0")),
   ([str! "blocking", str! "loading", str! "downloads", str! "cooldown"], .scalar (str! "500ms"), .scalar (str! "0")),
   ([str! "clientLookup", str! "clients"], .map .nil, .map .nil),
   ([str! "clientLookup", str! "upstream"], .scalar [], .scalar []),
   ([str! "clientLookup", str! "singleNameOrder"], .seq .nil, .seq .nil),
   ([str! "caching", str! "minTime"], .scalar (str! "0"), .scalar (str! "0")),
   ([str! "caching", str! "maxTime"], .scalar (str! "0"), .scalar (str! "0")),
   ([str! "caching", str! "cacheTimeNegative"], .scalar (str! "30m"), .scalar (str! "0")),
   ([str! "caching", str! "maxItemsCount"], .scalar (str! "0"), .scalar (str! "0")),
   ([str! "caching", str! "prefetching"], .scalar (str! "false"), .scalar (str! "false")),
   ([str! "caching", str! "prefetchExpires"], .scalar (str! "2h"), .scalar (str! "0")),
   ([str! "caching", str! "prefetchThreshold"], .scalar (str! "5"), .scalar (str! "0")),
   ([str! "caching", str! "prefetchMaxItemsCount"], .scalar (str! "0"), .scalar (str! "0")),
   ([str! "queryLog", str! "target"], .scalar [], .scalar []),
   ([str! "queryLog", str! "type"], .scalar (str! "console"), .scalar (str! "console")),
   ([str! "queryLog", str! "logRetentionDays"], .scalar (str! "0"), .scalar (str! "0")),
   ([str! "queryLog", str! "creationAttempts"], .scalar (str! "3"), .scalar (str! "0")),
   ([str! "queryLog", str! "creationCooldown"], .scalar (str! "2s"), .scalar (str! "0")),
   ([str! "queryLog", str! "fields"], allFields, .seq .nil),
   ([str! "queryLog", str! "flushInterval"], .scalar (str! "30s"), .scalar (str! "0")),
   ([str! "queryLog", str! "ignore", str! "sudn"], .scalar (str! "false"), .scalar (str! "false")),
   ([str! "prometheus", str! "enable"], .scalar (str! "false"), .scalar (str! "false")),
   ([str! "prometheus", str! "path"], .scalar (str! "/metrics"), .scalar []),
   ([str! "redis", str! "address"], .scalar [], .scalar []),
   ([str! "redis", str! "username"], .scalar [], .scalar []),
   ([str! "redis", str! "password"], .scalar [], .scalar []),
   ([str! "redis", str! "database"], .scalar (str! "0"), .scalar (str! "0")),
   ([str! "redis", str! "required"], .scalar (str! "false"), .scalar (str! "false")),
   ([str! "redis", str! "connectionAttempts"], .scalar (str! "3"), .scalar (str! "0")),
   ([str! "redis", str! "connectionCooldown"], .scalar (str! "1s"), .scalar (str! "0")),
   ([str! "redis", str! "sentinelUsername"], .scalar [], .scalar []),
   ([str! "redis", str! "sentinelPassword"], .scalar [], .scalar []),
   ([str! "redis", str! "sentinelAddresses"], .seq .nil, .seq .nil),
   ([str! "log", str! "level"], .scalar (str! "info"), .scalar (str! "panic")),
   ([str! "log", str! "format"], .scalar (str! "text"), .scalar (str! "text")),
   ([str! "log", str! "privacy"], .scalar (str! "false"), .scalar (str! "false")),
   ([str! "log", str! "timestamp"], .scalar (str! "true"), .scalar (str! "false")),
   ([str! "connectIPVersion"], .scalar (str! "dual"), .scalar (str! "dual")),
   ([str! "ports", str! "dns"], .seq (.cons [] (.scalar (str! ":53")) .nil), .seq .nil),
   ([str! "ports", str! "http"], .seq .nil, .seq .nil),
   ([str! "ports", str! "https"], .seq .nil, .seq .nil),
   ([str! "ports", str! "tls"], .seq .nil, .seq .nil),
   ([str! "minTlsServeVersion"], .scalar (str! "1.2"), .scalar (str! "TLSVersion(0)")),
   ([str! "certFile"], .scalar [], .scalar []),
   ([str! "keyFile"], .scalar [], .scalar []),
   ([str! "bootstrapDns"], .seq .nil, .seq .nil),
   ([str! "hostsFile", str! "sources"], .seq .nil, .seq .nil),
   ([str! "hostsFile", str! "hostsTTL"], .scalar (str! "1h"), .scalar (str! "0")),
   ([str! "hostsFile", str! "filterLoopback"], .scalar (str! "false"), .scalar (str! "false")),
   ([str! "fqdnOnly", str! "enable"], .scalar (str! "false"), .scalar (str! "false")),
   ([str! "filtering", str! "queryTypes"], .seq .nil, .seq .nil),
   ([str! "ede", str! "enable"], .scalar (str! "false"), .scalar (str! "false")),
   ([str! "ecs", str! "useAsClient"], .scalar (str! "false"), .scalar (str! "false")),
   ([str! "ecs", str! "forward"], .scalar (str! "false"), .scalar (str! "false")),
   ([str! "ecs", str! "ipv4Mask"], .scalar (str! "0"), .scalar (str! "0")),
   ([str! "ecs", str! "ipv6Mask"], .scalar (str! "0"), .scalar (str! "0")),
   ([str! "specialUseDomains", str! "rfc6762-appendixG"], .scalar (str! "true"), .scalar (str! "false")),
   ([str! "specialUseDomains", str! "enable"], .scalar (str! "true"), .scalar (str! "false")),
   ([str! "hostsFile", str! "loading", str! "strategy"], .scalar (str! "blocking"), .scalar (str! "blocking")),
   ([str! "hostsFile", str! "loading", str! "concurrency"], .scalar (str! "4"), .scalar (str! "0")),
   ([str! "hostsFile", str! "loading", str! "maxErrorsPerSource"], .scalar (str! "5"), .scalar (str! "0")),
   ([str! "hostsFile", str! "loading", str! "refreshPeriod"], .scalar (str! "4h"), .scalar (str! "0")),
   ([str! "hostsFile", str! "loading", str! "downloads", str! "timeout"], .scalar (str! "5s"), .scalar (str! "0")),
   ([str! "hostsFile", str! "loading", str! "downloads", str! "readTimeout"], .scalar (str! "20s"), .scalar (str! "0")),
   ([str! "hostsFile", str! "loading", str! "downloads", str! "readHeaderTimeout"], .scalar (str! "20s"), .scalar (str! "0")),
   ([str! "hostsFile", str! "loading", str! "downloads", str! "writeTimeout"], .scalar (str! "20s"), .scalar (str! "0")),
   ([str! "hostsFile", str! "loading", str! "downloads", str! "attempts"], .scalar (str! "3"), .scalar (str! "0")),
   ([str! "hostsFile", str! "loading", str! "downloads", str! "cooldown"], .scalar (str! "500ms"), .scalar (str! "0"))]

/-- A section: keys that lead to settings further down. -/
def Section (q : Path) : Prop := ∃ row ∈ documented, q <+: row.1 ∧ q ≠ row.1

/-- A setting of the table. -/
def Documented (q : Path) : Prop := ∃ row ∈ documented, q = row.1

/-- What is wrong with the node `y` under the keys `q`. -/
def Wrong (accepts : Path → Yaml → Bool) (q : Path) (y : Yaml) : Prop :=
  (Documented q ∧ y ≠ .null ∧ accepts q y = false) ∨
  (Section q ∧
    ((∃ t, y = .scalar t) ∨ (∃ items, y = .seq items) ∨
     ∃ es, y = .map es ∧ (¬ (es.toList.map Prod.fst).Nodup ∨ ∃ k ∈ es.toList.map Prod.fst, ¬ Section (q ++ [k]) ∧ ¬ Documented (q ++ [k]))))

/-- Something is wrong with the file. -/
def Faulty (accepts : Path → Yaml → Bool) (doc : Yaml) : Prop := ∃ q y, Says doc q y ∧ Wrong accepts q y

/-! ## The schema -/

theorem schema_same : settings.map (fun s => (s.path, s.tag.getD (zero s.kind), zero s.kind)) = documented := by decide +kernel

theorem schema_free : ∀ s ∈ settings, ∀ t ∈ settings, s.path.isPrefixOf t.path = true → s.path = t.path := by decide +kernel

theorem field_path {p : Path} {s : Setting} (h : field p = some s) : s ∈ settings ∧ s.path = p := by
  unfold field at h
  exact ⟨List.mem_of_find?_eq_some h, by simpa using List.find?_some h⟩

theorem field_none {p : Path} (h : field p = none) : ∀ s ∈ settings, s.path ≠ p := by
  unfold field at h
  intro s hs
  simpa using List.find?_eq_none.1 h s hs

theorem field_below {q : Path} {s : Setting} (h : field q = some s) {r : Path} {t : Setting} (h' : field (q ++ r) = some t) : r = [] := by
  obtain ⟨hs, rfl⟩ := field_path h
  obtain ⟨ht, he⟩ := field_path h'
  have := schema_free s hs t ht (by rw [he]; simp)
  rw [he] at this
  simpa using this

theorem row_field {p : Path} {d z : Yaml} (h : (p, d, z) ∈ documented) :
    ∃ s, field p = some s ∧ defaults p = d ∧ zero s.kind = z := by
  have key : ∀ row ∈ documented, (match field row.1 with | some s => decide (defaults row.1 = row.2.1 ∧ zero s.kind = row.2.2) | none => false) = true := by
    decide +kernel
  have := key _ h
  simp only at this
  cases hf : field p with
  | none => rw [hf] at this; simp at this
  | some s =>
    rw [hf] at this
    simp only [decide_eq_true_eq] at this
    exact ⟨s, rfl, this⟩

theorem documented_field {q : Path} : Documented q ↔ (field q).isSome = true := by
  constructor
  · rintro ⟨⟨p, d, z⟩, h, rfl⟩
    obtain ⟨s, hs, -⟩ := row_field h
    simp [hs]
  · intro h
    obtain ⟨s, hs⟩ := Option.isSome_iff_exists.1 h
    obtain ⟨hm, hp⟩ := field_path hs
    refine ⟨(s.path, s.tag.getD (zero s.kind), zero s.kind), ?_, hp.symm⟩
    rw [← schema_same]
    exact List.mem_map_of_mem hm

theorem known_iff {q : Path} : known q = true ↔ Section q ∨ Documented q := by
  unfold known
  rw [List.any_eq_true]
  constructor
  · rintro ⟨s, hs, hp⟩
    have hm : (s.path, s.tag.getD (zero s.kind), zero s.kind) ∈ documented := by
      rw [← schema_same]; exact List.mem_map_of_mem hs
    by_cases he : q = s.path
    · exact .inr ⟨_, hm, he⟩
    · exact .inl ⟨_, hm, List.isPrefixOf_iff_prefix.1 hp, he⟩
  · rintro (⟨row, hr, hp, -⟩ | ⟨row, hr, rfl⟩) <;> rw [← schema_same] at hr <;> obtain ⟨s, hs, rfl⟩ := List.mem_map.1 hr
    · exact ⟨s, hs, List.isPrefixOf_iff_prefix.2 hp⟩
    · exact ⟨s, hs, by simp⟩

theorem section_field {q : Path} (h : Section q) : field q = none := by
  obtain ⟨row, hr, hp, hne⟩ := h
  rw [← schema_same] at hr
  obtain ⟨t, ht, rfl⟩ := List.mem_map.1 hr
  cases hf : field q with
  | none => rfl
  | some s =>
    obtain ⟨hs, rfl⟩ := field_path hf
    exact absurd (schema_free s hs t ht (List.isPrefixOf_iff_prefix.2 hp)) hne

/-! ## The node that counts -/

mutual
/-- The first node on the way. -/
def look : Yaml → Path → Option Yaml
  | .null, _ => some .null
  | .scalar t, [] => some (.scalar t)
  | .scalar _, _ :: _ => none
  | .seq items, [] => some (.seq items)
  | .seq _, _ :: _ => none
  | .map es, [] => some (.map es)
  | .map es, k :: r => lookIn es k r
/-- The same in a mapping. -/
def lookIn : Entries → Str → Path → Option Yaml
  | .nil, _, _ => none
  | .cons k' y rest, k, r => if k' = k then look y r else lookIn rest k r
end

/-- What the node found does to a value. -/
def effect (s : Setting) (old : Yaml) : Option Yaml → Yaml
  | none => old
  | some .null => zero s.kind
  | some y => y

theorem decodeField_some {accepts : Path → Yaml → Bool} {path : Path} {y : Yaml} {v v' : Values}
    (h : decodeField accepts path y v = some v') : ∃ s, field path = some s ∧ accepts path y = true ∧ v' = put v path y := by
  unfold decodeField at h
  cases hf : field path with
  | none => rw [hf] at h; cases h
  | some s =>
    rw [hf] at h
    simp only at h
    split at h
    · rename_i ha; exact ⟨s, rfl, ha, (Option.some.inj h).symm⟩
    · cases h

theorem put_other {v : Values} {path p : Path} {y : Yaml} (h : ¬ path <+: p) : put v path y p = v p := by
  unfold put
  rw [if_neg]
  rintro rfl
  exact h (List.prefix_refl _)

mutual
theorem decode_frame {accepts : Path → Yaml → Bool} : ∀ (y : Yaml) (path : Path) (v v' : Values),
    decode accepts path y v = some v' → ∀ p, ¬ path <+: p → v' p = v p
  | .null, path, v, v', h, p, hp => by
    rw [decode] at h
    cases h
    unfold clear
    rw [if_neg (fun h => hp (List.isPrefixOf_iff_prefix.1 h))]
  | .scalar t, path, v, v', h, p, hp => by
    rw [decode] at h
    obtain ⟨s, -, -, rfl⟩ := decodeField_some h
    exact put_other hp
  | .seq items, path, v, v', h, p, hp => by
    rw [decode] at h
    obtain ⟨s, -, -, rfl⟩ := decodeField_some h
    exact put_other hp
  | .map es, path, v, v', h, p, hp => by
    rw [decode] at h
    split at h
    · obtain ⟨s, -, -, rfl⟩ := decodeField_some h
      exact put_other hp
    · exact section_frame es path [] v v' h p (.inl hp)
theorem section_frame {accepts : Path → Yaml → Bool} : ∀ (es : Entries) (path : Path) (seen : List Str) (v v' : Values),
    decodeSection accepts path es seen v = some v' → ∀ p, (¬ path <+: p ∨ ∃ k ∈ seen, path ++ [k] <+: p) → v' p = v p
  | .nil, path, seen, v, v', h, p, hp => by
    rw [decodeSection] at h
    cases h; rfl
  | .cons k y rest, path, seen, v, v', h, p, hp => by
    rw [decodeSection] at h
    split at h
    · cases h
    · rename_i hk
      simp only [Bool.or_eq_true, not_or, Bool.not_eq_true] at hk
      cases hd : decode accepts (path ++ [k]) y v with
      | none => rw [hd] at h; cases h
      | some v1 =>
        rw [hd] at h
        simp only at h
        rw [section_frame rest path (k :: seen) v1 v' h p (hp.imp id (fun ⟨j, hj, hpj⟩ => ⟨j, List.mem_cons_of_mem _ hj, hpj⟩))]
        apply decode_frame y (path ++ [k]) v v1 hd p
        intro hpre
        rcases hp with hp | ⟨j, hj, hpj⟩
        · exact hp ((List.prefix_append _ _).trans hpre)
        · have := List.prefix_of_prefix_length_le hpj hpre (by simp)
          have := this.eq_of_length (by simp)
          simp only [List.append_cancel_left_eq, List.cons.injEq, and_true] at this
          subst this
          simp [hj] at hk
end

mutual
theorem decode_effect {accepts : Path → Yaml → Bool} : ∀ (y : Yaml) (path : Path) (v v' : Values),
    decode accepts path y v = some v' → ∀ r s, field (path ++ r) = some s → v' (path ++ r) = effect s (v (path ++ r)) (look y r)
  | .null, path, v, v', h, r, s, hs => by
    rw [decode] at h
    cases h
    simp [clear, hs, look, effect]
  | .scalar t, path, v, v', h, r, s, hs => by
    rw [decode] at h
    obtain ⟨s', hs', -, rfl⟩ := decodeField_some h
    have := field_below hs' hs
    subst this
    simp [put, look, effect]
  | .seq items, path, v, v', h, r, s, hs => by
    rw [decode] at h
    obtain ⟨s', hs', -, rfl⟩ := decodeField_some h
    have := field_below hs' hs
    subst this
    simp [put, look, effect]
  | .map es, path, v, v', h, r, s, hs => by
    rw [decode] at h
    split at h
    · obtain ⟨s', hs', -, rfl⟩ := decodeField_some h
      have := field_below hs' hs
      subst this
      simp [put, look, effect]
    · rename_i hn
      cases r with
      | nil => rw [List.append_nil] at hs; rw [hs] at hn; exact absurd rfl hn
      | cons k r => exact section_effect es path [] v v' h k r s hs (by simp)
theorem section_effect {accepts : Path → Yaml → Bool} : ∀ (es : Entries) (path : Path) (seen : List Str) (v v' : Values),
    decodeSection accepts path es seen v = some v' → ∀ k r s, field (path ++ k :: r) = some s → k ∉ seen →
      v' (path ++ k :: r) = effect s (v (path ++ k :: r)) (lookIn es k r)
  | .nil, path, seen, v, v', h, k, r, s, hs, _ => by
    rw [decodeSection] at h
    cases h
    simp [lookIn, effect]
  | .cons j y rest, path, seen, v, v', h, k, r, s, hs, hseen => by
    rw [decodeSection] at h
    split at h
    · cases h
    · cases hd : decode accepts (path ++ [j]) y v with
      | none => rw [hd] at h; cases h
      | some v1 =>
        rw [hd] at h
        simp only at h
        rw [lookIn]
        by_cases hjk : j = k
        · subst hjk
          rw [if_pos rfl, section_frame rest path (j :: seen) v1 v' h _ (.inr ⟨j, by simp, r, by simp⟩)]
          have := decode_effect y (path ++ [j]) v v1 hd r s (by simpa using hs)
          simpa using this
        · rw [if_neg hjk, section_effect rest path (j :: seen) v1 v' h k r s hs (by simp [hseen, Ne.symm hjk])]
          congr 1
          apply decode_frame y (path ++ [j]) v v1 hd
          rintro ⟨l, hl⟩
          simp at hl
          exact hjk hl.1
end

/-! ## What is said is what is found -/

mutual
theorem says_look {accepts : Path → Yaml → Bool} : ∀ (y : Yaml) (path : Path) (v v' : Values),
    decode accepts path y v = some v' → ∀ q r w s, field (path ++ r) = some s → q <+: r → Says y q w → (w = .null ∨ q = r) →
      look y r = some w
  | .null, path, v, v', h, q, r, w, s, hs, hq, hw, ho => by
    cases hw
    simp [look]
  | .scalar t, path, v, v', h, q, r, w, s, hs, hq, hw, ho => by
    cases hw
    rcases ho with ho | rfl
    · cases ho
    · simp [look]
  | .seq items, path, v, v', h, q, r, w, s, hs, hq, hw, ho => by
    cases hw
    rcases ho with ho | rfl
    · cases ho
    · simp [look]
  | .map es, path, v, v', h, q, r, w, s, hs, hq, hw, ho => by
    cases hw with
    | here =>
      rcases ho with ho | rfl
      · cases ho
      · simp [look]
    | @under _ k y p _ hm hw =>
      cases r with
      | nil => simp at hq
      | cons k' r =>
        obtain ⟨rfl, hq'⟩ := List.cons_prefix_cons.1 hq
        rw [decode] at h
        split at h
        · obtain ⟨s', hs', -⟩ := decodeField_some h
          exact absurd (field_below hs' hs) (by simp)
        · rw [look]
          exact says_lookIn es path [] v v' h k p r w s hs hq' y hm hw (ho.imp id (by simp))
theorem says_lookIn {accepts : Path → Yaml → Bool} : ∀ (es : Entries) (path : Path) (seen : List Str) (v v' : Values),
    decodeSection accepts path es seen v = some v' → ∀ k q r w s, field (path ++ k :: r) = some s → q <+: r →
      ∀ y, (k, y) ∈ es.toList → Says y q w → (w = .null ∨ q = r) → lookIn es k r = some w
  | .nil, path, seen, v, v', h, k, q, r, w, s, hs, hq, y, hm, hw, ho => by
    simp [Entries.toList] at hm
  | .cons j z rest, path, seen, v, v', h, k, q, r, w, s, hs, hq, y, hm, hw, ho => by
    rw [decodeSection] at h
    split at h
    · cases h
    · cases hd : decode accepts (path ++ [j]) z v with
      | none => rw [hd] at h; cases h
      | some v1 =>
        rw [hd] at h
        simp only at h
        rw [lookIn]
        simp only [Entries.toList, List.mem_cons, Prod.mk.injEq] at hm
        by_cases hjk : j = k
        · subst hjk
          rw [if_pos rfl]
          rcases hm with ⟨-, rfl⟩ | hm
          · exact says_look y (path ++ [j]) v v1 hd q r w s (by simpa using hs) hq hw ho
          · exact absurd hm (section_seen rest path (j :: seen) v1 v' h j y (by simp))
        · rw [if_neg hjk]
          rcases hm with ⟨rfl, -⟩ | hm
          · exact absurd rfl hjk
          · exact says_lookIn rest path (j :: seen) v1 v' h k q r w s hs hq y hm hw ho
theorem section_seen {accepts : Path → Yaml → Bool} : ∀ (es : Entries) (path : Path) (seen : List Str) (v v' : Values),
    decodeSection accepts path es seen v = some v' → ∀ k y, k ∈ seen → (k, y) ∉ es.toList
  | .nil, path, seen, v, v', h, k, y, hk => by simp [Entries.toList]
  | .cons j z rest, path, seen, v, v', h, k, y, hk => by
    rw [decodeSection] at h
    split at h
    · cases h
    · rename_i hj
      cases hd : decode accepts (path ++ [j]) z v with
      | none => rw [hd] at h; cases h
      | some v1 =>
        rw [hd] at h
        simp only at h
        simp only [Entries.toList, List.mem_cons, Prod.mk.injEq, not_or, not_and]
        refine ⟨?_, section_seen rest path (j :: seen) v1 v' h k y (List.mem_cons_of_mem _ hk)⟩
        rintro rfl
        simp [hk] at hj
end

mutual
theorem look_says : ∀ (y : Yaml) (r : Path) (w : Yaml), look y r = some w → ∃ q, q <+: r ∧ Says y q w ∧ (w = .null ∨ q = r)
  | .null, r, w, h => by
    rw [look] at h
    cases h
    exact ⟨[], List.nil_prefix, .here _, .inl rfl⟩
  | .scalar t, [], w, h => by rw [look] at h; cases h; exact ⟨[], List.nil_prefix, .here _, .inr rfl⟩
  | .scalar _, _ :: _, w, h => by rw [look] at h; cases h
  | .seq items, [], w, h => by rw [look] at h; cases h; exact ⟨[], List.nil_prefix, .here _, .inr rfl⟩
  | .seq _, _ :: _, w, h => by rw [look] at h; cases h
  | .map es, [], w, h => by rw [look] at h; cases h; exact ⟨[], List.nil_prefix, .here _, .inr rfl⟩
  | .map es, k :: r, w, h => by
    rw [look] at h
    obtain ⟨y, q, hm, hq, hw, ho⟩ := lookIn_says es k r w h
    exact ⟨k :: q, List.cons_prefix_cons.2 ⟨rfl, hq⟩, .under hm hw, ho.imp id (by rintro rfl; rfl)⟩
theorem lookIn_says : ∀ (es : Entries) (k : Str) (r : Path) (w : Yaml), lookIn es k r = some w →
    ∃ y q, (k, y) ∈ es.toList ∧ q <+: r ∧ Says y q w ∧ (w = .null ∨ q = r)
  | .nil, k, r, w, h => by rw [lookIn] at h; cases h
  | .cons j z rest, k, r, w, h => by
    rw [lookIn] at h
    split at h
    · rename_i hjk
      subst hjk
      obtain ⟨q, hq, hw, ho⟩ := look_says z r w h
      exact ⟨z, q, by simp [Entries.toList], hq, hw, ho⟩
    · obtain ⟨y, q, hm, hq, hw, ho⟩ := lookIn_says rest k r w h
      exact ⟨y, q, by simp [Entries.toList, hm], hq, hw, ho⟩
end

theorem decode_given {accepts : Path → Yaml → Bool} {doc : Yaml} {v v' : Values} (h : decode accepts [] doc v = some v') {p : Path}
    {s : Setting} (hs : field p = some s) {w : Yaml} (hw : Written doc p w) : v' p = w := by
  have he := decode_effect doc [] v v' h p s hs
  rw [says_look doc [] v v' h p p w s hs (List.prefix_refl _) hw.1 (.inr rfl)] at he
  simp only [List.nil_append] at he
  rw [he]
  cases hw' : w with
  | null => exact absurd hw' hw.2
  | _ => rfl

theorem decode_emptied {accepts : Path → Yaml → Bool} {doc : Yaml} {v v' : Values} (h : decode accepts [] doc v = some v') {p : Path}
    {s : Setting} (hs : field p = some s) (hw : Emptied doc p) : v' p = zero s.kind := by
  obtain ⟨q, hq, hw⟩ := hw
  have he := decode_effect doc [] v v' h p s hs
  rw [says_look doc [] v v' h q p .null s hs hq hw (.inl rfl)] at he
  exact he

theorem decode_left_out {accepts : Path → Yaml → Bool} {doc : Yaml} {v v' : Values} (h : decode accepts [] doc v = some v') {p : Path}
    {s : Setting} (hs : field p = some s) (hw : LeftOut doc p) : v' p = v p := by
  have he := decode_effect doc [] v v' h p s hs
  cases hl : look doc p with
  | none => rw [hl] at he; exact he
  | some w =>
    obtain ⟨q, hq, hsay, ho⟩ := look_says doc p w hl
    by_cases hn : w = .null
    · subst hn; exact absurd ⟨q, hq, hsay⟩ hw.1
    · rcases ho with ho | rfl
      · exact absurd ho hn
      · exact absurd ⟨hsay, hn⟩ (hw.2 w)

/-! ## Files that are refused -/

theorem decodeField_none {accepts : Path → Yaml → Bool} {path : Path} {y : Yaml} {v : Values} :
    decodeField accepts path y v = none ↔ (field path = none ∨ accepts path y = false) := by
  unfold decodeField
  cases field path with
  | none => simp
  | some s => by_cases h : accepts path y = true <;> simp [h]

theorem says_prepend {es : Entries} {k : Str} {y : Yaml} {accepts : Path → Yaml → Bool} {path : Path} (hm : (k, y) ∈ es.toList)
    (h : ∃ q z, Says y q z ∧ Wrong accepts ((path ++ [k]) ++ q) z) : ∃ q z, Says (.map es) q z ∧ Wrong accepts (path ++ q) z := by
  obtain ⟨q, z, hs, hw⟩ := h
  exact ⟨k :: q, z, .under hm hs, by simpa using hw⟩

/-- What can be wrong with the entries of a section, some keys of which have been seen. -/
def WrongIn (accepts : Path → Yaml → Bool) (path : Path) (es : Entries) (seen : List Str) : Prop :=
  ¬ (es.toList.map Prod.fst).Nodup ∨ (∃ k ∈ es.toList.map Prod.fst, k ∈ seen) ∨
  (∃ k ∈ es.toList.map Prod.fst, ¬ Section (path ++ [k]) ∧ ¬ Documented (path ++ [k])) ∨
  ∃ k y, (k, y) ∈ es.toList ∧ ∃ q z, Says y q z ∧ Wrong accepts ((path ++ [k]) ++ q) z

theorem wrong_under {accepts : Path → Yaml → Bool} {path : Path} (hd : Documented path) {r : Path} (hr : r ≠ []) {z : Yaml} :
    ¬ Wrong accepts (path ++ r) z := by
  obtain ⟨s, hs⟩ := Option.isSome_iff_exists.1 (documented_field.1 hd)
  rintro (⟨h, -⟩ | ⟨h, -⟩)
  · obtain ⟨t, ht⟩ := Option.isSome_iff_exists.1 (documented_field.1 h)
    exact hr (field_below hs ht)
  · obtain ⟨row, hrow, ⟨l, hl⟩, hne⟩ := h
    obtain ⟨t, ht⟩ := Option.isSome_iff_exists.1 (documented_field.1 ⟨row, hrow, rfl⟩)
    rw [← hl, List.append_assoc] at ht
    have := field_below hs ht
    simp only [List.append_eq_nil_iff] at this
    exact hr this.1

mutual
theorem decode_refused {accepts : Path → Yaml → Bool} : ∀ (y : Yaml) (path : Path) (v : Values), (Section path ∨ Documented path) →
    (decode accepts path y v = none ↔ ∃ q z, Says y q z ∧ Wrong accepts (path ++ q) z)
  | .null, path, v, hp => by
    rw [decode]
    constructor
    · intro h; cases h
    · rintro ⟨q, z, hs, hw⟩
      cases hs
      simp [Wrong] at hw
  | .scalar t, path, v, hp => by
    rw [decode, decodeField_none]
    constructor
    · intro h
      refine ⟨[], _, .here _, ?_⟩
      rw [List.append_nil]
      rcases hp with hp | hp
      · exact .inr ⟨hp, .inl ⟨t, rfl⟩⟩
      · rcases h with h | h
        · rw [documented_field, h] at hp; cases hp
        · exact .inl ⟨hp, by simp, h⟩
    · rintro ⟨q, z, hs, hw⟩
      cases hs
      rw [List.append_nil] at hw
      rcases hw with ⟨-, -, h⟩ | ⟨h, -⟩
      · exact .inr h
      · exact .inl (section_field h)
  | .seq items, path, v, hp => by
    rw [decode, decodeField_none]
    constructor
    · intro h
      refine ⟨[], _, .here _, ?_⟩
      rw [List.append_nil]
      rcases hp with hp | hp
      · exact .inr ⟨hp, .inr (.inl ⟨items, rfl⟩)⟩
      · rcases h with h | h
        · rw [documented_field, h] at hp; cases hp
        · exact .inl ⟨hp, by simp, h⟩
    · rintro ⟨q, z, hs, hw⟩
      cases hs
      rw [List.append_nil] at hw
      rcases hw with ⟨-, -, h⟩ | ⟨h, -⟩
      · exact .inr h
      · exact .inl (section_field h)
  | .map es, path, v, hp => by
    rw [decode]
    by_cases hd : Documented path
    · rw [if_pos (documented_field.1 hd), decodeField_none]
      constructor
      · intro h
        refine ⟨[], _, .here _, ?_⟩
        rw [List.append_nil]
        rcases h with h | h
        · rw [documented_field, h] at hd; cases hd
        · exact .inl ⟨hd, by simp, h⟩
      · rintro ⟨q, z, hs, hw⟩
        cases hs with
        | here =>
          rw [List.append_nil] at hw
          rcases hw with ⟨-, -, h⟩ | ⟨h, -⟩
          · exact .inr h
          · exact .inl (section_field h)
        | under hm hs => exact absurd hw (wrong_under hd (by simp))
    · have hsec : Section path := hp.resolve_right hd
      rw [if_neg (fun h => hd (documented_field.2 h)), section_refused es path [] v]
      constructor
      · rintro (h | ⟨k, -, h⟩ | h | ⟨k, y, hm, h⟩)
        · exact ⟨[], _, .here _, by rw [List.append_nil]; exact .inr ⟨hsec, .inr (.inr ⟨es, rfl, .inl h⟩)⟩⟩
        · cases h
        · exact ⟨[], _, .here _, by rw [List.append_nil]; exact .inr ⟨hsec, .inr (.inr ⟨es, rfl, .inr h⟩)⟩⟩
        · exact says_prepend hm h
      · rintro ⟨q, z, hs, hw⟩
        cases hs with
        | here =>
          rw [List.append_nil] at hw
          rcases hw with ⟨h, -⟩ | ⟨-, ⟨t, h⟩ | ⟨t, h⟩ | ⟨es', h, h'⟩⟩
          · exact absurd h hd
          · cases h
          · cases h
          · cases h
            rcases h' with h' | h'
            · exact .inl h'
            · exact .inr (.inr (.inl h'))
        | @under _ k y p _ hm hs => exact .inr (.inr (.inr ⟨k, y, hm, p, z, hs, by simpa using hw⟩))
theorem section_refused {accepts : Path → Yaml → Bool} : ∀ (es : Entries) (path : Path) (seen : List Str) (v : Values),
    (decodeSection accepts path es seen v = none ↔ WrongIn accepts path es seen)
  | .nil, path, seen, v => by
    rw [decodeSection]
    simp [WrongIn, Entries.toList]
  | .cons k y rest, path, seen, v => by
    rw [decodeSection]
    by_cases hseen : k ∈ seen
    · rw [if_pos (by simp [hseen])]
      simp only [true_iff]
      exact .inr (.inl ⟨k, by simp [Entries.toList], hseen⟩)
    by_cases hk : known (path ++ [k]) = true
    · rw [if_neg (by simp [hseen, hk])]
      have hk' := known_iff.1 hk
      have ih1 := decode_refused (accepts := accepts) y (path ++ [k]) v hk'
      cases hd : decode accepts (path ++ [k]) y v with
      | none =>
        simp only [true_iff]
        exact .inr (.inr (.inr ⟨k, y, by simp [Entries.toList], ih1.1 hd⟩))
      | some v1 =>
        simp only
        rw [section_refused rest path (k :: seen) v1]
        have hn : ¬ ∃ q z, Says y q z ∧ Wrong accepts ((path ++ [k]) ++ q) z := by
          rw [← ih1, hd]; simp
        have hn2 : ¬ (¬ Section (path ++ [k]) ∧ ¬ Documented (path ++ [k])) := by
          rintro ⟨a, b⟩
          exact hk'.elim a b
        unfold WrongIn
        simp only [Entries.toList, List.map_cons, List.nodup_cons, List.mem_cons]
        constructor
        · rintro (h | ⟨j, hj, rfl | h⟩ | ⟨j, hj, h⟩ | ⟨j, z, hj, h⟩)
          · exact .inl (fun hc => h hc.2)
          · exact .inl (fun hc => hc.1 hj)
          · exact .inr (.inl ⟨j, .inr hj, h⟩)
          · exact .inr (.inr (.inl ⟨j, .inr hj, h⟩))
          · exact .inr (.inr (.inr ⟨j, z, .inr hj, h⟩))
        · rintro (h | ⟨j, rfl | hj, h⟩ | ⟨j, rfl | hj, h⟩ | ⟨j, z, hj | hj, h⟩)
          · by_cases hm : k ∈ rest.toList.map Prod.fst
            · exact .inr (.inl ⟨k, hm, .inl rfl⟩)
            · exact .inl (fun hc => h ⟨hm, hc⟩)
          · exact absurd h hseen
          · exact .inr (.inl ⟨j, hj, .inr h⟩)
          · exact absurd h hn2
          · exact .inr (.inr (.inl ⟨j, hj, h⟩))
          · cases hj; exact absurd h hn
          · exact .inr (.inr (.inr ⟨j, z, hj, h⟩))
    · rw [if_pos (by simp [hk])]
      simp only [true_iff]
      refine .inr (.inr (.inl ⟨k, by simp [Entries.toList], ?_⟩))
      rw [known_iff] at hk
      exact ⟨fun h => hk (.inl h), fun h => hk (.inr h)⟩
end

theorem root_section : Section [] := ⟨([str! "certFile"], .scalar [], .scalar []), by decide +kernel, by simp, by simp⟩

theorem load_document {accepts : Path → Yaml → Bool} {old low : Yaml → Bool} {doc : Yaml} {v : Values}
    (h : load accepts old low (.document doc) = some v) : ∃ v0, decode accepts [] doc defaults = some v0 ∧ v = validate old low v0 := by
  unfold load at h
  obtain ⟨v0, h0, h1⟩ := Option.map_eq_some_iff.1 h
  exact ⟨v0, h0, h1.symm⟩

theorem validate_other {old low : Yaml → Bool} {v : Values} {p : Path} (h1 : p ≠ [str! "minTlsServeVersion"])
    (h2 : p ≠ [str! "upstreams", str! "timeout"]) : validate old low v p = v p := by
  unfold validate put
  split <;> split <;> simp [h1, h2]

theorem validate_timeout {old low : Yaml → Bool} {v : Values} : validate old low v [str! "upstreams", str! "timeout"] =
    if low (v [str! "upstreams", str! "timeout"]) then .scalar (str! "2s") else v [str! "upstreams", str! "timeout"] := by
  unfold validate put
  split <;> split <;> simp_all

theorem validate_version {old low : Yaml → Bool} {v : Values} : validate old low v [str! "minTlsServeVersion"] =
    if old (v [str! "minTlsServeVersion"]) then .scalar (str! "1.2") else v [str! "minTlsServeVersion"] := by
  unfold validate put
  split <;> split <;> simp_all

/-- What is done about values that are out of range: a timeout that is not above zero is two seconds, a version below 1.2 is 1.2. -/
def inRange (old low : Yaml → Bool) (p : Path) (w : Yaml) : Yaml :=
  if p = [str! "upstreams", str! "timeout"] ∧ low w = true then .scalar (str! "2s")
  else if p = [str! "minTlsServeVersion"] ∧ old w = true then .scalar (str! "1.2")
  else w

theorem validate_inRange (old low : Yaml → Bool) (v : Values) (p : Path) : validate old low v p = inRange old low p (v p) := by
  unfold inRange
  by_cases h2 : p = [str! "upstreams", str! "timeout"]
  · subst h2
    rw [validate_timeout]
    simp
  · by_cases h1 : p = [str! "minTlsServeVersion"]
    · subst h1
      rw [validate_version]
      simp
    · rw [validate_other h1 h2]
      simp [h1, h2]

/-! ## The claim -/

/-- **C113.** The settings of a file are read as they are written: a setting with a value has that value (out of range: see `inRange`). -/
theorem C113_given {accepts : Path → Yaml → Bool} {old low : Yaml → Bool} {doc : Yaml} {v : Values}
    (h : load accepts old low (.document doc) = some v) {p : Path} (hp : Documented p) {w : Yaml} (hw : Written doc p w) :
    v p = inRange old low p w := by
  obtain ⟨v0, h0, rfl⟩ := load_document h
  obtain ⟨s, hs⟩ := Option.isSome_iff_exists.1 (documented_field.1 hp)
  rw [validate_inRange, decode_given h0 hs hw]

/-- A setting that is left out, neither it nor a section of it being written down with nothing behind the colon, has its default. -/
theorem C113_left_out_partial {accepts : Path → Yaml → Bool} {old low : Yaml → Bool} (ho : old (.scalar (str! "1.2")) = false)
    (hl : low (.scalar (str! "2s")) = false) {doc : Yaml} {v : Values} (h : load accepts old low (.document doc) = some v)
    {p : Path} {d z : Yaml} (hp : (p, d, z) ∈ documented) (hw : LeftOut doc p) : v p = d := by
  obtain ⟨v0, h0, rfl⟩ := load_document h
  obtain ⟨s, hs, hd, -⟩ := row_field hp
  rw [validate_inRange, decode_left_out h0 hs hw, hd]
  unfold inRange
  split
  · rename_i hc
    obtain ⟨rfl, hc⟩ := hc
    have : d = .scalar (str! "2s") := by rw [← hd]; decide +kernel
    rw [this, hl] at hc
    cases hc
  · split
    · rename_i hc
      obtain ⟨rfl, hc⟩ := hc
      have : d = .scalar (str! "1.2") := by rw [← hd]; decide +kernel
      rw [this, ho] at hc
      cases hc
    · rfl

/-- A setting that is written down, or is in a section that is written down, with nothing behind the colon loses its default: it has the
value of nothing. -/
theorem C113_emptied {accepts : Path → Yaml → Bool} {old low : Yaml → Bool} {doc : Yaml} {v : Values}
    (h : load accepts old low (.document doc) = some v) {p : Path} {d z : Yaml} (hp : (p, d, z) ∈ documented) (hw : Emptied doc p) :
    v p = inRange old low p z := by
  obtain ⟨v0, h0, rfl⟩ := load_document h
  obtain ⟨s, hs, -, hz⟩ := row_field hp
  rw [validate_inRange, decode_emptied h0 hs hw, hz]

/-- Without a file, or with one that has only comments, everything has its default. -/
theorem C113_no_file (accepts : Path → Yaml → Bool) (old low : Yaml → Bool) :
    ∃ v, load accepts old low .absent = some v ∧ load accepts old low .blank = some v ∧ ∀ p d z, (p, d, z) ∈ documented → v p = d := by
  refine ⟨defaults, rfl, ?_, ?_⟩
  · show some (validate old low defaults) = some defaults
    congr 1
    funext p
    rw [validate_inRange]
    unfold inRange
    have h1 : defaults [str! "upstreams", str! "timeout"] = .scalar (str! "2s") := by decide +kernel
    have h2 : defaults [str! "minTlsServeVersion"] = .scalar (str! "1.2") := by decide +kernel
    split
    · rename_i hc
      obtain ⟨rfl, -⟩ := hc
      exact h1.symm
    · split
      · rename_i hc
        obtain ⟨rfl, -⟩ := hc
        exact h2.symm
      · rfl
  · intro p d z hp
    obtain ⟨s, -, hd, -⟩ := row_field hp
    exact hd

/-- A file is refused exactly if something is wrong with it: a value its setting does not take, a section that is not a mapping, a key
that comes twice or that there is not. -/
theorem C113_refused (accepts : Path → Yaml → Bool) (old low : Yaml → Bool) (doc : Yaml) :
    load accepts old low (.document doc) = none ↔ Faulty accepts doc := by
  unfold load Faulty
  rw [Option.map_eq_none_iff, decode_refused doc [] defaults (.inl root_section)]
  simp

/-! ## Sections without anything -/

/-- docs/configuration.md 903-909: the example of where the settings of loading belong. -/
def loadingExample : Yaml :=
  .map (entries [(str! "blocking", .map (entries [(str! "loading", .null)])), (str! "hostsFile", .map (entries [(str! "loading", .null)]))])

/-- A file with a section that has been commented out except for its name. -/
def sudnExample : Yaml :=
  .map (entries [(str! "ports", .map (entries [(str! "dns", .scalar (str! "5353"))])), (str! "specialUseDomains", .null)])

theorem loadingExample_loads (accepts : Path → Yaml → Bool) (old low : Yaml → Bool) :
    ∃ v, load accepts old low (.document loadingExample) = some v :=
  Option.isSome_iff_exists.1 rfl

theorem loadingExample_emptied {p : Path} (h : [str! "blocking", str! "loading"] <+: p ∨ [str! "hostsFile", str! "loading"] <+: p) :
    Emptied loadingExample p := by
  rcases h with h | h
  · exact ⟨_, h, .under (y := .map (entries [(str! "loading", .null)])) (by simp [entries, Entries.toList])
      (.under (y := .null) (by simp [entries, Entries.toList]) (.here _))⟩
  · exact ⟨_, h, .under (y := .map (entries [(str! "loading", .null)])) (by simp [entries, Entries.toList])
      (.under (y := .null) (by simp [entries, Entries.toList]) (.here _))⟩

/-- Left out in the usual sense, a setting need not have its default: in the documentation's own example nothing is said about any setting,
and yet lists are never refreshed (4 hours), downloads have no timeout (5 seconds) and are attempted without end (3 times), and the first
line that cannot be read ends a list (5). -/
theorem C113_empty_section_false (accepts : Path → Yaml → Bool) (old low : Yaml → Bool) :
    (∀ p w, Documented p → ¬ Written loadingExample p w) ∧
    ∃ v, load accepts old low (.document loadingExample) = some v ∧
      v [str! "blocking", str! "loading", str! "refreshPeriod"] = .scalar (str! "0") ∧
      v [str! "blocking", str! "loading", str! "maxErrorsPerSource"] = .scalar (str! "0") ∧
      v [str! "blocking", str! "loading", str! "downloads", str! "timeout"] = .scalar (str! "0") ∧
      v [str! "blocking", str! "loading", str! "downloads", str! "attempts"] = .scalar (str! "0") ∧
      v [str! "blocking", str! "loading", str! "downloads", str! "cooldown"] = .scalar (str! "0") ∧
      v [str! "hostsFile", str! "loading", str! "refreshPeriod"] = .scalar (str! "0") ∧
      v [str! "blocking", str! "blockTTL"] = .scalar (str! "6h") := by
  constructor
  · rintro p w hp ⟨hs, hw⟩
    have hsec : ∀ q ∈ [[], [str! "blocking"], [str! "hostsFile"]], (field q).isSome = false := by decide +kernel
    have hdoc : ∀ q ∈ [[], [str! "blocking"], [str! "hostsFile"]], q ≠ p := by
      rintro q hq rfl
      have := hsec q hq
      rw [documented_field.1 hp] at this
      cases this
    cases hs with
    | here => exact hdoc [] (by simp) rfl
    | under hm hs =>
      simp only [entries, Entries.toList, List.mem_cons, Prod.mk.injEq, List.not_mem_nil, or_false] at hm
      rcases hm with ⟨rfl, rfl⟩ | ⟨rfl, rfl⟩
      all_goals
        cases hs with
        | here => exact hdoc _ (by simp) rfl
        | under hm hs =>
          simp only [Entries.toList, List.mem_cons, Prod.mk.injEq, List.not_mem_nil, or_false] at hm
          obtain ⟨rfl, rfl⟩ := hm
          cases hs
          exact hw rfl
  · obtain ⟨v, hv⟩ := loadingExample_loads accepts old low
    refine ⟨v, hv, ?_, ?_, ?_, ?_, ?_, ?_, ?_⟩
    · exact C113_emptied hv (d := .scalar (str! "4h")) (z := .scalar (str! "0")) (by decide +kernel) (loadingExample_emptied (by decide +kernel))
    · exact C113_emptied hv (d := .scalar (str! "5")) (z := .scalar (str! "0")) (by decide +kernel) (loadingExample_emptied (by decide +kernel))
    · exact C113_emptied hv (d := .scalar (str! "5s")) (z := .scalar (str! "0")) (by decide +kernel) (loadingExample_emptied (by decide +kernel))
    · exact C113_emptied hv (d := .scalar (str! "3")) (z := .scalar (str! "0")) (by decide +kernel) (loadingExample_emptied (by decide +kernel))
    · exact C113_emptied hv (d := .scalar (str! "500ms")) (z := .scalar (str! "0")) (by decide +kernel) (loadingExample_emptied (by decide +kernel))
    · exact C113_emptied hv (d := .scalar (str! "4h")) (z := .scalar (str! "0")) (by decide +kernel) (loadingExample_emptied (by decide +kernel))
    · obtain ⟨v0, h0, rfl⟩ := load_document hv
      rw [validate_inRange]
      have hs : field [str! "blocking", str! "blockTTL"] = some (tagged [str! "blocking", str! "blockTTL"] .duration (str! "6h")) := by
        rfl
      have := decode_effect loadingExample [] defaults v0 h0 [str! "blocking", str! "blockTTL"] _ hs
      rw [List.nil_append] at this
      rw [this]
      rfl

/-- A download that is attempted 0 times with no pause is attempted without end: a list that is gone (404) is asked for again and again, and
with the strategy `blocking` the server never starts. -/
theorem C113_empty_section_endless (k : Nat) :
    (Loading.Download.run 0 0 (fun _ => .response 404 []) k).result = none ∧
    (Loading.Download.run 0 0 (fun _ => .response 404 []) k).requests = k ∧
    (Loading.Download.run 0 0 (fun _ => .response 404 []) k).waited = 0 := by
  induction k with
  | zero => exact ⟨rfl, rfl, rfl⟩
  | succ k ih =>
    obtain ⟨h1, h2, h3⟩ := ih
    rw [Loading.Download.run, Loading.Download.step, h1]
    simp [Loading.tryOnce, h2, h3]

/-- A section of which only the name is left: names of the private network are sent upstream although the file says nothing against it. -/
theorem C113_private_names_false (accepts : Path → Yaml → Bool) (old low : Yaml → Bool)
    (ha : accepts [str! "ports", str! "dns"] (.scalar (str! "5353")) = true) :
    ∃ v, load accepts old low (.document sudnExample) = some v ∧
      v [str! "ports", str! "dns"] = .scalar (str! "5353") ∧
      v [str! "specialUseDomains", str! "enable"] = .scalar (str! "false") ∧
      v [str! "specialUseDomains", str! "rfc6762-appendixG"] = .scalar (str! "false") := by
  have hl : ∃ v, load accepts old low (.document sudnExample) = some v := by
    cases h : load accepts old low (.document sudnExample) with
    | some v => exact ⟨v, rfl⟩
    | none =>
      unfold load sudnExample at h
      simp only [entries, decode, decodeSection, decodeField] at h
      rw [show ([] ++ [str! "ports"] ++ [str! "dns"] : Path) = [str! "ports", str! "dns"] from rfl] at h
      rw [ha] at h
      exact absurd h (by simp only [Option.map_eq_none_iff]; intro hc; exact nomatch hc)
  obtain ⟨v, hv⟩ := hl
  refine ⟨v, hv, ?_, ?_, ?_⟩
  · rw [C113_given hv (w := .scalar (str! "5353")) ⟨([str! "ports", str! "dns"], _, _), by
      show ([str! "ports", str! "dns"], .seq (.cons [] (.scalar (str! ":53")) .nil), .seq .nil) ∈ documented
      decide +kernel, rfl⟩
      ⟨.under (y := .map (entries [(str! "dns", .scalar (str! "5353"))])) (by simp [entries, Entries.toList])
        (.under (y := .scalar (str! "5353")) (by simp [entries, Entries.toList]) (.here _)), by simp⟩]
    rfl
  · exact C113_emptied hv (d := .scalar (str! "true")) (z := .scalar (str! "false")) (by decide +kernel)
      ⟨[str! "specialUseDomains"], by decide +kernel, .under (y := .null) (by simp [entries, Entries.toList]) (.here _)⟩
  · exact C113_emptied hv (d := .scalar (str! "true")) (z := .scalar (str! "false")) (by decide +kernel)
      ⟨[str! "specialUseDomains"], by decide +kernel, .under (y := .null) (by simp [entries, Entries.toList]) (.here _)⟩

/-! ## Examples -/

-- A file in the spirit of the documentation: what it gives, what it leaves out, and what it empties.
example : Written sudnExample [str! "ports", str! "dns"] (.scalar (str! "5353")) :=
  ⟨.under (y := .map (entries [(str! "dns", .scalar (str! "5353"))])) (by simp [entries, Entries.toList])
    (.under (y := .scalar (str! "5353")) (by simp [entries, Entries.toList]) (.here _)), by simp⟩

example : Emptied sudnExample [str! "specialUseDomains", str! "enable"] :=
  ⟨[str! "specialUseDomains"], by decide +kernel, .under (y := .null) (by simp [entries, Entries.toList]) (.here _)⟩

example : LeftOut sudnExample [str! "blocking", str! "blockTTL"] := by
  constructor
  · rintro ⟨q, hq, hs⟩
    cases hs with
    | under hm hs =>
      obtain ⟨rfl, -⟩ := List.cons_prefix_cons.1 hq
      simp [entries, Entries.toList] at hm
  · rintro w ⟨hs, -⟩
    cases hs with
    | under hm hs => simp [entries, Entries.toList] at hm

-- A key that comes twice, a key that there is not.
example : Faulty (fun _ _ => true) (.map (entries [(str! "log", .null), (str! "log", .null)])) :=
  ⟨[], _, .here _, .inr ⟨root_section, .inr (.inr ⟨_, rfl, .inl (by decide +kernel)⟩)⟩⟩

example : load (fun _ _ => true) (fun _ => false) (fun _ => false) (.document (.map (entries [(str! "blokcing", .null)]))) = none := rfl

example : load (fun _ _ => true) (fun _ => false) (fun _ => false) (.document (.map (entries [(str! "blocking", .scalar (str! "on"))]))) = none := rfl

example : (load (fun _ _ => true) (fun _ => false) (fun _ => false) (.document (.map (entries [(str! "blocking", .map .nil)])))).isSome = true := rfl

end Verif.Props
