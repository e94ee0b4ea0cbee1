/-
C71: sources of lists. C72: addresses and upstreams in the configuration. C73: listen addresses and masks.
C74: bootstrap servers.
-/
import Verif.Model.ConfigText
import Verif.Props.UpstreamUrl
import Verif.Props.CustomDns
import Verif.Model.Upstream
import Verif.Model.Ecs

namespace Verif.Props
open ConfigText Dns Spec

/-! ### C71 -/

theorem not_contains_newline {s : Str} (h : '\n' ∉ s) : ¬ s.contains '\n' = true := by
  rw [List.contains_iff_mem]; exact h

/-- **C71, links.** A line that starts with `http://` or `https://` is downloaded from, as written. -/
theorem C71_link (o : Outside) (link : Str) (hn : '\n' ∉ link)
    (h : str! "http://" <+: link ∨ str! "https://" <+: link) :
    openSource o (parseSource link) = o.download link ∧ showSource (parseSource link) = some link := by
  have hp : (str! "http").isPrefixOf link = true := by
    rw [List.isPrefixOf_iff_prefix]
    rcases h with ⟨t, rfl⟩ | ⟨t, rfl⟩
    · exact ⟨str! "://" ++ t, rfl⟩
    · exact ⟨str! "s://" ++ t, rfl⟩
  have : parseSource link = .http link := by
    rw [parseSource, if_neg (not_contains_newline hn), if_pos hp]
  rw [this]; exact ⟨rfl, rfl⟩

example : openSource ⟨fun l => some l, fun _ => none⟩ (parseSource (str! "https://a.b/list.txt")) =
    some (str! "https://a.b/list.txt") := by decide +kernel

/-- **C71, files.** A line `file://path` reads that file, whatever its name; so does the path alone if it
starts neither with `http` nor with `file://`. -/
theorem C71_file (o : Outside) (path : Str) (hn : '\n' ∉ path) :
    openSource o (parseSource (str! "file://" ++ path)) = o.readFile path ∧
    showSource (parseSource (str! "file://" ++ path)) = some (str! "file://" ++ path) ∧
    (¬ str! "http" <+: path → ¬ str! "file://" <+: path → openSource o (parseSource path) = o.readFile path) := by
  have h1 : parseSource (str! "file://" ++ path) = .file path := by
    rw [parseSource, if_neg (not_contains_newline (by simp [hn])), if_neg (by simp)]
    rw [UpstreamUrl.trimPrefix, if_pos (by rw [List.isPrefixOf_iff_prefix]; exact ⟨path, rfl⟩)]
    simp
  refine ⟨by rw [h1]; rfl, by rw [h1]; rfl, ?_⟩
  intro hh hf
  have : parseSource path = .file path := by
    rw [parseSource, if_neg (not_contains_newline hn), if_neg (by rw [List.isPrefixOf_iff_prefix]; exact hh),
      UpstreamUrl.trimPrefix, if_neg (by rw [List.isPrefixOf_iff_prefix]; exact hf)]
  rw [this]; rfl

example : openSource ⟨fun _ => none, fun l => some l⟩ (parseSource (str! "lists/ads.txt")) = some (str! "lists/ads.txt") ∧
    openSource ⟨fun _ => none, fun l => some l⟩ (parseSource (str! "file:///etc/httpd")) = some (str! "/etc/httpd") := by
  decide +kernel

/-- **C71, inline lists.** A text with a line break is the list itself: no file is read, nothing downloaded,
and the lines of the list are the lines given. -/
theorem C71_inline (o : Outside) (text : Str) (hn : '\n' ∈ text) :
    openSource o (parseSource text) = some text := by
  rw [parseSource, if_pos (by rw [List.contains_iff_mem]; exact hn)]; rfl

theorem joinChar_snoc (ls : List Str) (hne : ls ≠ []) (x : Str) :
    joinChar '\n' (ls ++ [x]) = joinChar '\n' ls ++ '\n' :: x := by
  induction ls with
  | nil => exact absurd rfl hne
  | cons a ls ih =>
    cases ls with
    | nil => rfl
    | cons b ls =>
      have := ih (by simp)
      simp only [List.cons_append] at this
      simp [joinChar, this]

/-- **C71, inline lines.** An inline source made of lines is what the same text in the configuration gives,
and its lines are those lines (and the empty rest after the last line break). -/
theorem C71_lines (o : Outside) (lines : List Str) (hne : lines ≠ []) (hl : ∀ l ∈ lines, '\n' ∉ l) :
    ∃ text, textSource lines = .text text ∧ parseSource text = textSource lines ∧
      openSource o (textSource lines) = some text ∧ splitChar '\n' text = lines ++ [[]] := by
  refine ⟨joinChar '\n' lines ++ ['\n'], rfl, ?_, rfl, ?_⟩
  · rw [parseSource, if_pos (by simp)]; rfl
  · have : joinChar '\n' lines ++ ['\n'] = joinChar '\n' (lines ++ [[]]) := (joinChar_snoc lines hne []).symm
    rw [this]
    apply splitChar_joinChar (by simp)
    intro p hp
    rcases List.mem_append.1 hp with h | h
    · exact hl p h
    · simp at h; simp [h]

example : (str! "ads.com" :: [str! "*.evil.com"]) ≠ [] ∧ ∀ l ∈ [str! "ads.com", str! "*.evil.com"], '\n' ∉ l := by decide

/-- **C71, printing.** The printed form of a file or link source reads as the same source. -/
theorem C71_round_trip (s : Str) (hn : '\n' ∉ s) :
    ∃ t, showSource (parseSource s) = some t ∧ parseSource t = parseSource s := by
  by_cases hp : (str! "http").isPrefixOf s = true
  · have : parseSource s = .http s := by
      rw [parseSource, if_neg (not_contains_newline hn), if_pos hp]
    exact ⟨s, by rw [this]; rfl, rfl⟩
  · have hs : parseSource s = .file (UpstreamUrl.trimPrefix s (str! "file://")) := by
      rw [parseSource, if_neg (not_contains_newline hn), if_neg hp]
    refine ⟨str! "file://" ++ UpstreamUrl.trimPrefix s (str! "file://"), by rw [hs]; rfl, ?_⟩
    have hn' : '\n' ∉ UpstreamUrl.trimPrefix s (str! "file://") := by
      unfold UpstreamUrl.trimPrefix
      split
      · exact fun h => hn (List.mem_of_mem_drop h)
      · exact hn
    rw [hs, parseSource, if_neg (not_contains_newline (by simp [hn'])), if_neg (by simp),
      UpstreamUrl.trimPrefix, if_pos (by rw [List.isPrefixOf_iff_prefix]; exact ⟨_, rfl⟩)]
    simp

example : showSource (parseSource (str! "lists/ads.txt")) = some (str! "file://lists/ads.txt") := by decide +kernel

/-- **C71, descriptions.** Describing an inline list never fails and gives one line: the first line of the
list, or its first 12 bytes and dots if it is longer. -/
theorem C71_description (line rest : Str) (hn : '\n' ∉ line) :
    showSource (.text (line ++ '\n' :: rest)) =
      some (if line.length ≤ 12 then line else line.take 12 ++ str! "...") := by
  have hc : UpstreamUrl.cutFirst '\n' (line ++ '\n' :: rest) = some (line, rest) := cutFirst_append line rest hn
  by_cases h : line.length ≤ 12
  · have h' : ¬ line.length > 12 := by omega
    simp [showSource, showText, firstLine, hc, maxTextSourceDisplayLen, h, h']
  · have h' : line.length > 12 := by omega
    have h'' : 12 ≤ line.length := by omega
    simp [showSource, showText, firstLine, hc, maxTextSourceDisplayLen, h', h'', h, List.take_take]

example : showSource (.text (str! "ads.example.com\nb\n")) = some (str! "ads.example....") := by decide

/-- **C71 fails for file names that start with `http`.** A file in the working directory whose name starts
like that is taken for a link: it is never read, the name is downloaded. -/
theorem C71_http_name_false (o : Outside) (name : Str) (hn : '\n' ∉ name) :
    openSource o (parseSource (str! "http" ++ name)) = o.download (str! "http" ++ name) := by
  rw [parseSource, if_neg (not_contains_newline (by simp [hn])), if_pos (by
    rw [List.isPrefixOf_iff_prefix]; exact ⟨name, rfl⟩)]
  rfl

example : openSource ⟨fun _ => none, fun _ => some (str! "ads.com")⟩ (parseSource (str! "httpd-ads.txt")) = none := by
  decide +kernel

/-- **C71: cut lists are not marked.** An inline list with more lines is described like its first line alone
(the code means to add dots when something other than the last line break was cut off). -/
theorem C71_unmarked_false :
    showSource (.text (str! "ads.com\n")) = some (str! "ads.com") ∧
    showSource (.text (str! "ads.com\nother.com\nmore.com\n")) = some (str! "ads.com") := by decide

/-! ### C72 -/

theorem convertParts_some {α : Type} {f : Str → Option α} {ps : List Str} {rs : List α} :
    convertParts f ps = some rs ↔ ps.map (fun p => f (trimSpace p)) = rs.map some := by
  induction ps generalizing rs with
  | nil => cases rs <;> simp [convertParts]
  | cons p ps ih =>
    rw [convertParts]
    cases hf : f (trimSpace p) with
    | none =>
      simp only [List.map_cons, hf]
      cases rs <;> simp
    | some r =>
      simp only [List.map_cons, hf]
      cases hc : convertParts f ps with
      | none =>
        simp only
        cases rs with
        | nil => simp
        | cons r' rs =>
          simp only [List.map_cons, List.cons.injEq, Option.some.injEq, reduceCtorEq, false_iff, not_and]
          intro _ h
          rw [← ih] at h
          rw [hc] at h
          exact nomatch h
      | some rs' =>
        simp only
        have := (ih (rs := rs')).1 hc
        cases rs with
        | nil => simp
        | cons r'' rs =>
          simp only [Option.some.injEq, List.cons.injEq, List.map_cons, this]
          constructor
          · rintro ⟨rfl, rfl⟩; exact ⟨rfl, rfl⟩
          · rintro ⟨h1, h2⟩
            exact ⟨h1, (List.map_inj_right (fun _ _ h => Option.some.inj h)).1 h2⟩

theorem convertParts_none {α : Type} {f : Str → Option α} {ps : List Str} :
    convertParts f ps = none ↔ ∃ p ∈ ps, f (trimSpace p) = none := by
  induction ps with
  | nil => simp [convertParts]
  | cons p ps ih =>
    rw [convertParts]
    cases hf : f (trimSpace p) with
    | none => simp [hf]
    | some r =>
      simp only
      cases hc : convertParts f ps with
      | none =>
        obtain ⟨q, hq, hqn⟩ := ih.1 hc
        simp only [true_iff]
        exact ⟨q, by simp [hq], hqn⟩
      | some rs =>
        simp only [reduceCtorEq, false_iff]
        rintro ⟨q, hq, hqn⟩
        rcases List.mem_cons.1 hq with rfl | hq
        · rw [hf] at hqn; exact nomatch hqn
        · have := ih.2 ⟨q, hq, hqn⟩
          rw [hc] at this; exact nomatch this

/-- The record kind an address stands for. -/
def recordData : IP → RData
  | .v4 a => .a (.v4 a)
  | .v6 a => .aaaa (.v6 a)

/-- **C72, addresses.** The text of a custom DNS name, any list of addresses separated by commas (spaces
around them allowed), is refused if one part is no address, and otherwise stands for one record per
part, in order, of the part's address and its kind. -/
theorem C72_addresses (parseIP : Str → Option IP) (parts : List Str) (hne : parts ≠ [])
    (hc : ∀ p ∈ parts, ',' ∉ p) :
    (parseEntries parseIP (joinChar ',' parts) = none ↔ ∃ p ∈ parts, parseIP (trimSpace p) = none) ∧
    ∀ rs, parseEntries parseIP (joinChar ',' parts) = some rs →
      ∃ ips : List IP, parts.map (fun p => parseIP (trimSpace p)) = ips.map some ∧ rs.map RR.data = ips.map recordData := by
  have hsplit : splitChar ',' (joinChar ',' parts) = parts := splitChar_joinChar hne hc
  have hrr : ∀ s, configToRR parseIP s = (parseIP s).map (fun ip =>
      { name := [], rtype := 0, cls := 0, ttl := 0, data := recordData ip }) := by
    intro s
    unfold configToRR
    cases parseIP s with
    | none => rfl
    | some ip => cases ip <;> rfl
  unfold parseEntries
  rw [hsplit]
  constructor
  · rw [convertParts_none]
    constructor
    · rintro ⟨p, hp, h⟩
      refine ⟨p, hp, ?_⟩
      rw [hrr] at h
      simpa using h
    · rintro ⟨p, hp, h⟩
      refine ⟨p, hp, ?_⟩
      rw [hrr, h]; rfl
  · intro rs hrs
    rw [convertParts_some] at hrs
    clear hsplit hne hc
    induction parts generalizing rs with
    | nil =>
      refine ⟨[], rfl, ?_⟩
      cases rs with
      | nil => rfl
      | cons r rs => simp at hrs
    | cons p parts ih =>
      cases rs with
      | nil => simp at hrs
      | cons r rs =>
        simp only [List.map_cons, List.cons.injEq] at hrs
        obtain ⟨ips, h1, h2⟩ := ih rs hrs.2
        cases hp : parseIP (trimSpace p) with
        | none => rw [hrr, hp] at hrs; exact nomatch hrs.1
        | some ip =>
          refine ⟨ip :: ips, by simp [hp, h1], ?_⟩
          have hr := hrs.1
          rw [hrr, hp] at hr
          simp only [Option.map_some, Option.some.injEq] at hr
          simp [← hr, h2]

/-- A sample of `net.ParseIP`. -/
def sampleParseIP (s : Str) : Option IP :=
  if s = str! "10.0.0.1" then some (.v4 0x0a000001#32)
  else if s = str! "fd00::1" then some (.v6 0xfd000000000000000000000000000001#128)
  else none

example : (parseEntries sampleParseIP (str! "10.0.0.1, fd00::1")).map (List.map RR.data) =
    some [.a (.v4 0x0a000001#32), .aaaa (.v6 0xfd000000000000000000000000000001#128)] ∧
    parseEntries sampleParseIP (str! "10.0.0.1,") = none := by decide +kernel

/-- The query type of an address. -/
def addressType : IP → Nat
  | .v4 _ => 1
  | .v6 _ => 28

theorem get_isSome_records (ttl : UInt32) (records : List (Str × List RR)) (z : Str) :
    (AMap.get (CustomDns.dnsRecords ttl records []) z).isSome ↔ ∃ e ∈ records, extractDomain e.1 = z := by
  rcases C32_configured_records ttl records [] z with ⟨x, hx, _⟩ | ⟨_, x, hx, hz, hg⟩ | ⟨_, hno, hg⟩
  · simp at hx
  · rw [hg]
    simp only [Option.isSome_some, true_iff]
    exact ⟨x, hx, hz⟩
  · rw [hg]
    simp only [Option.isSome_none, Bool.false_eq_true, false_iff]
    rintro ⟨e, he, h⟩
    exact hno e he h

theorem entries_data {parseIP : Str → Option IP} {text : Str} {rs : List RR} {ips : List IP}
    (h : parseEntries parseIP text = some rs) (hips : (splitChar ',' text).map (fun p => parseIP (trimSpace p)) = ips.map some) :
    rs.map RR.data = ips.map recordData := by
  have hj : joinChar ',' (splitChar ',' text) = text := joinChar_splitChar ',' text
  have := (C72_addresses parseIP (splitChar ',' text) (splitChar_ne_nil _ _) (splitChar_no_sep ',' text)).2 rs
    (by rw [hj]; exact h)
  obtain ⟨ips', h1, h2⟩ := this
  rw [hips] at h1
  have : ips = ips' := (List.map_inj_right (fun _ _ h => Option.some.inj h)).1 h1
  rw [this]; exact h2

theorem configured_of_addresses (q : Question) (ttl : UInt32) (rs : List RR) (ips : List IP)
    (h : rs.map RR.data = ips.map recordData) :
    configuredAnswers q (rs.map (fun e => { e with ttl := ttl })) =
      (ips.filter (fun ip => addressType ip = q.qtype)).map
        (fun ip => { name := q.name, rtype := q.qtype, cls := 1, ttl := ttl, data := recordData ip }) := by
  induction rs generalizing ips with
  | nil =>
    cases ips with
    | nil => rfl
    | cons ip ips => simp at h
  | cons r rs ih =>
    cases ips with
    | nil => simp at h
    | cons ip ips =>
      simp only [List.map_cons, List.cons.injEq] at h
      have ih' := ih ips h.2
      unfold configuredAnswers at ih' ⊢
      have hk : kindOf { r with ttl := ttl } = addressType ip := by
        simp only [kindOf, h.1]
        cases ip <;> rfl
      simp only [List.map_cons, List.filter_cons, hk]
      by_cases hq : addressType ip = q.qtype
      · simp only [hq, decide_true, if_true, List.map_cons, ih', h.1]
      · simp only [hq, decide_false, Bool.false_eq_true, if_false, ih']

theorem ordinary_of_addresses (ttl : UInt32) (rs : List RR) (ips : List IP) (h : rs.map RR.data = ips.map recordData) :
    ∀ e ∈ rs.map (fun e => { e with ttl := ttl }), Ordinary e := by
  intro e he
  obtain ⟨r, hr, rfl⟩ := List.mem_map.1 he
  have : r.data ∈ ips.map recordData := by rw [← h]; exact List.mem_map_of_mem hr
  obtain ⟨ip, _, hip⟩ := List.mem_map.1 this
  cases ip with
  | v4 a => exact .inl ⟨a, by simpa [recordData] using hip.symm⟩
  | v6 a => exact .inr (.inl ⟨a, by simpa [recordData] using hip.symm⟩)

/-- **C72, answers.** From the text of the configuration to the answer: with a mapping of names to texts of
addresses, a query is answered with exactly the addresses of the asked family in the text of the most
specific configured name, in their order and with the configured TTL. -/
theorem C72_answer {W : Type} (env : CustomDns.Env) (parseIP : Str → Option IP) (mapping : List (Str × Str))
    (records : List (Str × List RR))
    (hread : mapping.map (fun e => (e.1, parseEntries parseIP e.2)) = records.map (fun e => (e.1, some e.2)))
    (reverse : AMap Str (List Str)) (next : Resolver W) (depth : Nat) (hd : 0 < depth) (request : Request)
    (q : Question) (qs : List Question) (hq : request.req.question = q :: qs)
    (hrev : q.qtype = 12 → AMap.get reverse q.name = none) (w : W) (name text : Str) (hmem : (name, text) ∈ mapping)
    (huniq : ∀ e ∈ mapping, extractDomain e.1 = extractDomain name → e.2 = text)
    (hz : Longest (fun z => z ≠ [] ∧ ∃ e ∈ mapping, extractDomain e.1 = z) (extractDomain q.name) (extractDomain name))
    (ips : List IP) (hips : (splitChar ',' text).map (fun p => parseIP (trimSpace p)) = ips.map some)
    (hwant : (∃ ip ∈ ips, addressType ip = q.qtype) ∨ env.filterUnmappedTypes = true) :
    ∃ r, CustomDns.resolve env (CustomDns.dnsRecords env.customTTL records []) reverse next depth request w = some (.ok r, w) ∧
      r.res.answer = (ips.filter (fun ip => addressType ip = q.qtype)).map
        (fun ip => { name := q.name, rtype := q.qtype, cls := 1, ttl := env.customTTL, data := recordData ip }) ∧
      r.res.rcode = 0 ∧ r.rtype = .customdns := by
  have hto : ∀ e ∈ mapping, ∃ rs, (e.1, rs) ∈ records ∧ parseEntries parseIP e.2 = some rs := by
    intro e he
    have : (e.1, parseEntries parseIP e.2) ∈ records.map (fun e => (e.1, some e.2)) := by
      rw [← hread]; exact List.mem_map_of_mem (f := fun e => (e.1, parseEntries parseIP e.2)) he
    obtain ⟨x, hx, hxe⟩ := List.mem_map.1 this
    simp only [Prod.mk.injEq] at hxe
    exact ⟨x.2, by rw [← hxe.1]; exact hx, hxe.2.symm⟩
  have hfrom : ∀ x ∈ records, ∃ e ∈ mapping, e.1 = x.1 ∧ parseEntries parseIP e.2 = some x.2 := by
    intro x hx
    have : (x.1, some x.2) ∈ mapping.map (fun e => (e.1, parseEntries parseIP e.2)) := by
      rw [hread]; exact List.mem_map_of_mem (f := fun (e : Str × List RR) => (e.1, some e.2)) hx
    obtain ⟨e, he, hex⟩ := List.mem_map.1 this
    simp only [Prod.mk.injEq] at hex
    exact ⟨e, he, hex.1, hex.2⟩
  have hP : (fun z : Str => z ≠ [] ∧ ∃ e ∈ mapping, extractDomain e.1 = z) =
      (fun z => z ≠ [] ∧ (AMap.get (CustomDns.dnsRecords env.customTTL records []) z).isSome) := by
    funext z
    rw [get_isSome_records]
    apply propext
    constructor
    · rintro ⟨hne, e, he, h⟩
      obtain ⟨rs, hrs, _⟩ := hto e he
      exact ⟨hne, (e.1, rs), hrs, h⟩
    · rintro ⟨hne, x, hx, h⟩
      obtain ⟨e, he, h1, _⟩ := hfrom x hx
      exact ⟨hne, e, he, by rw [h1]; exact h⟩
  rw [hP] at hz
  obtain ⟨hex, _⟩ := C32_exact_partial env (CustomDns.dnsRecords env.customTTL records []) reverse next depth hd request q qs
    hq hrev w
  obtain ⟨rs0, hrs0, hparse0⟩ := hto _ hmem
  have hget : ∃ rs, AMap.get (CustomDns.dnsRecords env.customTTL records []) (extractDomain name) =
      some (rs.map (fun e => { e with ttl := env.customTTL })) ∧ parseEntries parseIP text = some rs := by
    rcases C32_configured_records env.customTTL records [] (extractDomain name) with ⟨x, hx, _⟩ | ⟨_, x, hx, hxz, hg⟩ | ⟨_, hno, _⟩
    · simp at hx
    · obtain ⟨e, he, h1, h2⟩ := hfrom x hx
      have := huniq e he (by rw [h1]; exact hxz)
      rw [this] at h2
      exact ⟨x.2, hg, h2⟩
    · exact absurd rfl (hno _ hrs0)
  obtain ⟨rs, hg, hrs⟩ := hget
  have hdata := entries_data hrs hips
  have hans := configured_of_addresses q env.customTTL rs ips hdata
  obtain ⟨r, hr, hrt, hra, hrc, _⟩ := (hex _ _ hz hg (ordinary_of_addresses env.customTTL rs ips hdata)).1 (by
    rw [hans]
    rcases hwant with ⟨ip, hip, ht⟩ | hf
    · left
      intro hnil
      have : ip ∈ ips.filter (fun ip => addressType ip = q.qtype) := by simp [hip, ht]
      simp only [List.map_eq_nil_iff] at hnil
      rw [hnil] at this
      exact nomatch this
    · exact .inr hf)
  exact ⟨r, hr, by rw [hra, hans], hrc, hrt⟩

/-- Two addresses for a name; a query for a name below it. -/
example : ∃ r, CustomDns.resolve (W := Unit) ⟨true, 3600, fun _ => [], fun _ => 0⟩
    (CustomDns.dnsRecords 3600 [(str! "Nas.lan", [{ name := [], rtype := 0, cls := 0, ttl := 0, data := .a (.v4 0x0a000001#32) },
      { name := [], rtype := 0, cls := 0, ttl := 0, data := .aaaa (.v6 0xfd000000000000000000000000000001#128) }])] [])
    [] (fun _ w => (.noResponse, w)) 1 { req := { question := [⟨str! "disk.nas.lan.", 28, 1⟩] } } () = some (.ok r, ()) ∧
    r.res.answer = [⟨str! "disk.nas.lan.", 28, 1, 3600, .aaaa (.v6 0xfd000000000000000000000000000001#128)⟩] := by
  obtain ⟨r, h1, h2, _⟩ := C72_answer (W := Unit) ⟨true, 3600, fun _ => [], fun _ => 0⟩ sampleParseIP
    [(str! "Nas.lan", str! "10.0.0.1, fd00::1")]
    [(str! "Nas.lan", [{ name := [], rtype := 0, cls := 0, ttl := 0, data := .a (.v4 0x0a000001#32) },
      { name := [], rtype := 0, cls := 0, ttl := 0, data := .aaaa (.v6 0xfd000000000000000000000000000001#128) }])]
    (by decide +kernel) [] (fun _ w => (.noResponse, w)) 1 (by omega)
    { req := { question := [⟨str! "disk.nas.lan.", 28, 1⟩] } } ⟨str! "disk.nas.lan.", 28, 1⟩ [] rfl (by decide) ()
    (str! "Nas.lan") (str! "10.0.0.1, fd00::1") (by simp) (by
      intro e he _
      simp only [List.mem_singleton] at he
      rw [he])
    ⟨.inr ⟨str! "disk", by decide⟩, ⟨by decide, _, List.mem_singleton_self _, rfl⟩, by
      rintro z _ ⟨_, e, he, rfl⟩
      simp only [List.mem_singleton] at he
      rw [he]; exact Nat.le_refl _⟩
    [.v4 0x0a000001#32, .v6 0xfd000000000000000000000000000001#128] (by decide +kernel) (.inr rfl)
  exact ⟨r, h1, by rw [h2]; decide⟩

/-! #### Zones -/

theorem groupZone_get (rrs : List RR) (m : AMap Str (List RR)) (n : Str) :
    AMap.get (groupZone rrs m) n =
      if (rrs.filter (fun r => r.name = n)) = [] then AMap.get m n
      else some (((AMap.get m n).getD []) ++ rrs.filter (fun r => r.name = n)) := by
  induction rrs generalizing m with
  | nil => simp [groupZone]
  | cons r rrs ih =>
    rw [groupZone, ih]
    by_cases h : r.name = n
    · have hg : AMap.get (AMap.put m r.name (((AMap.get m r.name).getD []) ++ [r])) n =
          some (((AMap.get m n).getD []) ++ [r]) := by rw [h, AMap.get_put_self]
      rw [hg]
      simp only [List.filter_cons, h, decide_true, if_true, reduceCtorEq, if_false, Option.getD_some, List.append_assoc]
      split
      · rename_i he; rw [he]
      · rfl
    · have hg : AMap.get (AMap.put m r.name (((AMap.get m r.name).getD []) ++ [r])) n = AMap.get m n :=
        AMap.get_put_ne _ _ h
      rw [hg]
      simp only [List.filter_cons, h, decide_false, Bool.false_eq_true, if_false]

theorem groupZone_uniq (rrs : List RR) (m : AMap Str (List RR)) (h : AMap.Uniq m) : AMap.Uniq (groupZone rrs m) := by
  induction rrs generalizing m with
  | nil => exact h
  | cons r rrs ih => exact ih _ (h.put _ _)

/-- **C72, zones.** If the records of a name are written with the same spelling everywhere in the zone, the
name has exactly these records, in the order of the zone (whatever the order in which Go walks the map
of names and whatever the simple mapping says). -/
theorem C72_zone (ttl : UInt32) (mapping : List (Str × List RR)) (rrs : List RR) (order : List (Str × List RR))
    (horder : order.Perm (groupZone rrs [])) (name : Str) (hin : ∃ r ∈ rrs, r.name = name)
    (hsame : ∀ r ∈ rrs, extractDomain r.name = extractDomain name → r.name = name) :
    AMap.get (CustomDns.dnsRecords ttl mapping order) (extractDomain name) = some (rrs.filter (fun r => r.name = name)) := by
  have huniq := groupZone_uniq rrs [] AMap.uniq_nil
  have hmem : ∀ x, x ∈ order → x.2 = rrs.filter (fun r => r.name = x.1) ∧ ∃ r ∈ rrs, r.name = x.1 := by
    intro x hx
    have hx' := horder.mem_iff.1 hx
    have hg := huniq.get_of_mem (k := x.1) (v := x.2) hx'
    rw [groupZone_get] at hg
    split at hg
    · simp [AMap.get] at hg
    · rename_i hne
      simp only [AMap.get, Option.getD_none, List.nil_append, Option.some.injEq] at hg
      refine ⟨hg.symm, ?_⟩
      obtain ⟨r, hr⟩ := List.exists_mem_of_ne_nil _ hne
      simp only [List.mem_filter, decide_eq_true_eq] at hr
      exact ⟨r, hr⟩
  rcases C32_configured_records ttl mapping order (extractDomain name) with ⟨x, hx, hxz, hg⟩ | ⟨hno, _⟩ | ⟨hno, _⟩
  · rw [hg]
    obtain ⟨h1, r, hr, h2⟩ := hmem x hx
    have : x.1 = name := by
      rw [← h2]
      exact hsame r hr (by rw [h2]; exact hxz)
    rw [h1, this]
  all_goals
    exfalso
    obtain ⟨r, hr, hrn⟩ := hin
    have hg : AMap.get (groupZone rrs []) name = some (rrs.filter (fun r => r.name = name)) := by
      rw [groupZone_get, if_neg]
      · simp [AMap.get]
      · intro h
        have : r ∈ rrs.filter (fun r => r.name = name) := by simp [hr, hrn]
        rw [h] at this
        exact nomatch this
    exact hno _ (horder.mem_iff.2 (AMap.get_eq_some_mem hg)) rfl

/-- An address record of a sample zone. -/
def zoneA (name : Str) (n : BitVec 32) : RR := ⟨name, 1, 1, 60, .a (.v4 n)⟩

example : AMap.get (CustomDns.dnsRecords 0 [] (groupZone [zoneA (str! "A.lan.") 1, zoneA (str! "b.lan.") 2, zoneA (str! "A.lan.") 3] []))
    (str! "a.lan") = some [zoneA (str! "A.lan.") 1, zoneA (str! "A.lan.") 3] := by decide

/-- **C72 fails for zones that spell a name in two ways.** Names of DNS do not depend on case, but the
records are collected by spelling and one spelling replaces the other: records of the name are lost
(which ones depends on the order in which Go walks the map). -/
theorem C72_zone_spelling_false :
    let rrs := [zoneA (str! "nas.lan.") 1, zoneA (str! "NAS.lan.") 2]
    (∃ order, order.Perm (groupZone rrs []) ∧
      AMap.get (CustomDns.dnsRecords 0 [] order) (str! "nas.lan") = some [zoneA (str! "NAS.lan.") 2]) ∧
    (∃ order, order.Perm (groupZone rrs []) ∧
      AMap.get (CustomDns.dnsRecords 0 [] order) (str! "nas.lan") = some [zoneA (str! "nas.lan.") 1]) := by
  refine ⟨⟨_, List.Perm.refl _, by decide⟩, ⟨_, List.reverse_perm _, by decide⟩⟩

/-! #### Upstreams of the conditional mapping -/

/-- **C72, conditional upstreams.** A conditional mapping is refused if one part of one entry is no
upstream; otherwise every name keeps its entry: the upstreams of its parts, in order. -/
theorem C72_conditional (isIP : Str → Bool) (mapping : List (Str × Str)) :
    (parseMapping isIP mapping = none ↔
      ∃ e ∈ mapping, ∃ p ∈ splitChar ',' e.2, UpstreamUrl.parse isIP (trimSpace p) = none) ∧
    ∀ m, parseMapping isIP mapping = some m →
      Pointwise (fun (e : Str × Str) (x : Str × List UpstreamUrl.Upstream) => x.1 = e.1 ∧
        (splitChar ',' e.2).map (fun p => UpstreamUrl.parse isIP (trimSpace p)) = x.2.map some) mapping m := by
  induction mapping with
  | nil =>
    refine ⟨by simp [parseMapping], ?_⟩
    intro m hm
    simp only [parseMapping, Option.some.injEq] at hm
    rw [← hm]; exact .nil
  | cons e mapping ih =>
    obtain ⟨k, v⟩ := e
    rw [parseMapping]
    cases hu : parseUpstreams isIP v with
    | none =>
      simp only [true_iff, reduceCtorEq, false_implies, implies_true, and_true]
      obtain ⟨p, hp, hn⟩ := convertParts_none.1 hu
      exact ⟨(k, v), by simp, p, hp, hn⟩
    | some us =>
      simp only
      have hus := convertParts_some.1 hu
      have hok : ¬ ∃ p ∈ splitChar ',' v, UpstreamUrl.parse isIP (trimSpace p) = none := by
        intro h
        have := convertParts_none.2 h
        unfold parseUpstreams at hu
        rw [hu] at this; exact nomatch this
      cases hm : parseMapping isIP mapping with
      | none =>
        simp only [true_iff, reduceCtorEq, false_implies, implies_true, and_true]
        obtain ⟨e, he, p, hp, hn⟩ := ih.1.1 hm
        exact ⟨e, by simp [he], p, hp, hn⟩
      | some m =>
        simp only [reduceCtorEq, false_iff]
        constructor
        · rintro ⟨e, he, p, hp, hn⟩
          rcases List.mem_cons.1 he with rfl | he
          · exact hok ⟨p, hp, hn⟩
          · have := ih.1.2 ⟨e, he, p, hp, hn⟩
            rw [hm] at this; exact nomatch this
        · intro m' hm'
          simp only [Option.some.injEq] at hm'
          rw [← hm']
          exact .cons ⟨rfl, hus⟩ (ih.2 m hm)

example : parseMapping (fun _ => false) [(str! "lan", str! "router.lan, tcp-tls:dns.lan"), (str! "work", str! "ns.work:54")] =
    some [(str! "lan", [⟨.tcpUdp, str! "router.lan", 53, [], []⟩, ⟨.tcpTls, str! "dns.lan", 853, [], []⟩]),
      (str! "work", [⟨.tcpUdp, str! "ns.work", 54, [], []⟩])] := by decide +kernel

/-! ### C73 -/

/-- What is listened on for one address of the configuration: a port alone means all interfaces. -/
inductive ListenOn : Str → Str → Prop where
  | port {p : Str} : p ≠ [] → (∀ c ∈ p, '0' ≤ c ∧ c ≤ '9') → ListenOn p (':' :: p)
  | address {h p : Str} : ListenOn (h ++ ':' :: p) (h ++ ':' :: p)

/-- **C73, listen addresses.** A list of ports and `host:port` addresses separated by commas gives one
listen address for each, in order. -/
theorem C73_listen (parts : List Str) (hne : parts ≠ []) (hc : ∀ p ∈ parts, ',' ∉ p)
    (hok : ∀ p ∈ parts, ∃ a, ListenOn p a) : Pointwise ListenOn parts (parseListen (joinChar ',' parts)) := by
  unfold parseListen
  rw [splitChar_joinChar hne hc]
  clear hne hc
  induction parts with
  | nil => exact .nil
  | cons p parts ih =>
    refine .cons ?_ (ih (fun q hq => hok q (by simp [hq])))
    obtain ⟨a, ha⟩ := hok p (by simp)
    cases ha with
    | port hne h =>
      have : ¬ p.contains ':' = true := by
        rw [List.contains_iff_mem]
        intro hm
        exact absurd (h _ hm) (by decide)
      dsimp only
      rw [if_neg this]; exact .port hne h
    | address =>
      dsimp only
      rw [if_pos (by rw [List.contains_iff_mem]; simp)]
      exact .address

example : parseListen (str! "53,127.0.0.1:5353,[::1]:53") = [str! ":53", str! "127.0.0.1:5353", str! "[::1]:53"] := by
  decide +kernel

/-- **C73 fails with spaces after the commas** (which the lists of addresses and upstreams allow): the second
port is listened on as `: 54`, whose port is no number. -/
theorem C73_listen_space_false : parseListen (str! "53, 54") = [str! ":53", str! ": 54"] ∧
    UpstreamUrl.splitHostPort (str! ": 54") = some ([], str! " 54") ∧ parseUint 10 16 (str! " 54") = none := by
  decide +kernel

/-- The value of a number written with decimal digits. -/
def maskNumber (s : Str) : Nat := s.foldl (fun n c => n * 10 + (c.toNat - '0'.toNat)) 0

theorem digitsValue_decimal (s : Str) (acc n : Nat) :
    digitsValue 10 acc s = some n ↔
      (∀ c ∈ s, '0' ≤ c ∧ c ≤ '9') ∧ n = s.foldl (fun n c => n * 10 + (c.toNat - '0'.toNat)) acc := by
  induction s generalizing acc with
  | nil =>
    simp only [digitsValue, Option.some.injEq, List.not_mem_nil, false_implies, implies_true, true_and, List.foldl_nil]
    exact eq_comm
  | cons c s ih =>
    rw [digitsValue]
    have hcl : ∀ a b : Char, a ≤ b ↔ a.toNat ≤ b.toNat := fun a b => by
      rw [Char.le_def, UInt32.le_iff_toNat_le]; rfl
    by_cases hd : '0'.toNat ≤ c.toNat ∧ c.toNat ≤ '9'.toNat
    · have hv : digitVal c = some (c.toNat - '0'.toNat) := by rw [digitVal, if_pos hd]
      have hlt : c.toNat - '0'.toNat < 10 := by
        have : '9'.toNat = 57 := rfl
        have : '0'.toNat = 48 := rfl
        omega
      rw [hv]
      simp only [if_pos hlt, ih, List.foldl_cons]
      constructor
      · rintro ⟨h1, h2⟩
        refine ⟨?_, h2⟩
        intro d hm
        rcases List.mem_cons.1 hm with rfl | hm
        · exact ⟨(hcl _ _).2 hd.1, (hcl _ _).2 hd.2⟩
        · exact h1 d hm
      · rintro ⟨h1, h2⟩
        exact ⟨fun d hm => h1 d (by simp [hm]), h2⟩
    · constructor
      · intro h
        exfalso
        have hge : ∀ v, digitVal c = some v → 10 ≤ v := by
          intro v hv
          rw [digitVal, if_neg hd] at hv
          split at hv
          · simp only [Option.some.injEq] at hv; omega
          · split at hv
            · simp only [Option.some.injEq] at hv; omega
            · exact nomatch hv
        cases hv : digitVal c with
        | none => rw [hv] at h; exact nomatch h
        | some v =>
          rw [hv] at h
          have := hge v hv
          simp only [if_neg (show ¬ v < 10 by omega)] at h
          exact nomatch h
      · rintro ⟨h1, _⟩
        have := h1 c (by simp)
        exact absurd ⟨(hcl _ _).1 this.1, (hcl _ _).1 this.2⟩ hd

/-- **C73, masks.** A subnet prefix length is accepted exactly if it is a decimal number of at most 32 (IPv4)
or 128 (IPv6), and means that number. -/
theorem C73_mask (s : Str) (n : Nat) :
    (parseMask4 s = some n ↔ s ≠ [] ∧ (∀ c ∈ s, '0' ≤ c ∧ c ≤ '9') ∧ n = maskNumber s ∧ n ≤ 32) ∧
    (parseMask6 s = some n ↔ s ≠ [] ∧ (∀ c ∈ s, '0' ≤ c ∧ c ≤ '9') ∧ n = maskNumber s ∧ n ≤ 128) := by
  have key : ∀ max, max < 256 → (parseMask max s = some n ↔
      s ≠ [] ∧ (∀ c ∈ s, '0' ≤ c ∧ c ≤ '9') ∧ n = maskNumber s ∧ n ≤ max) := by
    intro max hmax
    unfold parseMask parseUint
    by_cases hs : s = []
    · simp [hs]
    · rw [if_neg hs]
      cases hv : digitsValue 10 0 s with
      | none =>
        simp only [reduceCtorEq, false_iff]
        rintro ⟨_, h1, h2, _⟩
        have := (digitsValue_decimal s 0 n).2 ⟨h1, h2⟩
        rw [hv] at this; exact nomatch this
      | some v =>
        obtain ⟨h1, h2⟩ := (digitsValue_decimal s 0 v).1 hv
        simp only
        by_cases hb : v < 2 ^ 8
        · rw [if_pos hb]
          simp only
          by_cases hm : v > max
          · rw [if_pos hm]
            simp only [reduceCtorEq, false_iff]
            rintro ⟨_, _, h3, h4⟩
            have : n = v := by rw [h3, h2]; rfl
            omega
          · rw [if_neg hm]
            simp only [Option.some.injEq]
            constructor
            · rintro rfl
              exact ⟨hs, h1, h2, by omega⟩
            · rintro ⟨_, _, h3, _⟩
              rw [h3, h2]; rfl
        · rw [if_neg hb]
          simp only [reduceCtorEq, false_iff]
          rintro ⟨_, _, h3, h4⟩
          have : n = v := by rw [h3, h2]; rfl
          have : (2 : Nat) ^ 8 = 256 := rfl
          omega
  exact ⟨key 32 (by omega), key 128 (by omega)⟩

example : parseMask4 (str! "24") = some 24 ∧ parseMask4 (str! "33") = none ∧ parseMask6 (str! "056") = some 56 ∧
    parseMask6 (str! "129") = none ∧ parseMask4 (str! "+8") = none := by decide +kernel

/-! ### C74 -/

/-- When an item of the bootstrap configuration is usable without looking anything up. -/
def UsableItem (parseIP : Str → Option IP) (item : BootItem) : Prop :=
  item.upstream ≠ {} ∧ ((∃ ip, parseIP item.upstream.host = some ip) ∨ (item.upstream.net ≠ .tcpUdp ∧ item.ips ≠ []))

theorem bootItem_ok (parseIP : Str → Option IP) (i : Nat) (item : BootItem) :
    (UsableItem parseIP item → ∃ ips, bootItem parseIP i item = .inl ips ∧ ips ≠ [] ∧
      ips = (parseIP item.upstream.host).toList ++ item.ips) ∧
    (¬ UsableItem parseIP item → ∃ e, bootItem parseIP i item = .inr e ∧
      (e = .notConfigured i ∨ e = .mustUseIP i ∨ e = .noIPs i)) := by
  unfold bootItem UsableItem UpstreamUrl.Upstream.isDefault
  by_cases hd : item.upstream = {}
  · simp [hd]
  · have : ¬ (item.upstream == {}) = true := by simpa using hd
    rw [if_neg this]
    cases hp : parseIP item.upstream.host with
    | some ip => simp [hd]
    | none =>
      by_cases hn : item.upstream.net = .tcpUdp
      · simp [hd, hn]
      · by_cases hi : item.ips = []
        · simp [hn, hi]
        · simp [hd, hn, hi]

theorem bootItems_spec (parseIP : Str → Option IP) (items : List BootItem) (i : Nat) :
    ((∀ item ∈ items, UsableItem parseIP item) →
      bootItems parseIP i items =
        (items.map (fun item => (item.upstream, (parseIP item.upstream.host).toList ++ item.ips)), [])) ∧
    (¬ (∀ item ∈ items, UsableItem parseIP item) → (bootItems parseIP i items).2 ≠ []) := by
  induction items generalizing i with
  | nil => simp [bootItems]
  | cons item items ih =>
    obtain ⟨ih1, ih2⟩ := ih (i + 1)
    rw [bootItems]
    constructor
    · intro h
      obtain ⟨ips, h1, _, h2⟩ := (bootItem_ok parseIP i item).1 (h item (by simp))
      rw [ih1 (fun x hx => h x (by simp [hx])), h1]
      simp only [List.map_cons, h2]
    · intro h
      by_cases hi : UsableItem parseIP item
      · obtain ⟨ips, h1, _⟩ := (bootItem_ok parseIP i item).1 hi
        have : ¬ ∀ item ∈ items, UsableItem parseIP item := by
          intro hall
          apply h
          intro x hx
          rcases List.mem_cons.1 hx with rfl | hx
          · exact hi
          · exact hall x hx
        rw [h1]
        exact ih2 this
      · obtain ⟨e, h1, _⟩ := (bootItem_ok parseIP i item).2 hi
        rw [h1]
        simp

/-- **C74.** A bootstrap configuration is accepted exactly if every item can be used without DNS: its host is
an address, or it is an encrypted upstream with addresses given. -/
theorem C74_accepted (parseIP : Str → Option IP) (items : List BootItem) :
    (∃ ok, bootstraped parseIP items = .inl ok) ↔ ∀ item ∈ items, UsableItem parseIP item := by
  obtain ⟨h1, h2⟩ := bootItems_spec parseIP items 1
  unfold bootstraped
  constructor
  · rintro ⟨ok, h⟩
    apply Classical.byContradiction
    intro hn
    have := h2 hn
    cases hb : bootItems parseIP 1 items with
    | mk a errs =>
      rw [hb] at this h
      cases errs with
      | nil => exact this rfl
      | cons e errs => exact nomatch h
  · intro h
    rw [h1 h]
    exact ⟨_, rfl⟩

/-- **C74, no lookups.** The addresses of every upstream of an accepted bootstrap configuration are known:
they are used without asking the system's resolver or the bootstrap resolver itself (the world is
unchanged), and there is at least one. -/
theorem C74_no_lookup {W : Type} (parseIP : Str → Option IP) (items : List BootItem)
    (ok : List (UpstreamUrl.Upstream × List IP)) (h : bootstraped parseIP items = .inl ok)
    (system : Str → W → (List IP ⊕ Upstream.UErr) × W) (ask : Option (Str → Nat → W → (Msg ⊕ Upstream.UErr) × W))
    (v : Upstream.IPVersion) (w : W) :
    ok.map Prod.fst = items.map BootItem.upstream ∧
    ∀ x ∈ ok, x.2 ≠ [] ∧ ∃ used, Upstream.upstreamIPs parseIP (some x.2) system ask v x.1.host w = (.inl used, w) ∧
      used ≠ [] ∧ ∀ ip ∈ used, ip ∈ x.2 := by
  have hall := (C74_accepted parseIP items).1 ⟨ok, h⟩
  have hb := (bootItems_spec parseIP items 1).1 hall
  have hok : ok = items.map (fun item => (item.upstream, (parseIP item.upstream.host).toList ++ item.ips)) := by
    unfold bootstraped at h
    rw [hb] at h
    simpa using h.symm
  rw [hok]
  refine ⟨by simp, ?_⟩
  intro x hx
  obtain ⟨item, hi, rfl⟩ := List.mem_map.1 hx
  have hne : (parseIP item.upstream.host).toList ++ item.ips ≠ [] := by
    rcases (hall item hi).2 with ⟨ip, hip⟩ | ⟨_, h⟩
    · simp [hip]
    · simp [h]
  refine ⟨hne, ?_⟩
  unfold Upstream.upstreamIPs
  cases hp : parseIP item.upstream.host with
  | some ip => exact ⟨[ip], rfl, by simp, by simp⟩
  | none =>
    refine ⟨item.ips, rfl, ?_, by simp⟩
    rw [hp] at hne
    simpa using hne

/-- A DNS-over-TLS server with a name and an address, and a plain one with an address. -/
example : bootstraped sampleParseIP [⟨⟨.tcpTls, str! "dns.example", 853, [], []⟩, [.v4 0x0a000002#32]⟩,
      ⟨⟨.tcpUdp, str! "10.0.0.1", 53, [], []⟩, []⟩] =
    .inl [(⟨.tcpTls, str! "dns.example", 853, [], []⟩, [.v4 0x0a000002#32]),
      (⟨.tcpUdp, str! "10.0.0.1", 53, [], []⟩, [.v4 0x0a000001#32])] ∧
    bootstraped sampleParseIP [⟨⟨.tcpTls, str! "dns.example", 853, [], []⟩, []⟩, ⟨{}, [.v4 1]⟩,
      ⟨⟨.tcpUdp, str! "dns.example", 53, [], []⟩, [.v4 1]⟩] = .inr [.noIPs 1, .notConfigured 2, .mustUseIP 3] := by
  decide +kernel

/-- **C74, errors.** One error is reported per unusable item, in order and with the position of the item. -/
theorem C74_errors (parseIP : Str → Option IP) (items : List BootItem) (errs : List BootErr)
    (h : bootstraped parseIP items = .inr errs) :
    ∃ bad : List Nat, bad.Pairwise (· < ·) ∧
      (∀ n, n ∈ bad ↔ ∃ k item, items[k]? = some item ∧ n = k + 1 ∧ ¬ UsableItem parseIP item) ∧
      Pointwise (fun n e => e = .notConfigured n ∨ e = .mustUseIP n ∨ e = .noIPs n) bad errs := by
  have key : ∀ (items : List BootItem) (i : Nat), ∃ bad : List Nat, bad.Pairwise (· < ·) ∧
      (∀ n, n ∈ bad ↔ ∃ k item, items[k]? = some item ∧ n = i + k ∧ ¬ UsableItem parseIP item) ∧
      Pointwise (fun n e => e = .notConfigured n ∨ e = .mustUseIP n ∨ e = .noIPs n) bad (bootItems parseIP i items).2 := by
    intro items
    induction items with
    | nil => intro i; exact ⟨[], .nil, by simp, .nil⟩
    | cons item items ih =>
      intro i
      obtain ⟨bad, hp, hb, hw⟩ := ih (i + 1)
      have hshift : ∀ n, (∃ k it, items[k]? = some it ∧ n = i + 1 + k ∧ ¬ UsableItem parseIP it) ↔
          (∃ k it, (item :: items)[k + 1]? = some it ∧ n = i + (k + 1) ∧ ¬ UsableItem parseIP it) := by
        intro n
        constructor
        · rintro ⟨k, it, h1, h2, h3⟩; exact ⟨k, it, by simpa using h1, by omega, h3⟩
        · rintro ⟨k, it, h1, h2, h3⟩; exact ⟨k, it, by simpa using h1, by omega, h3⟩
      rw [bootItems]
      by_cases hi : UsableItem parseIP item
      · obtain ⟨ips, h1, _⟩ := (bootItem_ok parseIP i item).1 hi
        rw [h1]
        refine ⟨bad, hp, ?_, hw⟩
        intro n
        rw [hb, hshift]
        constructor
        · rintro ⟨k, it, h⟩; exact ⟨k + 1, it, h⟩
        · rintro ⟨k, it, h1, h2, h3⟩
          cases k with
          | zero =>
            simp only [List.getElem?_cons_zero, Option.some.injEq] at h1
            rw [← h1] at h3
            exact absurd hi h3
          | succ k => exact ⟨k, it, h1, h2, h3⟩
      · obtain ⟨e, h1, he⟩ := (bootItem_ok parseIP i item).2 hi
        rw [h1]
        refine ⟨i :: bad, ?_, ?_, .cons he hw⟩
        · rw [List.pairwise_cons]
          refine ⟨?_, hp⟩
          intro n hn
          obtain ⟨k, it, _, h2, _⟩ := (hb n).1 hn
          omega
        · intro n
          rw [List.mem_cons, hb, hshift]
          constructor
          · rintro (rfl | ⟨k, it, h⟩)
            · exact ⟨0, item, by simp, by omega, hi⟩
            · exact ⟨k + 1, it, h⟩
          · rintro ⟨k, it, h1, h2, h3⟩
            cases k with
            | zero => left; omega
            | succ k => exact .inr ⟨k, it, h1, h2, h3⟩
  obtain ⟨bad, hp, hb, hw⟩ := key items 1
  refine ⟨bad, hp, ?_, ?_⟩
  · intro n
    rw [hb]
    constructor
    · rintro ⟨k, it, h1, h2, h3⟩; exact ⟨k, it, h1, by omega, h3⟩
    · rintro ⟨k, it, h1, h2, h3⟩; exact ⟨k, it, h1, by omega, h3⟩
  · unfold bootstraped at h
    cases hbi : bootItems parseIP 1 items with
    | mk a es =>
      rw [hbi] at h hw
      cases es with
      | nil => exact nomatch h
      | cons e es =>
        simp only [Sum.inr.injEq] at h
        rw [← h]; exact hw

/-- **C74: further addresses are ignored.** If the host of a bootstrap upstream is an address, the addresses
given beside it are accepted and never used. -/
theorem C74_further_addresses_false {W : Type} (system : Str → W → (List IP ⊕ Upstream.UErr) × W)
    (ask : Option (Str → Nat → W → (Msg ⊕ Upstream.UErr) × W)) (v : Upstream.IPVersion) (w : W) :
    ∃ item : BootItem, item.ips = [.v4 0x0a000002#32] ∧
      bootstraped sampleParseIP [item] = .inl [(item.upstream, [.v4 0x0a000001#32, .v4 0x0a000002#32])] ∧
      Upstream.upstreamIPs sampleParseIP (some [.v4 0x0a000001#32, .v4 0x0a000002#32]) system ask v item.upstream.host w =
        (.inl [.v4 0x0a000001#32], w) := by
  refine ⟨⟨⟨.tcpTls, str! "10.0.0.1", 853, [], []⟩, [.v4 0x0a000002#32]⟩, rfl, by decide +kernel, ?_⟩
  have : sampleParseIP (str! "10.0.0.1") = some (.v4 0x0a000001#32) := by decide +kernel
  simp [Upstream.upstreamIPs, this]

end Verif.Props
