/-
C79: the address at which the commands look for the API.
C80: which files make up the configuration.
-/
import Verif.Model.ConfigFiles
import Verif.Props.Http
import Verif.Base.Search

namespace Verif.Props
open ConfigFiles UpstreamUrl

/-! ### C79 -/

theorem portDigits_free (n : Nat) : ':' ∉ Nat.toDigits 10 n ∧ '[' ∉ Nat.toDigits 10 n ∧ ']' ∉ Nat.toDigits 10 n :=
  ⟨fun h => (toDigits_free n _ h).2.1 rfl, fun h => (toDigits_free n _ h).2.2.1 rfl,
    fun h => (toDigits_free n _ h).2.2.2.1 rfl⟩

theorem splitChar_last {s port : Str} (hp : ':' ∉ port) :
    (splitChar ':' (s ++ ':' :: port)).getLastD [] = port ∧
    joinChar ':' (splitChar ':' (s ++ ':' :: port)).dropLast = s := by
  have e : splitChar ':' (s ++ ':' :: port) = splitChar ':' s ++ [port] := by
    have h1 : joinChar ':' (splitChar ':' s ++ [port]) = s ++ ':' :: port := by
      have h2 : ∀ ps : List Str, ps ≠ [] → joinChar ':' (ps ++ [port]) = joinChar ':' ps ++ ':' :: port := by
        intro ps
        induction ps with
        | nil => intro h; exact absurd rfl h
        | cons p ps ih =>
          intro _
          cases ps with
          | nil => simp [joinChar]
          | cons q qs =>
            have := ih (by simp)
            simp only [List.cons_append, joinChar] at this ⊢
            rw [this]
            simp
      rw [h2 _ (splitChar_ne_nil ':' s), joinChar_splitChar]
    rw [← h1]
    apply Verif.splitChar_joinChar
    · simp
    · intro p hm
      rcases List.mem_append.1 hm with hm | hm
      · exact splitChar_no_sep ':' s p hm
      · simp only [List.mem_cons, List.not_mem_nil, or_false] at hm
        rw [hm]; exact hp
  rw [e]
  refine ⟨by simp, ?_⟩
  rw [List.dropLast_concat, joinChar_splitChar]

/-- What is taken from a listen address `s:port`. -/
theorem apiAddr_listen (flags : ApiAddr) (s : Str) (n : Nat) (hn : n < 65536) (rest : List Str) :
    apiAddr flags ((s ++ ':' :: Nat.toDigits 10 n) :: rest) = some ⟨s, n⟩ := by
  unfold apiAddr
  have h := splitChar_last (s := s) (portDigits_free n).1
  dsimp only
  rw [h.1, h.2, convertPort_toDigits n hn]

theorem splitHostPort_plain {s port : Str} (h1 : ':' ∉ s) (h2 : '[' ∉ s) (h3 : ']' ∉ s) (hp1 : ':' ∉ port)
    (hp2 : '[' ∉ port) (hp3 : ']' ∉ port) : splitHostPort (s ++ ':' :: port) = some (s, port) := by
  have := splitHostPort_peerText h2 h3 hp1 hp2 hp3
  unfold peerText at this
  rw [if_neg h1] at this
  simpa using this

theorem hostname_plain {s port : Str} (h2 : '[' ∉ s) (hp : ':' ∉ port) :
    hostname (s ++ ':' :: port) = (s, port) := by
  unfold hostname
  rw [cutLast_append _ _ hp]
  cases s with
  | nil => rfl
  | cons c s =>
    dsimp only
    split
    · rename_i rest heq
      cases heq
      exact absurd (List.mem_cons_self ..) h2
    · rfl

/-- C79: if the API listens on `host:port` (a name, an IPv4 address or nothing before the colon), the commands
connect to this host and port, whatever the flags say and whatever other listeners there are; without an HTTP
listener in the configuration they connect to what the flags say. -/
theorem C79_reaches (flags : ApiAddr) (host : Str) (port : Nat) (hport : port < 65536) (rest : List Str)
    (h1 : ':' ∉ host) (h2 : '[' ∉ host) (h3 : ']' ∉ host) :
    splitHostPort (host ++ ':' :: Nat.toDigits 10 port) = some (host, Nat.toDigits 10 port) ∧
    (∃ a, apiAddr flags ((host ++ ':' :: Nat.toDigits 10 port) :: rest) = some a ∧
      dialed (apiAuthority a) = some (host, Nat.toDigits 10 port)) ∧
    apiAddr flags [] = some flags := by
  have hp := portDigits_free port
  have hs := splitHostPort_plain h1 h2 h3 hp.1 hp.2.1 hp.2.2
  refine ⟨hs, ⟨⟨host, port⟩, apiAddr_listen flags host port hport rest, ?_⟩, rfl⟩
  unfold dialed apiAuthority
  have e : joinHostPort host (Nat.toDigits 10 port) = host ++ ':' :: Nat.toDigits 10 port := by
    unfold joinHostPort
    rw [if_neg h1]; simp
  dsimp only
  rw [e, hostname_plain h2 hp.1]
  dsimp only
  rw [e, hs]

/-- C79 with `--apiHost ::1`: an IPv6 address without brackets given by the flags is dialled. -/
theorem C79_flags (host : Str) (port : Nat) (h2 : '[' ∉ host) (h3 : ']' ∉ host) :
    ∃ a, apiAddr ⟨host, port⟩ [] = some a ∧ dialed (apiAuthority a) = some (host, Nat.toDigits 10 port) := by
  refine ⟨⟨host, port⟩, rfl, ?_⟩
  have hp := portDigits_free port
  have hs := splitHostPort_peerText h2 h3 hp.1 hp.2.1 hp.2.2
  have e : joinHostPort host (Nat.toDigits 10 port) = peerText host (Nat.toDigits 10 port) := by
    unfold joinHostPort peerText
    split <;> simp
  unfold dialed apiAuthority
  dsimp only
  have hh : hostname (peerText host (Nat.toDigits 10 port)) = (host, Nat.toDigits 10 port) := by
    unfold peerText
    by_cases hc : ':' ∈ host
    · rw [if_pos hc]
      unfold hostname
      have e2 : '[' :: (host ++ ']' :: ':' :: Nat.toDigits 10 port) = ('[' :: (host ++ [']'])) ++ ':' :: Nat.toDigits 10 port := by
        simp
      rw [e2, cutLast_append _ _ hp.1]
      simp only []
      rw [if_pos (by simp), List.dropLast_concat]
    · rw [if_neg hc]
      have := hostname_plain h2 hp.1
      simpa using this
  rw [e, hh]
  dsimp only
  rw [e, hs]

/-- C79 is false for IPv6 listeners: the server can listen on `[address]:port`, but the commands then build an
address with two pairs of brackets, to which nothing can be connected. -/
theorem C79_ipv6_false (flags : ApiAddr) (address : Str) (port : Nat) (hport : port < 65536) (rest : List Str)
    (h1 : ':' ∈ address) (h2 : '[' ∉ address) (h3 : ']' ∉ address) :
    splitHostPort (str! "[" ++ address ++ str! "]:" ++ Nat.toDigits 10 port) = some (address, Nat.toDigits 10 port) ∧
    ∃ a, apiAddr flags ((str! "[" ++ address ++ str! "]:" ++ Nat.toDigits 10 port) :: rest) = some a ∧
      apiAuthority a = str! "[[" ++ address ++ str! "]]:" ++ Nat.toDigits 10 port ∧
      dialed (apiAuthority a) = none := by
  have hp := portDigits_free port
  have hs := splitHostPort_peerText h2 h3 hp.1 hp.2.1 hp.2.2
  refine ⟨?_, ⟨str! "[" ++ address ++ str! "]", port⟩, ?_, ?_, ?_⟩
  · unfold peerText at hs
    rw [if_pos h1] at hs
    rw [← hs]; simp
  · have := apiAddr_listen flags (str! "[" ++ address ++ str! "]") port hport rest
    rw [← this]; simp
  · unfold apiAuthority joinHostPort
    dsimp only
    rw [if_pos (by simp [h1])]; simp
  · have hc : ':' ∈ '[' :: (address ++ [']']) := by simp [h1]
    have e : joinHostPort ('[' :: (address ++ [']'])) (Nat.toDigits 10 port) =
        ('[' :: '[' :: (address ++ [']', ']'])) ++ ':' :: Nat.toDigits 10 port := by
      unfold joinHostPort
      rw [if_pos hc]; simp
    have hh : hostname (('[' :: '[' :: (address ++ [']', ']'])) ++ ':' :: Nat.toDigits 10 port) =
        ('[' :: (address ++ [']']), Nat.toDigits 10 port) := by
      unfold hostname
      rw [cutLast_append _ _ hp.1]
      have e3 : '[' :: (address ++ [']', ']']) = ('[' :: (address ++ [']'])) ++ [']'] := by simp
      simp only []
      rw [e3, if_pos (List.getLast?_concat), List.dropLast_concat]
    unfold dialed apiAuthority
    have e0 : (str! "[" ++ address ++ str! "]") = '[' :: (address ++ [']']) := by simp
    dsimp only
    rw [e0, e, hh]
    dsimp only
    rw [e]
    unfold splitHostPort
    rw [cutLast_append _ _ hp.1]
    have e4 : '[' :: (address ++ [']', ']']) ++ ':' :: Nat.toDigits 10 port =
        ('[' :: address) ++ ']' :: (']' :: ':' :: Nat.toDigits 10 port) := by simp
    rw [show ('[' :: '[' :: (address ++ [']', ']'])) ++ ':' :: Nat.toDigits 10 port =
      '[' :: (('[' :: address) ++ ']' :: (']' :: ':' :: Nat.toDigits 10 port)) by simp]
    simp only []
    rw [cutFirst_append _ _ (by simp [h3])]
    simp only []
    rw [if_neg (by simp)]

/-- C79 is false for the flags: as soon as the configuration has an HTTP listener, `--apiHost` and `--apiPort` are
without effect. -/
theorem C79_flags_false (flags flags' : ApiAddr) (listen : Str) (rest : List Str) :
    apiAddr flags (listen :: rest) = apiAddr flags' (listen :: rest) := rfl

example : ∃ a, apiAddr ⟨str! "localhost", 4000⟩ [str! "192.168.1.2:8080", str! ":4000"] = some a ∧
    dialed (apiAuthority a) = some (str! "192.168.1.2", str! "8080") :=
  (C79_reaches ⟨str! "localhost", 4000⟩ (str! "192.168.1.2") 8080 (by decide) [str! ":4000"] (by decide) (by decide)
    (by decide)).2.1

example : ∃ a, apiAddr ⟨str! "localhost", 4000⟩ [str! "[::1]:4000"] = some a ∧ apiAuthority a = str! "[[::1]]:4000" ∧
    dialed (apiAuthority a) = none :=
  (C79_ipv6_false ⟨str! "localhost", 4000⟩ (str! "::1") 4000 (by decide) [] (by decide) (by decide) (by decide)).2

example : ∃ a, apiAddr ⟨str! "::1", 4000⟩ [] = some a ∧ dialed (apiAuthority a) = some (str! "::1", str! "4000") :=
  C79_flags (str! "::1") 4000 (by decide) (by decide)

/-! ### C80: specification -/

/-- `node` is found under this path below a directory. -/
inductive InDir : Nodes → List Str → Node → Prop
  | here (name : Str) (node : Node) (rest : Nodes) : InDir (.cons name node rest) [name] node
  | inside (name : Str) (entries rest : Nodes) (path : List Str) (node : Node) :
      InDir entries path node → InDir (.cons name (.dir entries) rest) (name :: path) node
  | there (name : Str) (first : Node) (rest : Nodes) (path : List Str) (node : Node) :
      InDir rest path node → InDir (.cons name first rest) path node

/-- The names in a directory. -/
def dirNames : Nodes → List Str
  | .nil => []
  | .cons name _ rest => name :: dirNames rest

/-- Every directory is listed in the order of the names (the contract of `os.ReadDir`). -/
inductive Listed : Nodes → Prop
  | nil : Listed .nil
  | cons (name : Str) (node : Node) (rest : Nodes) : (∀ m ∈ dirNames rest, strLt name m = true) →
      (∀ entries, node = .dir entries → Listed entries) → Listed rest → Listed (.cons name node rest)

/-- The last component of the path ends in `.yml` or `.yaml`. -/
def YamlPath (path : List Str) : Prop :=
  ∃ dirs stem, path = dirs ++ [stem ++ str! ".yml"] ∨ path = dirs ++ [stem ++ str! ".yaml"]

/-- Paths in the order of their components, first to last. -/
def PathLt : List Str → List Str → Prop := List.Lex (fun a b => strLt a b = true)

/-! ### Lemmas -/

theorem isYaml_iff (name : Str) : isYaml name = true ↔ (∃ stem, name = stem ++ str! ".yml") ∨ ∃ stem, name = stem ++ str! ".yaml" := by
  unfold isYaml
  rw [Bool.or_eq_true, List.isSuffixOf_iff_suffix, List.isSuffixOf_iff_suffix]
  unfold List.IsSuffix
  constructor
  · rintro (⟨t, ht⟩ | ⟨t, ht⟩)
    · exact .inl ⟨t, ht.symm⟩
    · exact .inr ⟨t, ht.symm⟩
  · rintro (⟨t, ht⟩ | ⟨t, ht⟩)
    · exact .inl ⟨t, ht.symm⟩
    · exact .inr ⟨t, ht.symm⟩

theorem yamlPath_single (name : Str) : YamlPath [name] ↔ isYaml name = true := by
  rw [isYaml_iff]
  unfold YamlPath
  constructor
  · rintro ⟨dirs, stem, h | h⟩
    · cases dirs with
      | nil => simp only [List.nil_append, List.cons.injEq, and_true] at h; exact .inl ⟨stem, h⟩
      | cons d ds => have := congrArg List.length h; simp at this
    · cases dirs with
      | nil => simp only [List.nil_append, List.cons.injEq, and_true] at h; exact .inr ⟨stem, h⟩
      | cons d ds => have := congrArg List.length h; simp at this
  · rintro (⟨stem, h⟩ | ⟨stem, h⟩)
    · exact ⟨[], stem, .inl (by rw [h]; rfl)⟩
    · exact ⟨[], stem, .inr (by rw [h]; rfl)⟩

theorem yamlPath_cons (name : Str) (path : List Str) (hne : path ≠ []) : YamlPath (name :: path) ↔ YamlPath path := by
  unfold YamlPath
  constructor
  · rintro ⟨dirs, stem, h⟩
    cases dirs with
    | nil =>
      rcases h with h | h <;> simp only [List.nil_append, List.cons.injEq] at h <;> exact absurd h.2 hne
    | cons d ds =>
      simp only [List.cons_append, List.cons.injEq] at h
      rcases h with h | h
      · exact ⟨ds, stem, .inl h.2⟩
      · exact ⟨ds, stem, .inr h.2⟩
  · rintro ⟨dirs, stem, h | h⟩
    · exact ⟨name :: dirs, stem, .inl (by rw [h]; rfl)⟩
    · exact ⟨name :: dirs, stem, .inr (by rw [h]; rfl)⟩

theorem InDir.ne_nil {es : Nodes} {p : List Str} {x : Node} (h : InDir es p x) : p ≠ [] := by
  induction h with
  | here => simp
  | inside => simp
  | there => assumption

theorem InDir.head {es : Nodes} {p : List Str} {x : Node} (h : InDir es p x) : ∃ n ∈ dirNames es, ∃ q, p = n :: q := by
  induction h with
  | here n => exact ⟨n, by simp [dirNames], [], rfl⟩
  | inside n es rest p x h ih => exact ⟨n, by simp [dirNames], p, rfl⟩
  | there n f rest p x h ih =>
    obtain ⟨m, hm, q, hq⟩ := ih
    exact ⟨m, by simp [dirNames, hm], q, hq⟩

theorem inDir_cons (name : Str) (node : Node) (rest : Nodes) (p : List Str) (x : Node) :
    InDir (.cons name node rest) p x ↔
      (p = [name] ∧ x = node) ∨ (∃ entries q, node = .dir entries ∧ p = name :: q ∧ InDir entries q x) ∨ InDir rest p x := by
  constructor
  · intro h
    cases h with
    | here => exact .inl ⟨rfl, rfl⟩
    | inside _ es _ q _ h => exact .inr (.inl ⟨es, q, rfl, rfl, h⟩)
    | there _ _ _ _ _ h => exact .inr (.inr h)
  · rintro (⟨rfl, rfl⟩ | ⟨es, q, rfl, rfl, h⟩ | h)
    · exact .here _ _ _
    · exact .inside _ _ _ _ _ h
    · exact .there _ _ _ _ _ h

/-- The reading fails at this entry. -/
def BadEntry (p : List Str) (x : Node) : Prop := x = .locked ∨ ((x = .file none ∨ x = .broken) ∧ YamlPath p)

/-- The text of a list of files. -/
def filesText (files : List (List Str × Str)) : Str := (files.map (fun f => '\n' :: f.2)).flatten

/-- What is known of the reading of a directory. -/
def ReadSpec (es : Nodes) : Prop :=
  ∀ data, (readNodes es data = none ∧ ∃ p x, InDir es p x ∧ BadEntry p x) ∨
    (∃ files, readNodes es data = some (data ++ filesText files) ∧ (∀ p x, InDir es p x → ¬ BadEntry p x) ∧
      (∀ p c, (p, c) ∈ files ↔ InDir es p (.file (some c)) ∧ YamlPath p) ∧
      (Listed es → files.Pairwise (fun a b => PathLt a.1 b.1)))

/-- The same for one entry. -/
def ReadSpecNode (name : Str) (node : Node) : Prop :=
  ∀ data, (readNode name node data = none ∧ ((BadEntry [name] node) ∨
      ∃ entries p x, node = .dir entries ∧ InDir entries p x ∧ BadEntry (name :: p) x)) ∨
    (∃ files, readNode name node data = some (data ++ filesText files) ∧
      ¬ BadEntry [name] node ∧
      (∀ entries p x, node = .dir entries → InDir entries p x → ¬ BadEntry (name :: p) x) ∧
      (∀ p c, (p, c) ∈ files ↔ (p = [name] ∧ node = .file (some c) ∧ YamlPath p) ∨
        ∃ entries q, node = .dir entries ∧ p = name :: q ∧ InDir entries q (.file (some c)) ∧ YamlPath p) ∧
      ((∀ entries, node = .dir entries → Listed entries) → files.Pairwise (fun a b => PathLt a.1 b.1)))

theorem badEntry_cons (name : Str) (p : List Str) (x : Node) (hne : p ≠ []) : BadEntry (name :: p) x ↔ BadEntry p x := by
  unfold BadEntry
  rw [yamlPath_cons name p hne]

theorem readSpecNode_leaf (name : Str) (node : Node) (hd : ∀ entries, node ≠ .dir entries) : ReadSpecNode name node := by
  intro data
  cases node with
  | dir es => exact absurd rfl (hd es)
  | file content =>
    by_cases hy : isYaml name = true
    · cases content with
      | none =>
        left
        refine ⟨by simp [readNode, hy], .inl (.inr ⟨.inl rfl, (yamlPath_single name).2 hy⟩)⟩
      | some c =>
        right
        refine ⟨[([name], c)], by simp [readNode, hy, filesText], ?_, by simp, ?_, by simp⟩
        · simp [BadEntry]
        · intro p c'
          simp only [List.mem_cons, List.not_mem_nil, or_false, Prod.mk.injEq, Node.file.injEq, Option.some.injEq, reduceCtorEq,
            false_and, exists_false]
          constructor
          · rintro ⟨rfl, rfl⟩; exact ⟨rfl, rfl, (yamlPath_single name).2 hy⟩
          · rintro ⟨rfl, rfl, _⟩; exact ⟨rfl, rfl⟩
    · right
      refine ⟨[], by cases content <;> simp [readNode, hy, filesText], ?_, by simp, ?_, by simp⟩
      · simp [BadEntry, yamlPath_single, hy]
      · intro p c'
        simp only [List.not_mem_nil, false_iff]
        rintro (⟨rfl, _, h⟩ | ⟨_, _, h, _⟩)
        · exact hy ((yamlPath_single name).1 h)
        · cases h
  | special =>
    right
    refine ⟨[], by simp [readNode, filesText], by simp [BadEntry], by simp, ?_, by simp⟩
    intro p c; simp
  | broken =>
    by_cases hy : isYaml name = true
    · left
      refine ⟨by simp [readNode, hy], .inl (.inr ⟨.inr rfl, (yamlPath_single name).2 hy⟩)⟩
    · right
      refine ⟨[], by simp [readNode, hy, filesText], ?_, by simp, ?_, by simp⟩
      · simp [BadEntry, yamlPath_single, hy]
      · intro p c; simp
  | locked =>
    left
    exact ⟨by simp [readNode], .inl (.inl rfl)⟩

theorem readSpecNode_dir (name : Str) (es : Nodes) (h : ReadSpec es) : ReadSpecNode name (.dir es) := by
  intro data
  rcases h data with ⟨h1, p, x, h2, h3⟩ | ⟨files, h1, h2, h3, h4⟩
  · left
    refine ⟨by simpa [readNode] using h1, .inr ⟨es, p, x, rfl, h2, (badEntry_cons _ _ _ h2.ne_nil).2 h3⟩⟩
  · right
    refine ⟨files.map (fun f => (name :: f.1, f.2)), ?_, by simp [BadEntry], ?_, ?_, ?_⟩
    · have : filesText (files.map (fun f => (name :: f.1, f.2))) = filesText files := by
        unfold filesText
        rw [List.map_map]
        rfl
      rw [this]
      simpa [readNode] using h1
    · intro entries p x he hi hb
      cases he
      exact h2 p x hi ((badEntry_cons _ _ _ hi.ne_nil).1 hb)
    · intro p c
      rw [List.mem_map]
      constructor
      · rintro ⟨⟨q, c'⟩, hm, he⟩
        simp only [Prod.mk.injEq] at he
        obtain ⟨rfl, rfl⟩ := he
        have := (h3 q c').1 hm
        exact .inr ⟨es, q, rfl, rfl, this.1, (yamlPath_cons _ _ this.1.ne_nil).2 this.2⟩
      · rintro (⟨_, h, _⟩ | ⟨entries, q, he, rfl, hi, hy⟩)
        · cases h
        · cases he
          exact ⟨(q, c), (h3 q c).2 ⟨hi, (yamlPath_cons _ _ hi.ne_nil).1 hy⟩, rfl⟩
    · intro hl
      rw [List.pairwise_map]
      exact (h4 (hl es rfl)).imp (fun h => List.Lex.cons h)

theorem readSpec_nil : ReadSpec .nil := by
  intro data
  right
  refine ⟨[], by simp [readNodes, filesText], ?_, ?_, by simp⟩
  · intro p x h; cases h
  · intro p c
    simp only [List.not_mem_nil, false_iff]
    rintro ⟨h, _⟩; cases h

theorem readSpec_cons (name : Str) (node : Node) (rest : Nodes) (hn : ReadSpecNode name node) (hr : ReadSpec rest) :
    ReadSpec (.cons name node rest) := by
  intro data
  rcases hn data with ⟨h1, h2⟩ | ⟨files, h1, h2, h2', h3, h4⟩
  · left
    refine ⟨by simp [readNodes, h1], ?_⟩
    rcases h2 with h2 | ⟨es, p, x, rfl, hi, hb⟩
    · exact ⟨[name], node, .here _ _ _, h2⟩
    · exact ⟨name :: p, x, .inside _ _ _ _ _ hi, hb⟩
  · rcases hr (data ++ filesText files) with ⟨g1, p, x, g2, g3⟩ | ⟨more, g1, g2, g3, g4⟩
    · left
      exact ⟨by simp [readNodes, h1, g1], p, x, .there _ _ _ _ _ g2, g3⟩
    · right
      refine ⟨files ++ more, ?_, ?_, ?_, ?_⟩
      · simp only [readNodes, h1, g1]
        unfold filesText
        rw [List.map_append, List.flatten_append, List.append_assoc]
      · intro p x hi hb
        rcases (inDir_cons name node rest p x).1 hi with ⟨rfl, rfl⟩ | ⟨es, q, rfl, rfl, hi'⟩ | hi
        · exact h2 hb
        · exact h2' es q x rfl hi' hb
        · exact g2 p x hi hb
      · intro p c
        rw [List.mem_append, h3, g3, inDir_cons]
        constructor
        · rintro ((⟨hp, hx, hy⟩ | ⟨es, q, he, hp, hi, hy⟩) | ⟨hi, hy⟩)
          · exact ⟨.inl ⟨hp, hx.symm⟩, hy⟩
          · exact ⟨.inr (.inl ⟨es, q, he, hp, hi⟩), hy⟩
          · exact ⟨.inr (.inr hi), hy⟩
        · rintro ⟨⟨hp, hx⟩ | ⟨es, q, he, hp, hi⟩ | hi, hy⟩
          · exact .inl (.inl ⟨hp, hx.symm, hy⟩)
          · exact .inl (.inr ⟨es, q, he, hp, hi, hy⟩)
          · exact .inr ⟨hi, hy⟩
      · intro hl
        cases hl with
        | cons _ _ _ hlt hd hrest =>
        rw [List.pairwise_append]
        refine ⟨h4 hd, g4 hrest, ?_⟩
        intro a ha b hb
        have hb' := ((g3 b.1 b.2).1 hb).1.head
        obtain ⟨m, hm, q, hq⟩ := hb'
        have ha' : ∃ q', a.1 = name :: q' := by
          rcases (h3 a.1 a.2).1 ha with ⟨hp, _⟩ | ⟨_, q', _, hp, _⟩
          · exact ⟨[], hp⟩
          · exact ⟨q', hp⟩
        obtain ⟨q', hq'⟩ := ha'
        rw [hq, hq']
        exact List.Lex.rel (hlt m hm)

mutual
theorem readSpec_all (es : Nodes) : ReadSpec es :=
  match es with
  | .nil => readSpec_nil
  | .cons name node rest => readSpec_cons name node rest (readSpecNode_all name node) (readSpec_all rest)
theorem readSpecNode_all (name : Str) (node : Node) : ReadSpecNode name node :=
  match node with
  | .file content => readSpecNode_leaf name (.file content) (fun _ h => nomatch h)
  | .special => readSpecNode_leaf name .special (fun _ h => nomatch h)
  | .broken => readSpecNode_leaf name .broken (fun _ h => nomatch h)
  | .locked => readSpecNode_leaf name .locked (fun _ h => nomatch h)
  | .dir es => readSpecNode_dir name es (readSpec_all es)
end

/-! ### C80 -/

/-- C80: a configuration directory is read completely or refused. If it is read, the text decoded consists of
all YAML files in it and in its subdirectories, each once and on a line of its own, in the order of their
paths, and of nothing else. It is refused exactly if a YAML file cannot be read or a directory not be listed. -/
theorem C80_directory {C : Type} (d : Decoder C) (mandatory : Bool) (es : Nodes) (hl : Listed es) :
    (∃ files : List (List Str × Str),
      load d mandatory (.dir es) = d.decode (files.map (fun f => '\n' :: f.2)).flatten ∧
      (∀ p c, (p, c) ∈ files ↔ InDir es p (.file (some c)) ∧ YamlPath p) ∧
      files.Pairwise (fun a b => PathLt a.1 b.1) ∧
      ¬ ∃ p x, InDir es p x ∧ (x = .locked ∨ ((x = .file none ∨ x = .broken) ∧ YamlPath p))) ∨
    (load d mandatory (.dir es) = none ∧
      ∃ p x, InDir es p x ∧ (x = .locked ∨ ((x = .file none ∨ x = .broken) ∧ YamlPath p))) := by
  rcases readSpec_all es [] with ⟨h1, h2⟩ | ⟨files, h1, h2, h3, h4⟩
  · right
    refine ⟨by simp [load, readFromDir, h1], h2⟩
  · left
    refine ⟨files, ?_, h3, h4 hl, fun ⟨p, x, hi, hb⟩ => h2 p x hi hb⟩
    simp [load, readFromDir, h1, filesText]

/-- C80: a single file is decoded as it is; a missing one is an error for the server and means the defaults for
the other commands. -/
theorem C80_file {C : Type} (d : Decoder C) (mandatory : Bool) (text : Str) :
    load d mandatory (.file (some text)) = d.decode text ∧
    load d mandatory (.file none) = none ∧
    load d true .missing = none ∧ load d false .missing = some d.defaults := ⟨rfl, rfl, rfl, rfl⟩

/-- C80: the path given is used unless it is the default; then `BLOCKY_CONFIG_FILE` has precedence over
`CONFIG_FILE`, and both over the default. -/
theorem C80_path (env : Env) (path : Str) :
    (path ≠ str! "./config.yml" → pathUsed env path = path) ∧
    (∀ v, env.current = some v → pathUsed env (str! "./config.yml") = v) ∧
    (∀ v, env.current = none → env.old = some v → pathUsed env (str! "./config.yml") = v) ∧
    (env.current = none → env.old = none → pathUsed env path = path) := by
  have hd : (str! "./config.yml") = defaultConfigPath := rfl
  rw [hd]
  unfold pathUsed
  refine ⟨fun h => if_neg h, fun v h => by simp [h], fun v h1 h2 => by simp [h1, h2], fun h1 h2 => by simp [h1, h2]⟩

/-- C80: `blocky validate` accepts exactly the configurations the server loads, as long as the path is given
on the command line or no environment variable is set. -/
theorem C80_validate_partial {C : Type} (d : Decoder C) (fs : Str → Root) (env : Env) (path : Str) (flags : ApiAddr)
    (h : path ≠ str! "./config.yml" ∨ (env.current = none ∧ env.old = none)) :
    validate d fs env path flags = true ↔ ∃ cfg, serveConfig d fs env path flags = some cfg := by
  have hp : pathUsed env path = path := by
    rcases h with h | ⟨h1, h2⟩
    · exact (C80_path env path).1 h
    · exact (C80_path env path).2.2.2 h1 h2
  unfold validate serveConfig initConfig
  rw [hp]
  cases hr : fs path with
  | missing =>
    simp only [load]
    cases ha : apiAddr flags (d.http d.defaults) <;> simp [ha, hr, load]
  | denied => simp [load]
  | file content =>
    cases content with
    | none => simp [load]
    | some text =>
      simp only [load]
      cases hc : d.decode text with
      | none => simp
      | some cfg => cases ha : apiAddr flags (d.http cfg) <;> simp [ha, hr, load, hc]
  | dir es =>
    simp only [load]
    cases ht : readFromDir (.dir es) with
    | none => simp
    | some text =>
      cases hc : d.decode text with
      | none => simp [hc]
      | some cfg => cases ha : apiAddr flags (d.http cfg) <;> simp [ha, hc, hr, load, ht]
  | linkToDir es =>
    simp only [load]
    cases ht : readFromDir (.linkToDir es) with
    | none => simp
    | some text =>
      cases hc : d.decode text with
      | none => simp [hc]
      | some cfg => cases ha : apiAddr flags (d.http cfg) <;> simp [ha, hc, hr, load, ht]

/-- C80 is false for a configuration directory given as a symbolic link: none of its files is read. -/
theorem C80_link_false {C : Type} (d : Decoder C) (mandatory : Bool) (es : Nodes) :
    load d mandatory (.linkToDir es) = d.decode [] := rfl

/-- A decoder for the examples: the configuration is the text itself; keys (lines) must not be repeated. -/
def lineDecoder : Decoder Str where
  decode text := if ((splitChar '\n' text).filter (fun l => l ≠ [])).Nodup then some text else none
  defaults := []
  http := fun _ => []

/-- A directory with one file and one more in a subdirectory. -/
def sampleDir : Nodes :=
  .cons (str! "a.yml") (.file (some (str! "log: info")))
    (.cons (str! "sub") (.dir (.cons (str! "b.yaml") (.file (some (str! "ports: 53"))) (.cons (str! "readme") (.file none) .nil)))
      .nil)

theorem sampleDir_listed : Listed sampleDir := by
  refine .cons _ _ _ ?_ (fun _ h => nomatch h) (.cons _ _ _ ?_ ?_ .nil)
  · decide
  · decide
  · intro es h
    cases h
    exact .cons _ _ _ (by decide) (fun _ h => nomatch h) (.cons _ _ _ (by decide) (fun _ h => nomatch h) .nil)

example : load lineDecoder true (.dir sampleDir) = some (str! "\nlog: info\nports: 53") := by decide +kernel

example : ∃ files : List (List Str × Str),
    load lineDecoder true (.dir sampleDir) = lineDecoder.decode (files.map (fun f => '\n' :: f.2)).flatten := by
  rcases C80_directory lineDecoder true sampleDir sampleDir_listed with ⟨files, h, _⟩ | ⟨h, _⟩
  · exact ⟨files, h⟩
  · exact absurd h (by decide +kernel)

example : load lineDecoder true (.linkToDir sampleDir) = some [] := C80_link_false lineDecoder true sampleDir

/-- A volume made from a Kubernetes ConfigMap: the file is in a directory with a time stamp, `..data` is a link to
it, and the name of the file is a link to the file below `..data`. -/
def configMapDir (text : Str) : Nodes :=
  .cons (str! "..2024_05_01_10_00_00.1") (.dir (.cons (str! "config.yml") (.file (some text)) .nil))
    (.cons (str! "..data") .special (.cons (str! "config.yml") (.file (some text)) .nil))

/-- C80 is false where a file appears twice below the directory, once by a link: the text is decoded twice over,
so that every key is a duplicate. -/
theorem C80_twice_false {C : Type} (d : Decoder C) (mandatory : Bool) (text : Str) :
    load d mandatory (.dir (configMapDir text)) = d.decode (str! "\n" ++ text ++ str! "\n" ++ text) := by
  have h : readFromDir (.dir (configMapDir text)) = some (str! "\n" ++ text ++ str! "\n" ++ text) := by
    unfold readFromDir configMapDir
    have hy : isYaml (str! "config.yml") = true := by decide
    simp only [readNodes, readNode, hy, if_true]
    simp
  simp only [load]
  rw [h]

example : load lineDecoder true (.dir (configMapDir (str! "ports: 53"))) = none ∧
    load lineDecoder true (.file (some (str! "ports: 53"))) = some (str! "ports: 53") := by
  refine ⟨?_, by decide +kernel⟩
  rw [C80_twice_false]
  decide +kernel

/-- Something is written on the line: it is not blank, not a comment and not the start of a document. -/
def contentLine (line : Str) : Bool :=
  match line.dropWhile (· == ' ') with
  | [] => false
  | c :: _ => c != '#' && line != str! "---"

/-- C80 is false for files that begin with `---`, the start of a document in YAML: only the first document of the text is decoded
(`hd`; yaml.v2 `unmarshal` parses one document), so every file after the first is dropped without a word, whatever is in it. -/
theorem C80_documents_false {C : Type} (d : Decoder C)
    (hd : ∀ t u, (∃ line ∈ splitChar '\n' t, contentLine line = true) → d.decode (t ++ str! "\n---\n" ++ u) = d.decode t)
    (mandatory : Bool) (a b : Str) (ha : ∃ line ∈ splitChar '\n' a, contentLine line = true) :
    load d mandatory (.dir (.cons (str! "a.yml") (.file (some a)) (.cons (str! "b.yml") (.file (some (str! "---\n" ++ b))) .nil))) =
    load d mandatory (.dir (.cons (str! "a.yml") (.file (some a)) .nil)) := by
  have h1 : readFromDir (.dir (.cons (str! "a.yml") (.file (some a)) (.cons (str! "b.yml") (.file (some (str! "---\n" ++ b))) .nil))) =
      some (('\n' :: a) ++ str! "\n---\n" ++ b) := by
    unfold readFromDir
    have hy : isYaml (str! "a.yml") = true := by decide
    have hy2 : isYaml (str! "b.yml") = true := by decide
    simp only [readNodes, readNode, hy, hy2, if_true]
    simp
  have h2 : readFromDir (.dir (.cons (str! "a.yml") (.file (some a)) .nil)) = some ('\n' :: a) := by
    unfold readFromDir
    have hy : isYaml (str! "a.yml") = true := by decide
    simp only [readNodes, readNode, hy, if_true]
    simp
  simp only [load]
  rw [h1, h2]
  apply hd
  obtain ⟨line, hm, hl⟩ := ha
  exact ⟨line, by simp [splitChar, hm], hl⟩

/-- A decoder that reads the lines of the first document. -/
def firstDocument : Bool → List Str → List Str
  | _, [] => []
  | started, line :: rest => if started && line == str! "---" then [] else line :: firstDocument (started || contentLine line) rest

theorem firstDocument_append {A : List Str} (B : List Str) {started : Bool} (h : started = true ∨ ∃ line ∈ A, contentLine line = true) :
    firstDocument started (A ++ str! "---" :: B) = firstDocument started A := by
  induction A generalizing started with
  | nil =>
    rcases h with h | ⟨_, h, _⟩
    · simp [firstDocument, h]
    · cases h
  | cons x A ih =>
    simp only [List.cons_append, firstDocument]
    split
    · rfl
    · congr 1
      apply ih
      rcases h with h | ⟨line, hm, hl⟩
      · left; simp [h]
      · rcases List.mem_cons.1 hm with rfl | hm
        · left; simp [hl]
        · exact .inr ⟨line, hm, hl⟩

/-- Splitting at a separator. -/
theorem splitChar_around (sep : Char) (t u : Str) : splitChar sep (t ++ sep :: u) = splitChar sep t ++ splitChar sep u := by
  induction t with
  | nil => simp [splitChar]
  | cons c t ih =>
    simp only [List.cons_append, splitChar]
    split
    · rw [ih]; rfl
    · rw [ih]
      cases h : splitChar sep t with
      | nil => exact absurd h (splitChar_ne_nil sep t)
      | cons p ps => simp

/-- The decoder. -/
def documentDecoder : Decoder (List Str) := ⟨fun text => some (firstDocument false (splitChar '\n' text)), [], fun _ => []⟩

-- The second file blocks; the server runs without it.
example : load documentDecoder true (.dir (.cons (str! "a.yml") (.file (some (str! "ports:\n  dns: 53")))
      (.cons (str! "b.yml") (.file (some (str! "---\nblocking:\n  blockType: nxDomain"))) .nil))) =
    some [[], str! "ports:", str! "  dns: 53"] := by
  have := C80_documents_false documentDecoder (fun t u h => by
    simp only [documentDecoder]
    congr 1
    rw [show t ++ str! "\n---\n" ++ u = t ++ '\n' :: (str! "---" ++ '\n' :: u) by simp, splitChar_around, splitChar_around]
    exact firstDocument_append _ (.inr h)) true (str! "ports:\n  dns: 53") (str! "blocking:\n  blockType: nxDomain")
    (by decide +kernel)
  rw [show (str! "---\nblocking:\n  blockType: nxDomain") = str! "---\n" ++ str! "blocking:\n  blockType: nxDomain" from rfl, this]
  decide +kernel

/-- The file system of the next example: only one of the two files is there. -/
def oneFile (present : Str) (path : Str) : Root := if path = present then .file (some (str! "ports: 53")) else .missing

/-- C80 is false with an environment variable: `blocky validate` looks whether the default path exists, and then
accepts a path that does not. So it can refuse what the server loads and accept what the server refuses. -/
theorem C80_validate_false :
    (validate lineDecoder (oneFile (str! "/etc/blocky.yml")) ⟨some (str! "/etc/blocky.yml"), none⟩ defaultConfigPath ⟨[], 0⟩ = false ∧
      ∃ cfg, serveConfig lineDecoder (oneFile (str! "/etc/blocky.yml")) ⟨some (str! "/etc/blocky.yml"), none⟩ defaultConfigPath
        ⟨[], 0⟩ = some cfg) ∧
    (validate lineDecoder (oneFile defaultConfigPath) ⟨some (str! "/etc/blocky.yml"), none⟩ defaultConfigPath ⟨[], 0⟩ = true ∧
      serveConfig lineDecoder (oneFile defaultConfigPath) ⟨some (str! "/etc/blocky.yml"), none⟩ defaultConfigPath ⟨[], 0⟩ = none) := by
  refine ⟨⟨by decide +kernel, str! "ports: 53", by decide +kernel⟩, by decide +kernel, by decide +kernel⟩

/-- C80 is false for `--config ./config.yml`: given on the command line it is taken for the default, and the
environment wins. -/
theorem C80_explicit_false (v : Str) (old : Option Str) : pathUsed ⟨some v, old⟩ (str! "./config.yml") = v :=
  (C80_path ⟨some v, old⟩ []).2.1 v rfl

example : pathUsed ⟨some (str! "/a.yml"), some (str! "/b.yml")⟩ (str! "./config.yml") = str! "/a.yml" :=
  (C80_path _ []).2.1 _ rfl

example : validate lineDecoder (oneFile (str! "/x.yml")) ⟨none, some (str! "/b.yml")⟩ (str! "/x.yml") ⟨[], 0⟩ = true ↔
    ∃ cfg, serveConfig lineDecoder (oneFile (str! "/x.yml")) ⟨none, some (str! "/b.yml")⟩ (str! "/x.yml") ⟨[], 0⟩ = some cfg :=
  C80_validate_partial lineDecoder _ _ _ _ (.inl (by decide))

end Verif.Props
