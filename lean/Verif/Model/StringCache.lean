/-
Model of /repo/cache/stringcache: string, wildcard and regex caches, grouped and chained caches.
Debug logging is left out.
-/
import Verif.Base.Search
import Verif.Base.AMap
import Verif.Model.Trie

namespace Verif.StringCache

/-! ### stringMap (string_caches.go 23-129) -/

/-- string_caches.go 25-27 `normalizeEntry`. -/
def normalizeEntry (entry : Str) : Str := lower entry

/-- string_caches.go 23 `stringMap`: length ↦ concatenation of the sorted entries of that length. -/
abbrev StringMap := AMap Nat Str

/-- string_caches.go 29-37 `elementCount`: sum of `len(v) / k`. -/
def StringMap.elementCount (m : StringMap) : Nat :=
  (m.map (fun (k, v) => v.length / k)).sum

/-- string_caches.go 49/53: the slice `v[i*n : i*n+n]`. -/
def slice (v : Str) (n i : Nat) : Str := (v.drop (i * n)).take n

/-- Go map read with zero value: `cache[searchLen]` is `""` when the key is absent. -/
def StringMap.at (m : StringMap) (n : Nat) : Str :=
  match m.get n with
  | some v => v
  | none => []

/-- string_caches.go 39-62 `contains`. -/
def StringMap.contains (m : StringMap) (searchString : Str) : Bool :=
  let normalized := normalizeEntry searchString
  let n := normalized.length
  if n = 0 then false
  else
    let bucketLen := (m.at n).length / n
    let idx := sortSearch bucketLen (fun i => !strLt (slice (m.at n) n i) normalized)
    if idx < bucketLen then slice (m.at n) n idx == normalized else false

/-- string_caches.go 64-68 `stringCacheFactory`. -/
structure StringFactory where
  tmp : AMap Nat (List Str) := []
  cnt : Nat := 0

/-- string_caches.go 92: predicate `bucket[i] >= normalized` (`i < len(bucket)` always holds when
`sort.SearchStrings` evaluates it; beyond the end the value is irrelevant). -/
def geAt (bucket : List Str) (x : Str) (i : Nat) : Bool :=
  match bucket[i]? with
  | some b => !strLt b x
  | none => true

/-- string_caches.go 76-82 `getBucket`: a missing bucket reads as empty (its creation is the `put`
in `insertString`). -/
def StringFactory.getBucket (f : StringFactory) (n : Nat) : List Str :=
  match f.tmp.get n with
  | some b => b
  | none => []

/-- string_caches.go 88-105 `insertString`: binary search for the position,
insert there unless present (`append`, `copy`, assignment = `take ++ [x] ++ drop`). -/
def StringFactory.insertString (f : StringFactory) (entry : Str) : StringFactory :=
  let normalized := normalizeEntry entry
  let n := normalized.length
  let bucket := f.getBucket n
  let ix := sortSearch bucket.length (geAt bucket normalized)
  if bucket[ix]? = some normalized then { f with tmp := f.tmp.put n bucket }
  else { f with tmp := f.tmp.put n (bucket.take ix ++ normalized :: bucket.drop ix) }

/-- string_caches.go 107-116 `addEntry`; the result is "handled". -/
def StringFactory.addEntry (f : StringFactory) (entry : Str) : StringFactory × Bool :=
  if entry = [] then (f, true)
  else ({ f with cnt := f.cnt + 1 }.insertString entry, true)

/-- string_caches.go 118-129 `create`: `nil` for an empty factory. -/
def StringFactory.create (f : StringFactory) : Option StringMap :=
  if f.tmp = [] then none else some (f.tmp.map (fun (k, v) => (k, v.flatten)))

/-! ### regexCache (string_caches.go 131-189) -/

/-- Go's `regexp` package as a parameter: compiling (may fail) and matching. -/
structure RegexEngine where
  Regex : Type
  compile : Str → Option Regex
  isMatch : Regex → Str → Bool

/-- Result of adding an entry: new factory and "handled", or a run-time panic. -/
inductive Add (F : Type) where
  | ok (f : F) (handled : Bool)
  | panic

variable (E : RegexEngine)

/-- string_caches.go 137-147 `regexCache.contains`. -/
def regexContains (cache : List E.Regex) (s : Str) : Bool := cache.any (fun r => E.isMatch r s)

/-- string_caches.go 153-171 `regexCacheFactory.addEntry`.  `entry[1 : len(entry)-1]` panics when
the entry is the single byte `/` (slice bounds 1 > 0). -/
def regexAddEntry (cache : List E.Regex) (entry : Str) : Add (List E.Regex) :=
  if entry.head? ≠ some '/' ∨ entry.getLast? ≠ some '/' then .ok cache false
  else if entry.length < 2 then .panic
  else
    match E.compile (trimSpace ((entry.drop 1).take (entry.length - 2))) with
    | none => .ok cache true
    | some r => .ok (cache ++ [r]) true

/-! ### wildcardCache (string_caches.go 191-255) -/

/-- string_caches.go 204-207 `wildcardCacheFactory`, also 191-194 `wildcardCache`. -/
structure WildcardFactory where
  trie : Trie.Children := []
  cnt : Nat := 0

/-- string_caches.go 248-255 `normalizeWildcard`. -/
def normalizeWildcard (domain : Str) : Str :=
  lower (trimDots ((lower domain).dropWhile (· == '*')))

/-- string_caches.go 215-234 `wildcardCacheFactory.addEntry`. -/
def WildcardFactory.addEntry (f : WildcardFactory) (entry : Str) : WildcardFactory × Bool :=
  let globCount := entry.count '*'
  if globCount = 0 then (f, false)
  else if ¬ (['*', '.'] <+: entry) ∨ globCount > 1 then (f, true)
  else ({ trie := Trie.insert f.trie (normalizeWildcard entry), cnt := f.cnt + 1 }, true)

/-- string_caches.go 240-246 `create`: `nil` when nothing was counted. -/
def WildcardFactory.create (f : WildcardFactory) : Option WildcardFactory :=
  if f.cnt = 0 then none else some f

/-- string_caches.go 200-202 `wildcardCache.contains`. -/
def WildcardFactory.contains (f : WildcardFactory) (s : Str) : Bool := Trie.hasParentOf f.trie s

/-! ### Grouped and chained caches (in_memory_grouped_cache.go, chained_grouped_cache.go), with the
chain of list_cache.go 79-83: regex, wildcard, string -/

/-- The three `caches` maps of the chained grouped caches (in_memory_grouped_cache.go 7-11,
list_cache.go 79-83). -/
structure Caches where
  regex : AMap Str (List E.Regex) := []
  wildcard : AMap Str WildcardFactory := []
  string : AMap Str StringMap := []

/-- in_memory_grouped_cache.go 51-56: `c, found := caches[group]; found && c.contains(s)`. -/
def foundContains {C : Type} (contains : C → Str → Bool) (s : Str) : Option C → Bool
  | some c => contains c s
  | none => false

/-- in_memory_grouped_cache.go 46-60 `Contains`: the groups of the request that match, in order. -/
def groupedContains {C : Type} (caches : AMap Str C) (contains : C → Str → Bool) (s : Str)
    (groups : List Str) : List Str :=
  groups.filter (fun g => foundContains contains s (caches.get g))

/-- Sorted insertion without duplicates: building `groupMatchedMap` and sorting its keys. -/
def insertSorted (g : Str) : List Str → List Str
  | [] => [g]
  | x :: xs => if g = x then x :: xs
               else if strLt g x then g :: x :: xs
               else x :: insertSorted g xs

/-- chained_grouped_cache.go 28-42 `Contains`: keys of the map of matched groups, sorted. -/
def Caches.contains (c : Caches E) (s : Str) (groups : List Str) : List Str :=
  let matched :=
    groupedContains c.regex (regexContains E) s groups ++
    groupedContains c.wildcard WildcardFactory.contains s groups ++
    groupedContains c.string StringMap.contains s groups
  matched.foldl (fun acc g => insertSorted g acc) []

/-- chained_grouped_cache.go 44-56 `Refresh`: one fresh factory per cache. -/
structure Factory where
  regex : List E.Regex := []
  wildcard : WildcardFactory := {}
  string : StringFactory := {}

/-- chained_grouped_cache.go 59-67 `AddEntry`: the first factory that accepts the entry gets it. -/
def Factory.addEntry (f : Factory E) (entry : Str) : Add (Factory E) :=
  match regexAddEntry E f.regex entry with
  | .panic => .panic
  | .ok r true => .ok { f with regex := r } true
  | .ok _ false =>
    let w := f.wildcard.addEntry entry
    if w.2 then .ok { f with wildcard := w.1 } true
    else
      let s := f.string.addEntry entry
      .ok { f with string := s.1 } s.2

/-- Adding entries one after the other (list_cache.go 186-196); `none` after a panic. -/
def Factory.addAll (f : Factory E) : List Str → Option (Factory E)
  | [] => some f
  | e :: es => match f.addEntry E e with
    | .panic => none
    | .ok f' _ => Factory.addAll f' es

/-- in_memory_grouped_cache.go 69-73: set or delete. -/
def setOrDelete {C : Type} (m : AMap Str C) (g : Str) : Option C → AMap Str C
  | some c => m.put g c
  | none => m.del g

/-- chained_grouped_cache.go 78-82 `Finish` with in_memory_grouped_cache.go 91-94 for each. -/
def Caches.finish (c : Caches E) (group : Str) (f : Factory E) : Caches E where
  regex := setOrDelete c.regex group (if f.regex = [] then none else some f.regex)
  wildcard := setOrDelete c.wildcard group f.wildcard.create
  string := setOrDelete c.string group f.string.create

/-- chained_grouped_cache.go 19-26, in_memory_grouped_cache.go 34-44 `ElementCount`. -/
def Caches.elementCount (c : Caches E) (group : Str) : Nat :=
  (match c.regex.get group with | some r => r.length | none => 0) +
  (match c.wildcard.get group with | some w => w.cnt | none => 0) +
  (match c.string.get group with | some m => m.elementCount | none => 0)

end Verif.StringCache
