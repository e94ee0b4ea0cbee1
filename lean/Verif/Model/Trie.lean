/-
Model of /repo/trie: the path-compressed domain trie behind wildcard list entries.
-/
import Verif.Base.Str

namespace Verif.Trie

/-- trie/split.go 8-20 `SplitTLD`: trim the dots on the right, then split at the last dot into
(last label, what is before that dot); without a dot the whole string is the label and the rest
is empty.  (`r` is the trimmed string reversed: taking up to its first dot is taking from the last
dot on.) -/
def splitTLD (domain : Str) : Str × Str :=
  let r := domain.reverse.dropWhile (· == '.')
  ((r.takeWhile (· != '.')).reverse, ((r.dropWhile (· != '.')).drop 1).reverse)

/-- trie/trie.go 44-70, 157-161: a node is a `terminal` holding the remaining key, or a `parent`
holding children by label (Go map: association list, first match counts). -/
inductive Node where
  | terminal (rest : Str)
  | parent (children : List (Str × Node))

/-- The `children` map of a `parent`. -/
abbrev Children := List (Str × Node)

/-- Go map read `n.children[label]` (trie.go 84, 124). -/
def get (cs : Children) (label : Str) : Option Node :=
  match cs with
  | [] => none
  | (l, n) :: rest => if l = label then some n else get rest label

/-- Go map write `n.children[label] = v` (trie.go 86, 106). -/
def put (cs : Children) (label : Str) (v : Node) : Children :=
  match cs with
  | [] => [(label, v)]
  | (l, n) :: rest => if l = label then (l, v) :: rest else (l, n) :: put rest label v

/-- The rest of a split is strictly shorter, unless the string is empty. -/
theorem splitTLD_rest_length {s : Str} (h : s ≠ []) : (splitTLD s).2.length < s.length := by
  unfold splitTLD
  simp only [List.length_reverse, List.length_drop]
  have h1 : ((s.reverse.dropWhile (· == '.')).dropWhile (· != '.')).length
      ≤ (s.reverse.dropWhile (· == '.')).length := by
    exact (List.dropWhile_sublist _).length_le
  have h2 : (s.reverse.dropWhile (· == '.')).length ≤ s.reverse.length :=
    (List.dropWhile_sublist _).length_le
  have h3 : 0 < s.length := List.length_pos_iff.2 h
  simp only [List.length_reverse] at h2
  omega

theorem splitTLD_nil : splitTLD [] = ([], []) := rfl

theorem splitTLD_dec {s : Str} (h : ¬ (splitTLD s).2 = []) : (splitTLD s).2.length < s.length := by
  apply splitTLD_rest_length
  rintro rfl
  exact h rfl

/-- trie/trie.go 169-191, the loop of `terminal.hasParentOf` (`tKey` is not empty). -/
def terminalLoop (tKey searchKey : Str) : Bool :=
  if (splitTLD searchKey).1 ≠ (splitTLD tKey).1 then false
  else if (splitTLD tKey).2 = [] then true
  else if (splitTLD searchKey).2 = [] then false
  else terminalLoop (splitTLD tKey).2 (splitTLD searchKey).2
termination_by tKey.length
decreasing_by
  apply splitTLD_dec
  assumption

/-- trie/trie.go 163-192 `terminal.hasParentOf`. -/
def terminalHasParentOf (tKey searchKey : Str) : Bool :=
  if tKey = [] then true else terminalLoop tKey searchKey

/-- trie/trie.go 116-155 `parent.hasParentOf` (debug logging of the rule is left out). -/
def hasParentOf (cs : Children) (key : Str) : Bool :=
  match get cs (splitTLD key).1 with
  | none => false
  | some (.parent cs') =>
    if (splitTLD key).2 = [] then false else hasParentOf cs' (splitTLD key).2
  | some (.terminal t) => terminalHasParentOf t (splitTLD key).2
termination_by key.length
decreasing_by
  apply splitTLD_dec
  assumption

/-- trie/trie.go 105-108: `p := newParent(); p.insert(child.String())`.  The insertion into the
empty `p` is line 73 (empty key ignored) or the `!ok` branch of line 85; its result is written
out. -/
def freshParent (t : Str) : Children :=
  if t = [] then [] else [((splitTLD t).1, .terminal (splitTLD t).2)]

/-- trie/trie.go 72-114 `parent.insert`.  The in-place loop is a recursion that rebuilds the
path. -/
def insert (cs : Children) (key : Str) : Children :=
  if key = [] then cs
  else
    match get cs (splitTLD key).1 with
    | none => put cs (splitTLD key).1 (.terminal (splitTLD key).2)
    | some child =>
      if (splitTLD key).2 = [] then put cs (splitTLD key).1 (.terminal (splitTLD key).2)
      else match child with
        | .parent cs' => put cs (splitTLD key).1 (.parent (insert cs' (splitTLD key).2))
        | .terminal t =>
          if terminalHasParentOf t (splitTLD key).2 then cs
          else
            put cs (splitTLD key).1 (.parent (insert (freshParent t) (splitTLD key).2))
termination_by key.length
decreasing_by
  all_goals
    apply splitTLD_rest_length
    assumption

/-- trie/trie.go 25-42: a trie after inserting `keys` one after the other into `NewTrie`. -/
def build (keys : List Str) : Children := keys.foldl insert []

end Verif.Trie
