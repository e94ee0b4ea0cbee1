/-
Model of the locking in /repo/resolver/blocking_resolver.go: `status.lock` (a `sync.RWMutex`) as used
by queries (lines 461-514 with the nested 447-458) and by enable/disable (228-237, 253-294).

`sync.RWMutex`: a writer that has called `Lock` waits for the active readers and from then on new
`RLock` calls wait for that writer, also those of a goroutine that already holds a read lock. Only
one writer at a time gets that far. `RUnlock` and `Unlock` never wait.
-/

namespace Verif.StatusLock

/-- Where a goroutine is. -/
inductive Pc where
  /-- query: before the outer `RLock` (462), with so many groups to check later -/
  | wantOuter (groups : Nat)
  /-- query: holds the outer read lock, so many groups left to check (505-509) -/
  | holdOuter (groups : Nat)
  /-- query: holds also the inner read lock (448-457) -/
  | holdBoth (groups : Nat)
  /-- status change: before `Lock` (230, 257) -/
  | wantWrite
  /-- status change: called `Lock`, waiting for the active readers -/
  | pending
  /-- status change: holds the write lock -/
  | holdWrite
  | done
  deriving DecidableEq, Repr

/-- Does the goroutine hold a read lock? -/
def Pc.reading : Pc → Bool
  | .holdOuter _ => true
  | .holdBoth _ => true
  | _ => false

/-- Does the goroutine keep others from `RLock` and `Lock`? -/
def Pc.writing : Pc → Bool
  | .pending => true
  | .holdWrite => true
  | _ => false

/-- The next step of one goroutine, given whether some goroutine reads / writes (announced or
active); `none`: it has to wait (or is done). -/
def Pc.next (reading writing : Bool) : Pc → Option Pc
  | .wantOuter n => if writing then none else some (.holdOuter n)
  | .holdOuter 0 => some .done
  | .holdOuter (n + 1) => if writing then none else some (.holdBoth n)
  | .holdBoth n => some (.holdOuter n)
  | .wantWrite => if writing then none else some .pending
  | .pending => if reading then none else some .holdWrite
  | .holdWrite => some .done
  | .done => none

/-- All goroutines. -/
abbrev Threads := List Pc

/-- Some goroutine holds a read lock. -/
def anyReading (ts : Threads) : Bool := ts.any Pc.reading

/-- Some goroutine has announced or holds the write lock. -/
def anyWriting (ts : Threads) : Bool := ts.any Pc.writing

/-- One step of one goroutine. -/
inductive Step : Threads → Threads → Prop where
  | mk (pre post : Threads) (p p' : Pc)
      (h : p.next (anyReading (pre ++ p :: post)) (anyWriting (pre ++ p :: post)) = some p') :
      Step (pre ++ p :: post) (pre ++ p' :: post)

/-- An execution. -/
inductive Steps : Threads → Threads → Prop where
  | refl (ts : Threads) : Steps ts ts
  | tail {a b c : Threads} : Steps a b → Step b c → Steps a c

/-- At the start every goroutine is about to take its (outer) lock. -/
def Start (ts : Threads) : Prop := ∀ p ∈ ts, (∃ n, p = .wantOuter n) ∨ p = .wantWrite

end Verif.StatusLock
