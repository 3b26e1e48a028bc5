import Verif.Model.Operators
import Verif.Spec.Grammar

/-!
# List specifications of the operators

Each operator is specified by a function from the history of its upstream to the history it must
deliver downstream, written with list functions only.
-/

namespace Rx.Spec

open Rx

variable {I E O F : Type}

/-- Positions, saturating at `usize::MAX` of a 64 bit target (never reached in practice). -/
def idx (i : Nat) : Nat := min i 18446744073709551615

def map (f : I → O) (h : Hist I E) : Hist O E := ⟨h.vals.map f, h.term, h.unsub⟩

/-- Replace the error of a terminal signal. -/
def mapTermError (f : E → F) : Term E → Term F
  | .error e => .error (f e)
  | .complete => .complete

def mapError (f : E → F) (h : Hist I E) : Hist I F := ⟨h.vals, h.term.map (mapTermError f), h.unsub⟩

def mapBoth (f : I → O) (g : E → F) (h : Hist I E) : Hist O F :=
  ⟨h.vals.map f, h.term.map (mapTermError g), h.unsub⟩

/-- Values that satisfy the predicate given their position. -/
def filter (p : I → Nat → Bool) (h : Hist I E) : Hist I E :=
  ⟨(h.vals.zipIdx.filter fun vi => p vi.1 (idx vi.2)).map Prod.fst, h.term, h.unsub⟩

def filterMap (f : I → Option O) (h : Hist I E) : Hist O E := ⟨h.vals.filterMap f, h.term, h.unsub⟩

/-- The first `n` values and completion if there are that many, everything otherwise. -/
def take (n : Nat) (h : Hist I E) : Hist I E :=
  if n ≤ h.vals.length then ⟨h.vals.take n, some .complete, h.unsub⟩ else h

def skip (n : Nat) (h : Hist I E) : Hist I E := ⟨h.vals.drop n, h.term, h.unsub⟩

/-- The folds of all non-empty prefixes. -/
def scan (f : O → I → O) (seed : O) (h : Hist I E) : Hist O E :=
  ⟨(List.range h.vals.length).map fun i => (h.vals.take (i + 1)).foldl f seed, h.term, h.unsub⟩

/-- One value, on completion only. -/
def onComplete (v : O) (h : Hist I E) : Hist O E :=
  ⟨match h.term with | some .complete => [v] | _ => [], h.term, h.unsub⟩

def reduce (f : O → I → O) (seed : O) (h : Hist I E) : Hist O E := onComplete (h.vals.foldl f seed) h

def count (h : Hist I E) : Hist Nat E := onComplete h.vals.length h

def enumerate (h : Hist I E) : Hist (I × Nat) E :=
  ⟨h.vals.zipIdx.map fun vi => (vi.1, idx vi.2), h.term, h.unsub⟩

/-- Each value with its successor. -/
def pairwise (h : Hist I E) : Hist (I × I) E := ⟨h.vals.zip (h.vals.drop 1), h.term, h.unsub⟩

/-- The `i`-th group of `n` values. -/
def chunk (n : Nat) (vs : List I) (i : Nat) : List I := (vs.drop (i * n)).take n

/-- The complete groups of `n` values. -/
def fullChunks (n : Nat) (vs : List I) : List (List I) := (List.range (vs.length / n)).map (chunk n vs)

/-- What remains after the complete groups. -/
def remainder (n : Nat) (vs : List I) : List I := vs.drop (vs.length / n * n)

def bufferCount (n : Nat) (h : Hist I E) : Hist (List I) E :=
  ⟨fullChunks n h.vals ++ (match h.term with
    | some .complete => if remainder n h.vals = [] then [] else [remainder n h.vals]
    | _ => []), h.term, h.unsub⟩

/-- Emit the one value found and complete; otherwise end as given. -/
def search (found : Option O) (notFound : F) (upstream : E → F) (h : Hist I E) : Hist O F :=
  match found with
  | some v => ⟨[v], some .complete, h.unsub⟩
  | none => ⟨[], h.term.map (fun | .complete => .error notFound | .error e => .error (upstream e)), h.unsub⟩

def first (h : Hist I E) : Hist I (FirstError E) :=
  search h.vals.head? .noNextObservedBeforeComplete .upstream h

def find (p : I → Bool) (h : Hist I E) : Hist I (FindError E) :=
  search (h.vals.find? p)
    (if h.vals.isEmpty then .noNextObservedBeforeComplete else .noMatchObserved) .upstream h

def findIndex (p : I → Bool) (h : Hist I E) : Hist Nat (FindError E) :=
  search (h.vals.findIdx? p)
    (if h.vals.isEmpty then .noNextObservedBeforeComplete else .noMatchObserved) .upstream h

/-- `element_at`: the value at `index`; on completion before it the default or an error saying how
many values there were. -/
def elementAt (index : Nat) (dflt : Option I) (h : Hist I E) : Hist I (ElementAtError E) :=
  match h.vals[index]?, h.term, dflt with
  | some v, _, _ => ⟨[v], some .complete, h.unsub⟩
  | none, some .complete, some d => ⟨[d], some .complete, h.unsub⟩
  | none, some .complete, none => ⟨[], some (.error (.indexOutOfRange index h.vals.length)), h.unsub⟩
  | none, some (.error e), _ => ⟨[], some (.error (.upstream e)), h.unsub⟩
  | none, none, _ => ⟨[], none, h.unsub⟩

def isEmpty (h : Hist I E) : Hist Bool E :=
  match h.vals, h.term with
  | _ :: _, _ => ⟨[false], some .complete, h.unsub⟩
  | [], some .complete => ⟨[true], some .complete, h.unsub⟩
  | [], t => ⟨[], t, h.unsub⟩

def startWith (v : I) (h : Hist I E) : Hist I E := ⟨v :: h.vals, h.term, h.unsub⟩

def endWith (v : I) (h : Hist I E) : Hist I E :=
  ⟨h.vals ++ (match h.term with | some .complete => [v] | _ => []), h.term, h.unsub⟩

/-- Terminal signal as an observer notification. -/
def termNotification : Term E → ObserverNotification I E
  | .error e => .error e
  | .complete => .complete

def materialize (h : Hist I E) : Hist (ObserverNotification I E) Empty :=
  ⟨h.vals.map .next ++ (h.term.map termNotification).toList, h.term.map (fun _ => .complete), h.unsub⟩

/-- Values before the first terminal notification. -/
def liveValues : List (ObserverNotification I E) → List I
  | .next v :: ns => v :: liveValues ns
  | _ => []

/-- The first terminal notification. -/
def firstTerminal : List (ObserverNotification I E) → Option (Term E)
  | .next _ :: ns => firstTerminal ns
  | .error e :: _ => some (.error e)
  | .complete :: _ => some .complete
  | [] => none

def neverTerm : Term Empty → Term E
  | .complete => .complete

def dematerialize (h : Hist (ObserverNotification I E) Empty) : Hist I E :=
  ⟨liveValues h.vals, (firstTerminal h.vals).or (h.term.map neverTerm), h.unsub⟩

/-- The error becomes a last value; the error channel is unused. -/
def intoResult (h : Hist I E) : Hist (Except E I) Empty :=
  ⟨h.vals.map .ok ++ (match h.term with | some (.error e) => [.error e] | _ => []),
   match h.term with | some .complete => some .complete | _ => none, h.unsub⟩

/-- Values before the first `Err`. -/
def okPrefix : List (Except E I) → List I
  | .ok v :: ns => v :: okPrefix ns
  | _ => []

/-- The first `Err`. -/
def firstErr : List (Except E I) → Option E
  | .ok _ :: ns => firstErr ns
  | .error e :: _ => some e
  | [] => none

def liftResult (h : Hist (Except E I) Empty) : Hist I E :=
  ⟨okPrefix h.vals, ((firstErr h.vals).map .error).or (h.term.map neverTerm), h.unsub⟩

/-- What an observer at the end experiences. -/
def seen (h : Hist I E) : List (ObserverNotification I E) :=
  h.vals.map .next ++ (h.term.map termNotification).toList

end Rx.Spec
