import Verif.Common
/-!
# Model of `QueryResult`, osp/core/session/result.py:21-119

The underlying iterator is the list of elements it has not yet produced. Elements are `Option α`; `none` is Python's `None`. The exceptions
`MultipleResultsError` and `ResultEmptyError` are the constructors of `QErr`. (The engine context entered around each `next` of the underlying
iterator, buffers.py:83-112, is modelled in `Verif.Session`.)
-/
namespace Osp.Query

variable {α : Type}

/-- result.py 75-112: the exceptions raised. -/
inductive QErr where
  | multipleResults | resultEmpty | stopIteration
  deriving DecidableEq, Repr

/-- result.py:24-33: the cached elements and the rest of the underlying iterator. -/
structure Q (α : Type) where
  elements : List (Option α) := []
  rest : List (Option α)
  deriving DecidableEq, Repr

/-- `next(self._iterator)` without caching. result.py 34-53, the underlying iterator, buffers.py 97-104. -/
def pull (q : Q α) : Option (Option α × Q α) :=
  match q.rest with
  | [] => none
  | x :: xs => some (x, { q with rest := xs })

/-- `__next__`, result.py:47-55. -/
def next (q : Q α) : Except QErr (Option α) × Q α :=
  match pull q with
  | none => (.error .stopIteration, q)
  | some (x, q) => (.ok x, { q with elements := q.elements ++ [x] })

/-- `all`, result.py:68-75. -/
def all (q : Q α) : List (Option α) × Q α :=
  let q := { elements := q.elements ++ q.rest, rest := [] : Q α }
  (q.elements, q)

/-- `__contains__`, result.py:57-66. -/
def contains [DecidableEq α] (q : Q α) (x : Option α) : Bool × Q α :=
  let (l, q) := all q
  (x ∈ l, q)

/-- `first`, result.py:77-89. -/
def first (q : Q α) : Option α × Q α :=
  match q.elements with
  | x :: _ => (x, q)
  | [] => match pull q with
    | none => (none, q)
    | some (x, q) => (x, { q with elements := q.elements ++ [x] })

/-- `one`, result.py:91-119. In the `try` block `x` is only rebound when an exception is raised anyway. -/
def one (q : Q α) (raiseEmpty : Bool) : Except QErr (Option α) × Q α :=
  let (x, q) := first q
  if q.elements.length > 1 then (.error .multipleResults, (all q).2)
  else match pull q with
    | some (y, q) => (.error .multipleResults, (all { q with elements := q.elements ++ [y] }).2)
    | none =>
      if x.isNone && raiseEmpty then (.error .resultEmpty, q)
      else (.ok x, q)

/-- A generator created by `__iter__`, result.py:35-45: `yield from self._elements` iterates over the live list by index; when that is exhausted the
underlying iterator is used. -/
inductive Gen where
  | cached (i : Nat) | live | done
  deriving DecidableEq, Repr

/-- `next` in the second phase. result.py 34-43, second loop. -/
def liveNext (q : Q α) : Option (Option α) × Q α × Gen :=
  match pull q with
  | none => (none, q, .done)
  | some (x, q) => (some x, { q with elements := q.elements ++ [x] }, .live)

/-- `next(generator)`; the first component is none when it is exhausted. result.py 34-43. -/
def genNext (q : Q α) : Gen → Option (Option α) × Q α × Gen
  | .done => (none, q, .done)
  | .live => liveNext q
  | .cached i => match q.elements[i]? with
    | some x => (some x, q, .cached (i + 1))
    | none => liveNext q

/-- Run a generator `n` steps without interference. Modelling device: histories of calls, nothing in /repo. -/
def genTake (q : Q α) (g : Gen) : Nat → List (Option α) × Q α × Gen
  | 0 => ([], q, g)
  | n + 1 => match genNext q g with
    | (none, q, g) => ([], q, g)
    | (some x, q, g) => let (xs, q, g) := genTake q g n; (x :: xs, q, g)

/-- Calls on one query result; `iter i` advances the i-th generator. Modelling device: histories of calls, nothing in /repo. -/
inductive Call (α : Type) where
  | next | all | first | one (raiseEmpty : Bool) | contains (x : Option α) | newIter | iter (i : Nat)

/-- A query result with the generators obtained from it. Modelling device: histories of calls, nothing in /repo. -/
structure Sys (α : Type) where
  q : Q α
  gens : List Gen := []

/-- The state change of a call. Modelling device: histories of calls, nothing in /repo. -/
def Sys.step [DecidableEq α] (s : Sys α) : Call α → Sys α
  | .next => { s with q := (Query.next s.q).2 }
  | .all => { s with q := (Query.all s.q).2 }
  | .first => { s with q := (Query.first s.q).2 }
  | .one b => { s with q := (Query.one s.q b).2 }
  | .contains x => { s with q := (Query.contains s.q x).2 }
  | .newIter => { s with gens := s.gens ++ [.cached 0] }
  | .iter i => match s.gens[i]? with
    | none => s
    | some g => let (_, q, g) := genNext s.q g; { q := q, gens := s.gens.set i g }

/-- Any history of calls on the result of a query producing `total`. Modelling device: histories of calls, nothing in /repo. -/
def Sys.run [DecidableEq α] (s : Sys α) (cs : List (Call α)) : Sys α := cs.foldl Sys.step s

end Osp.Query
