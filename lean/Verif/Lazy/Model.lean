import Verif.Multi.Props
/-!
# Results of `load` that are consumed step by step

`session.load(...)` returns a `QueryResult` whose iterator is a generator (result.py:6-52, wrapper_session.py:69-111), and `Cuds.iter` consumes it one object at a time (cuds.py:332-375, 736-760).
Between two steps the user may call anything else, start other iterations or give the iteration up. The session is the one of `Verif/Sess/Model.lean`.
The elements a `QueryResult` remembers (result.py:36-68) are not modelled: it is only consumed by `next` here.
-/
namespace Osp.Lazy
open Osp.Sess

/-- Where the generator of `load` stands, wrapper_session.py:70-111. `fresh`: nothing of the body has run. `running missing left`: it waits at a `yield`; `missing` is the local `missing_uids`, `left` what the
loop over `uids` has still to visit. `done`: it has ended or raised. -/
inductive Phase where
  | fresh
  | running (missing left : List Uid)
  | done
  deriving DecidableEq

/-- A generator made by `session.load(*uids)`, wrapper_session.py:70. -/
structure Gen where
  uids : List Uid
  phase : Phase
  deriving DecidableEq

/-- The loop of `load` up to its next `yield`, wrapper_session.py:96-111. `none` is the end (`StopIteration`). -/
def pull (P : Params) (uids missing : List Uid) (s : St) : List Uid → Res (Option (Option Uid) × Phase)
  | [] => (.ok (none, .done), s)
  | u :: left =>
    match St.loadStep P uids missing u s with
    | (.error e, s) => (.error e, s)
    | (.ok x, s) => (.ok (some x, .running missing left), s)

/-- What the generator does from where it stands to its next `yield`, wrapper_session.py:83-111. -/
def resume (P : Params) (g : Gen) (s : St) : Res (Option (Option Uid) × Phase) :=
  match g.phase with
  | .done => (.ok (none, .done), s)
  | .running missing left => pull P g.uids missing s left
  | .fresh =>
    if s.root = none then (.error .runtimeError, s)
    else
      let expired := g.uids.filter (· ∈ s.expired)
      let missing := g.uids.filter (fun u => u ∉ s.reg ∨ u ∈ expired)
      pull P g.uids missing { s with expired := s.expired.filter (· ∉ expired) } g.uids

/-- The result of a `next`: what it gives (`none`: the end) or raises, the session and the generator. Modelling device. -/
structure Out where
  res : Except PyErr (Option (Option Uid))
  s : St
  g : Gen

/-- `EngineContextIterator.__next__`, buffers.py:96-103; a generator that raised is at its end (Python). -/
def next (P : Params) (s : St) (g : Gen) : Out :=
  match s.inEngine (resume P g) with
  | (.ok (x, p), s') => ⟨.ok x, s', { g with phase := p }⟩
  | (.error e, s') => ⟨.error e, s', { g with phase := .done }⟩

/-- A session and the iterations started on it, which are numbered. Modelling device. -/
structure Sys where
  s : St
  gens : Nat → Gen
  count : Nat

/-- Nothing has happened yet, wrapper_session.py:51-64. -/
def Sys.start (db : Uid → Content) : Sys := ⟨St.opened db, fun _ => ⟨[], .done⟩, 0⟩

/-- What happens: any call on the session, `session.load(*uids)` without consuming the result, or one `next` on an iteration. Modelling device: histories, nothing in /repo. -/
inductive Event where
  | call (o : Op)
  | opens (uids : List Uid)
  | next (i : Nat)

/-- One event, see `Sess.step` for the calls (wrapper_session.py:70-158, 209-318, db_wrapper_session.py:12-67), `session.load`: wrapper_session.py:69-70, result.py:16-19, `next`: buffers.py:96-103. -/
def Sys.step (P : Params) (y : Sys) : Event → Sys
  | .call o => { y with s := (Sess.step P y.s o).2 }
  | .opens uids => { y with gens := Function.update y.gens y.count ⟨uids, .fresh⟩, count := y.count + 1 }
  | .next i =>
    let r := Lazy.next P y.s (y.gens i)
    { y with s := r.s, gens := Function.update y.gens i r.g }

/-- A history. Modelling device, nothing in /repo. -/
def run (P : Params) (y : Sys) : List Event → Sys
  | [] => y
  | e :: h => run P (y.step P e) h

/-- What the `next` calls on iteration `i` gave in a history. Modelling device, nothing in /repo. -/
def given (P : Params) (i : Nat) (y : Sys) : List Event → List (Option Uid)
  | [] => []
  | e :: h =>
    (match e with
      | .next j => if j = i then (match (Lazy.next P y.s (y.gens j)).res with
          | .ok (some x) => [x]
          | _ => []) else []
      | _ => []) ++ given P i (y.step P e) h

/-- Consuming an iteration to its end without doing anything else: `list(session.load(...))`. `n` bounds the number of steps. Python itself; result.py:43-46. -/
def drain (P : Params) : Nat → St → Gen → Res (List (Option Uid))
  | 0, s, _ => (.ok [], s)
  | n + 1, s, g =>
    match Lazy.next P s g with
    | ⟨.error e, s, _⟩ => (.error e, s)
    | ⟨.ok none, s, _⟩ => (.ok [], s)
    | ⟨.ok (some x), s, g⟩ => match drain P n s g with
      | (.error e, s) => (.error e, s)
      | (.ok xs, s) => (.ok (x :: xs), s)

end Osp.Lazy
