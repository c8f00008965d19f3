import Verif.Remote.Model
/-!
# Specification of a database session used through a client (C92)

What the user is entitled to expect: a map from objects to triples, a second one in the database, and commits that copy the first to the second. Nothing here depends on the
client or the server.
-/
namespace Osp.Remote
open Osp.Sess Osp.Sync

/-- What the user knows. -/
structure View where
  /-- the triples of every object -/
  view : Uid → Content
  /-- what is stored in the database -/
  stored : Uid → Content
  /-- the objects the session has -/
  has : Uid → Prop
  /-- uids that are or were in use -/
  used : Uid → Prop
  /-- objects deleted since the last commit -/
  dead : Uid → Prop
  /-- nothing was committed yet -/
  first : Prop

/-- After the wrapper `r` was created with the triples `x`: it has also what is stored for a wrapper, and the session has the stored children of the wrapper. -/
def View.open (P : Params) (db : Uid → Content) (r : Uid) (x : Content) : View where
  view u := if u = r then db 0 ∪ x else db u
  stored u := if u = r then db 0 else db u
  has u := u = r ∨ (u ∈ P.nb (db 0) ∧ u ≠ 0 ∧ db u ≠ ∅)
  used u := u = r ∨ db u ≠ ∅
  dead _ := False
  first := True

/-- The effect of an operation. -/
def View.step (m : View) : ROp → View
  | .create u x => { m with view := Function.update m.view u x, has := fun v => v = u ∨ m.has v, used := fun v => v = u ∨ m.used v }
  | .modify u f => { m with view := Function.update m.view u (f (m.view u)) }
  | .delete u => { m with view := Function.update m.view u ∅, has := fun v => m.has v ∧ v ≠ u, dead := fun v => v = u ∨ m.dead v }
  | .load u => { m with has := fun v => (v = u ∧ m.view u ≠ ∅) ∨ m.has v }
  | .commit _ none => { m with stored := m.view, dead := fun _ => False, first := False }
  | _ => m

/-- Normal use:
* new objects have a new uid and a type;
* the objects of the session are modified and deleted; an object does not lose all of its triples, the wrapper keeps what is stored for it until the first commit and is not deleted;
* a deleted object is not loaded before the next commit;
* the request of a commit reaches the server, and the backend does not fail in the very last step. -/
def Safe (r : Uid) (m : View) (s : RSt) : ROp → Prop
  | .create u x => u ≠ 0 ∧ ¬ m.used u ∧ x ≠ ∅
  | .modify u f => m.has u ∧ f (m.view u) ≠ ∅ ∧ (u = r → m.first → m.stored r ⊆ f (m.view r))
  | .delete u => m.has u ∧ u ≠ r
  | .read _ => True
  | .load u => u ≠ 0 ∧ ¬ m.dead u
  | .expire _ => True
  | .commit net none => net ≠ .noRequest
  | .commit net (some k) => net ≠ .noRequest ∧ k < (arrived s).commitOps.length

/-- What an operation returns or raises. -/
def View.result (m : View) : ROp → Except PyErr (List (Option Uid))
  | .load u => .ok [if m.view u = ∅ then none else some u]
  | .commit .fine none => .ok []
  | .commit .fine (some _) => .error .runtimeError
  | .commit _ _ => .error .connectionClosed
  | _ => .ok []

/-- Every operation of the history is normal use. -/
def Along (P : Params) (r : Uid) : View → RSt → List ROp → Prop
  | _, _, [] => True
  | m, s, o :: os => Safe r m s o ∧ Along P r (m.step o) (step P s o).2 os

/-- The specification of a history. -/
def View.run (m : View) (ops : List ROp) : View := ops.foldl View.step m

/-- What the sessions and the database contain is what the user expects. -/
structure Shows (r : Uid) (m : View) (s : RSt) : Prop where
  has : ∀ u, u ∈ s.c.reg ↔ m.has u
  view : ∀ u ∈ s.c.reg, s.c.g u = m.view u
  /-- the wrapper is stored under the zero uid -/
  stored : ∀ u, u ≠ 0 → s.t.db (if u = r then 0 else u) = m.stored u

end Osp.Remote
