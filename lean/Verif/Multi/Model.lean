import Verif.Sess.Props
/-!
# Several sessions on one database

Every session is the session of `Verif/Sess/Model.lean` (`wrapper_session.py`, `db/db_wrapper_session.py`, `db/triplestore_wrapper_session.py`), but the database is shared. A call runs to its end
before the next one begins: transactions of the database are only open inside `commit` and inside the storing of the wrapper (db_wrapper_session.py:12-29, 49-67), and a database that is locked
makes the call fail and roll back, which is a failing commit of the model.
-/
namespace Osp.Multi
open Osp.Sess

/-- The database and the sessions, which are numbered. Modelling device; the fields of a session are those of wrapper_session.py:51-64. The field `db` of the sessions is not used. -/
structure World where
  db : Uid → Content
  ses : Nat → St

/-- Nobody has stored a wrapper yet, wrapper_session.py:51-64. -/
def World.start (db : Uid → Content) : World := ⟨db, fun _ => St.opened db⟩

/-- Session `i` and the database it is connected to. Modelling device. -/
def World.at (w : World) (i : Nat) : St := { w.ses i with db := w.db }

/-- A call on session `i`: wrapper_session.py:70-158, 209-318, db_wrapper_session.py:12-67, see `Sess.step`. -/
def step (P : Params) (w : World) (i : Nat) (o : Op) : Except PyErr Unit × World :=
  let r := Sess.step P (w.at i) o
  (r.1, ⟨r.2.db, Function.update w.ses i r.2⟩)

/-- Calls on the sessions in any order; the users go on after exceptions. Modelling device: histories of calls, nothing in /repo. -/
def run (P : Params) (w : World) : List (Nat × Op) → World
  | [] => w
  | (i, o) :: h => run P (step P w i o).2 h

end Osp.Multi
