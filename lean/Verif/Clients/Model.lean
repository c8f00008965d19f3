import Verif.Remote.Props
/-!
# Several clients in front of one database

A server accepts any number of connections and opens a session for each (`transport_session_server.py`:55-114); each of them is the session of `Verif/Remote/Model.lean`, but all of these sessions write to
the same database. A request is processed to its end before the next one: the handler of the server is not a coroutine and runs without interruption (communication_engine.py), and transactions of the database are only open inside
`commit` and inside the storing of the wrapper (db_wrapper_session.py:12-29, 49-67).
-/
namespace Osp.Clients
open Osp.Sess Osp.Sync Osp.Remote

/-- The database and the clients with their sessions on the server, which are numbered. Modelling device. The field `db` of the sessions on the server is not used. -/
structure World where
  db : Uid → Content
  cl : Nat → RSt

/-- Nobody is connected. Modelling device; session.py:25-31. -/
def World.start (db : Uid → Content) : World := ⟨db, fun _ => ⟨St.opened fun _ => ∅, St.opened db⟩⟩

/-- Client `i`, its session on the server and the database this session is connected to. Modelling device. -/
def World.at (w : World) (i : Nat) : RSt := { w.cl i with t := { (w.cl i).t with db := w.db } }

/-- What the users do. Modelling device: histories of calls. -/
inductive COp where
  /-- a new client session, in which the wrapper `r` is created -/
  | connect (r : Uid) (x : Content)
  | op (o : ROp)

/-- A call of client `i`: transport_session_client.py:70-202, transport_session_server.py:80-200, see `Remote.connect` and `Remote.step`. A client that connects again gets a new session on the server,
transport_session_server.py:162-200. -/
def step (P : Params) (w : World) (i : Nat) : COp → Except PyErr (List (Option Uid)) × World
  | .connect r x => let (e, s) := Remote.connect P w.db r x; (e.map fun _ => [], ⟨s.t.db, Function.update w.cl i s⟩)
  | .op o => let (e, s) := Remote.step P (w.at i) o; (e, ⟨s.t.db, Function.update w.cl i s⟩)

/-- Calls of the clients in any order; the users go on after exceptions. Modelling device: histories of calls, nothing in /repo. -/
def run (P : Params) (w : World) : List (Nat × COp) → World
  | [] => w
  | (i, o) :: h => run P (step P w i o).2 h

end Osp.Clients
