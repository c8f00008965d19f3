import Verif.Sync.Load
/-!
# Model of a database session used through a transport client (C92)

`osp/core/session/transport/transport_session_client.py` (client:) in front of `transport_session_server.py` (server:) in front of a database session
(`Verif.Sess.Model`). Requests and responses are those of `Verif.Sync.Model`, with its simplifications.
-/
namespace Osp.Remote
open Osp.Sess Osp.Sync

/-- The client's session and the session the server has for it (with the database). Modelling device. -/
structure RSt where
  c : St
  t : St

/-- `_load_from_session` on the server, server:143-160. -/
def fetch (P : Params) (us : List Uid) (t : St) : Res (List (Option Uid)) := t.load P us

/-- `commit` called by `_run_command`, server:116-141, db_wrapper_session.py:11-29; its result `None` is not sent. -/
def commitCmd (fail : Option Nat) (t : St) : Res (List (Option Uid)) := match t.commit fail with
  | (.ok _, t) => (.ok [], t)
  | (.error e, t) => (.error e, t)

/-- The server's part of the initialisation, server:162-200: the session is opened, the wrapper is created without triples (wrapper_development.py:218-222), which loads it and
its children from the database (db_wrapper_session.py:49-67), then the triples sent by the client are added, wrapper_development.py:224-231. -/
def serverInit (P : Params) (db : Uid → Content) (r : Uid) (x : Content) : Res Unit :=
  match (St.opened db).create P r ∅ with
  | (.error e, t) => (.error e, t)
  | (.ok _, t) => St.notifyUpdate { t with g := Function.update t.g r (t.g r ∪ x) } r

/-- Creating the wrapper `r` with the triples `x` in a new client session: `_store` for the first object, client:74-93, with the response processed by `_receive`, client:134-158. -/
def connect (P : Params) (db : Uid → Content) (r : Uid) (x : Content) : Except PyErr Unit × RSt :=
  if r = 0 then (.error .valueError, ⟨St.opened fun _ => ∅, St.opened db⟩)
  else
    let c := (St.opened fun _ => ∅).store r x
    match serverInit P db r x with
    | (.error _, t) => (.error .runtimeError, ⟨c, t⟩)
    | (.ok _, t) =>
      let (m, t) := serialize t (some .engine)
      match deserialize .engine m c with
      | (.error e, c) => (.error e, ⟨c, t⟩)
      | (.ok _, c) => (.ok (), ⟨{ c with user := { c.user with added := del c.user.added r } }, t⟩)

/-- Creating an object in the client session: cuds.py:64-82, `_store` for the other objects, client:94. -/
def create (s : RSt) (u : Uid) (x : Content) : Except PyErr Unit × RSt :=
  if u = 0 then (.error .valueError, s) else (.ok (), { s with c := s.c.store u x })

/-- Reading: `_notify_read`, wrapper_session.py:294-301, through the server. -/
def read (P : Params) (s : RSt) (u : Uid) : Except PyErr Unit × RSt :=
  let o := Sync.read P .fine (fetch P) u s.c s.t
  (o.res.map fun _ => (), ⟨o.client, o.server⟩)

/-- A modification through a handle of the client session, as `Sess.St.modify`: cuds.py:823-848, neighbor_dict.py. -/
def modify (P : Params) (s : RSt) (u : Uid) (f : Content → Content) : Except PyErr Unit × RSt :=
  match read P s u with
  | (.error e, s) => (.error e, s)
  | (.ok _, s) =>
    let c := if u ∈ s.c.reg then { s.c with g := Function.update s.c.g u (f (s.c.g u)) } else { s.c with det := Function.update s.c.det u (f (s.c.det u)) }
    let (r, c) := c.notifyUpdate u
    (r, { s with c := c })

/-- The end of `delete_cuds_object`, session.py:81-94, as `Sess.St.delete`. -/
def delete (P : Params) (s : RSt) (u : Uid) : Except PyErr Unit × RSt :=
  match read P s u with
  | (.error e, s) => (.error e, s)
  | (.ok _, s) =>
    let (r, c) := s.c.deleteTriples P u
    (r, { s with c := c })

/-- `load` of one uid, wrapper_session.py:70-111, client:103-111. -/
def load (P : Params) (s : RSt) (u : Uid) : Except PyErr (List (Option Uid)) × RSt :=
  let o := load1 P .fine (fetch P) u s.c s.t
  (o.res, ⟨o.client, o.server⟩)

/-- `expire`, wrapper_session.py:113-132: not forwarded, because the client session has this method itself (client:182-190). -/
def expire (s : RSt) (us : List Uid) : RSt := { s with c := (s.c.expire us).2 }

/-- `commit` on the client: forwarded to the server together with the buffers, client:113-132 and client:179-202. -/
def commit (s : RSt) (net : Sync.Net) (fail : Option Nat) : Except PyErr (List (Option Uid)) × RSt :=
  let o := call net true (commitCmd fail) s.c s.t
  (o.res, ⟨o.client, o.server⟩)

/-- What the user does. Modelling device: histories of calls. -/
inductive ROp where
  | create (u : Uid) (x : Content)
  | modify (u : Uid) (f : Content → Content)
  | delete (u : Uid)
  | read (u : Uid)
  | load (u : Uid)
  | expire (us : List Uid)
  /-- the backend raises in its k-th operation if `fail = some k` -/
  | commit (net : Sync.Net) (fail : Option Nat)

/-- One operation: what it returns (`[]` if nothing) or raises. Modelling device: histories of calls. -/
def step (P : Params) (s : RSt) : ROp → Except PyErr (List (Option Uid)) × RSt
  | .create u x => let (r, s) := create s u x; (r.map fun _ => [], s)
  | .modify u f => let (r, s) := modify P s u f; (r.map fun _ => [], s)
  | .delete u => let (r, s) := delete P s u; (r.map fun _ => [], s)
  | .read u => let (r, s) := read P s u; (r.map fun _ => [], s)
  | .load u => load P s u
  | .expire us => (.ok [], expire s us)
  | .commit net fail => commit s net fail

/-- The server's session when it executes the command of a request that carries the client's buffers, server:127-134. Modelling device. -/
def arrived (s : RSt) : St := (deserialize .user (serialize s.c (some .user)).1 s.t).2

/-- A history; the user goes on after exceptions. Modelling device: histories of calls. -/
def run (P : Params) (s : RSt) (ops : List ROp) : RSt := ops.foldl (fun s o => (step P s o).2) s

end Osp.Remote
