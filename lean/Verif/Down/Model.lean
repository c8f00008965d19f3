import Verif.Remote.Query
import Verif.Outage.Props
/-!
# A database that is down, seen through a client

The client and the server of `Verif/Remote/Model.lean`, `Many.lean` and `Query.lean`; during some calls the database does not answer. On the server every request to it raises
(`Verif/Outage/Model.lean` with no request answered); the server answers with an error message, transport_session_server.py:110-112, and the client raises,
transport_session_client.py:134-158.
Cited as client:, server: and tu: as in those files.
-/
namespace Osp.Down
open Osp.Sess Osp.Sync Osp.Remote

/-- `_load_from_session` on the server, server:143-160, when the database does not answer. -/
def fetch (P : Params) (us : List Uid) (t : St) : Res (List (Option Uid)) := Outage.load P t 0 us

/-- Reading: `_notify_read`, wrapper_session.py:294-301, through the server. -/
def read (P : Params) (s : RSt) (u : Uid) : Except PyErr Unit × RSt :=
  let o := Sync.read P .fine (fetch P) u s.c s.t
  (o.res.map fun _ => (), ⟨o.client, o.server⟩)

/-- A modification through a handle of the client session, cuds.py:823-848, neighbor_dict.py: `_notify_read` comes first. -/
def modify (P : Params) (s : RSt) (u : Uid) (f : Content → Content) : Except PyErr Unit × RSt :=
  match read P s u with
  | (.error e, s) => (.error e, s)
  | (.ok _, s) =>
    let c := if u ∈ s.c.reg then { s.c with g := Function.update s.c.g u (f (s.c.g u)) } else { s.c with det := Function.update s.c.det u (f (s.c.det u)) }
    let (r, c) := c.notifyUpdate u
    (r, { s with c := c })

/-- The end of `delete_cuds_object`, session.py:81-94. -/
def delete (P : Params) (s : RSt) (u : Uid) : Except PyErr Unit × RSt :=
  match read P s u with
  | (.error e, s) => (.error e, s)
  | (.ok _, s) =>
    let (r, c) := s.c.deleteTriples P u
    (r, { s with c := c })

/-- `load` of one uid, wrapper_session.py:70-111, client:103-111. -/
def load (P : Params) (s : RSt) (u : Uid) : Except PyErr (List (Option Uid)) × RSt :=
  let o := load1 P .fine (fetch P) u s.c s.t
  (o.res, ⟨o.client, o.server⟩)

/-- `commit` on the server, db_wrapper_session.py:11-29: beginning the transaction raises. Nothing was changed then; the context is left, buffers.py:83-112. -/
def commitCmd (t : St) : Res (List (Option Uid)) := t.inEngine fun t => (.error .exception, t)

/-- `commit` on the client: forwarded to the server together with the buffers, client:113-132 and client:179-202. -/
def commit (s : RSt) (net : Sync.Net) : Except PyErr (List (Option Uid)) × RSt :=
  let o := call net true commitCmd s.c s.t
  (o.res, ⟨o.client, o.server⟩)

/-- `next` on the generator `_load_from_backend`, client:103-111. -/
def getMissing (P : Params) (missing expired : List Uid) (q : Option (List (Option Uid))) (s : RSt) : Except PyErr (List (Option Uid)) × RSt :=
  match q with
  | some rs => (.ok rs, s)
  | none =>
    let o := request .fine ⟨none, if expired = [] then s.c.expired else expired, []⟩ (fetch P missing) s.c s.t
    (o.res, ⟨o.client, o.server⟩)

/-- The loop of `load`, wrapper_session.py:96-111, 362-377. -/
def manyLoop (P : Params) (us missing expired : List Uid) : List Uid → Option (List (Option Uid)) → RSt → Except PyErr (List (Option Uid)) × RSt
  | [], _, s => (.ok [], s)
  | u :: rest, q, s =>
    let c := { s.c with engine := if s.c.ctx ≠ .engine then .empty else s.c.engine, ctx := .engine }
    if u ∉ missing then
      if u ∉ c.reg then (.error .keyError, ⟨{ c with ctx := s.c.ctx }, s.t⟩)
      else match manyLoop P us missing expired rest q ⟨{ c with ctx := s.c.ctx }, s.t⟩ with
        | (.error e, s) => (.error e, s)
        | (.ok xs, s) => (.ok (some u :: xs), s)
    else
      match getMissing P missing expired q ⟨c, s.t⟩ with
      | (.error e, s') => (.error e, ⟨{ s'.c with ctx := s.c.ctx }, s'.t⟩)
      | (.ok rs, s') => match after P us (if u ∈ c.reg then some (c.g u) else none) u (rs.headD none) s'.c with
        | (.error e, c') => (.error e, ⟨{ c' with ctx := s.c.ctx }, s'.t⟩)
        | (.ok x, c') => match manyLoop P us missing expired rest (some rs.tail) ⟨{ c' with ctx := s.c.ctx }, s'.t⟩ with
          | (.error e, s) => (.error e, s)
          | (.ok xs, s) => (.ok (x :: xs), s)

/-- `load` of any number of uids, wrapper_session.py:70-111. -/
def loadMany (P : Params) (s : RSt) (us : List Uid) : Except PyErr (List (Option Uid)) × RSt :=
  if s.c.root = none then (.error .runtimeError, s)
  else
    let expired := us.filter (· ∈ s.c.expired)
    let missing := us.filter (fun u => u ∉ s.c.reg ∨ u ∈ expired)
    manyLoop P us missing expired us none { s with c := { s.c with expired := s.c.expired.filter (· ∉ expired) } }

/-- `refresh`, wrapper_session.py:145-158. -/
def refresh (P : Params) (s : RSt) (us : List Uid) : Except PyErr (List (Option Uid)) × RSt :=
  if us = [] then (.ok [], s)
  else
    let (es, c) := s.c.expire us
    let (r, s) := loadMany P { s with c := c } es
    (r.map fun _ => [], s)

/-- The server's part of `load_by_oclass`, server:116-141, tu:29-68, db_wrapper_session.py:31-47: asking the database which objects there are raises. -/
def queryServe (us : List Uid) (m : Msg) (t : St) : Option Msg × St :=
  match deserialize .user m t with
  | (.error _, t) => (none, t)
  | (.ok _, t) =>
    let head := (serialize t (some .engine)).1
    match Outage.loadByOclass t 0 us with
    | (.error _, t) => (none, t)
    | (.ok rs, t) => (some { head with result := rs.map (fun o => o.bind (doc t)) }, { t with engine := .empty })

/-- `load_by_oclass` on the client, client:113-132, 134-158, 179-202. -/
def query (s : RSt) (us : List Uid) : Except PyErr (List (Option Uid)) × RSt :=
  let (m, c) := serialize s.c none
  match queryServe us m s.t with
  | (none, t) => (.error .runtimeError, ⟨c, t⟩)
  | (some m, t) => let (r, c) := deserialize .engine m c; (r, ⟨c, t⟩)

/-- One operation while the database is down. Creating an object and `expire` do not ask the server, cuds.py:64-82, wrapper_session.py:113-132. Modelling device: histories of calls, nothing in /repo. -/
def dstep (P : Params) (s : RSt) : QOp → Except PyErr (List (Option Uid)) × RSt
  | .base (.create u x) => let (r, s) := create s u x; (r.map fun _ => [], s)
  | .base (.modify u f) => let (r, s) := modify P s u f; (r.map fun _ => [], s)
  | .base (.delete u) => let (r, s) := delete P s u; (r.map fun _ => [], s)
  | .base (.read u) => let (r, s) := read P s u; (r.map fun _ => [], s)
  | .base (.load u) => load P s u
  | .base (.expire us) => (.ok [], expire s us)
  | .base (.commit net _) => commit s net
  | .query us => query s us
  | .loads us => loadMany P s us
  | .refresh us => refresh P s us

/-- One call: while the database works, or while it is down. Modelling device: histories of calls, nothing in /repo. -/
inductive Call where
  | up (o : QOp)
  | down (o : QOp)

/-- One call. Modelling device: histories of calls, nothing in /repo. -/
def step (P : Params) (s : RSt) : Call → Except PyErr (List (Option Uid)) × RSt
  | .up o => qstep P s o
  | .down o => dstep P s o

/-- A history; the user goes on after exceptions. Modelling device: histories of calls, nothing in /repo. -/
def run (P : Params) (s : RSt) (h : List Call) : RSt := h.foldl (fun s c => (step P s c).2) s

end Osp.Down
