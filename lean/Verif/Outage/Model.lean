import Verif.Lazy.Changes
/-!
# Calls during which the database fails

The session is the one of `Verif/Sess/Model.lean`; here the backend answers only `n` more requests for objects in a call and then raises (a lost connection, a locked database, a query that fails).
The requests are made in `_load_triples_for_iri`, before anything is changed for the object in question (sql_wrapper_session.py:279-292 collects sets; triplestore_wrapper_session.py:86-97, 101-107).
-/
namespace Osp.Outage
open Osp.Sess

/-- The backend raises inside a `next`: the exception passes through the engine context, buffers.py:55-80, 96-103, triplestore_wrapper_session.py:42-45. -/
def raised {α : Type} (s : St) : Res α := s.inEngine (fun s => (.error .exception, s))

/-- The loop of `load` if the backend answers `n` requests, wrapper_session.py:96-111, 362-377. -/
def loadLoop (P : Params) (uids missing : List Uid) : Nat → List Uid → St → Res (List (Option Uid))
  | _, [], s => (.ok [], s)
  | n, u :: us, s =>
    if u ∈ missing ∧ n = 0 then raised s
    else match s.inEngine (St.loadStep P uids missing u) with
      | (.error e, s) => (.error e, s)
      | (.ok x, s) => match loadLoop P uids missing (if u ∈ missing then n - 1 else n) us s with
        | (.error e, s) => (.error e, s)
        | (.ok xs, s) => (.ok (x :: xs), s)

/-- `WrapperSession.load`, wrapper_session.py:70-111: the expiry marks are taken before the backend is asked. -/
def load (P : Params) (s : St) (n : Nat) (uids : List Uid) : Res (List (Option Uid)) :=
  if s.root = none then (.error .runtimeError, s)
  else
    let expired := uids.filter (· ∈ s.expired)
    let missing := uids.filter (fun u => u ∉ s.reg ∨ u ∈ expired)
    loadLoop P uids missing n uids { s with expired := s.expired.filter (· ∉ expired) }

/-- `refresh`, wrapper_session.py:145-158. -/
def refresh (P : Params) (s : St) (n : Nat) (us : List Uid) : Res Unit :=
  if us = [] then (.ok (), s)
  else
    let (es, s) := s.expire us
    match load P s n es with
    | (.ok _, s) => (.ok (), s)
    | (.error e, s) => (.error e, s)

/-- `_notify_read`, wrapper_session.py:294-301. -/
def notifyRead (P : Params) (s : St) (n : Nat) (u : Uid) : Res Unit :=
  if u ∈ s.expired then refresh P s n [u] else (.ok (), s)

/-- A modification through a handle, cuds.py:823-848, neighbor_dict.py: `_notify_read` comes first. -/
def modify (P : Params) (s : St) (n : Nat) (u : Uid) (f : Content → Content) : Res Unit :=
  match notifyRead P s n u with
  | (.error e, s) => (.error e, s)
  | (.ok _, s) =>
    let s := if u ∈ s.reg then { s with g := Function.update s.g u (f (s.g u)) } else { s with det := Function.update s.det u (f (s.det u)) }
    s.notifyUpdate u

/-- The end of `delete_cuds_object`, session.py:81-94. -/
def delete (P : Params) (s : St) (n : Nat) (u : Uid) : Res Unit :=
  match notifyRead P s n u with
  | (.error e, s) => (.error e, s)
  | (.ok _, s) => s.deleteTriples P u

/-- `load_by_oclass`, db_wrapper_session.py:31-47, triplestore_wrapper_session.py:62-68: a query or the loading of an object fails after `n` objects were given. -/
def loadByOclass (s : St) (n : Nat) (us : List Uid) : Res (List (Option Uid)) :=
  if s.root = none then (.error .runtimeError, s)
  else match s.loadFound (us.take n) with
    | (.error e, s) => (.error e, s)
    | (.ok _, s) => raised s

/-- `Cuds(...)` of the wrapper: the initialisation fails after `n` objects of the first level were loaded, db_wrapper_session.py:49-67. The object is stored already. For other objects the backend is not asked. -/
def create (P : Params) (s : St) (n : Nat) (u : Uid) (c : Content) : Res Unit :=
  if u = 0 then (.error .valueError, s)
  else
    let first := s.root = none
    let s := s.store u c
    if first then s.inEngine (fun s => match s.loadAll ((P.order (u :: (P.nb (s.db (s.slot u))).filter (· ≠ 0))).take n) with
      | (.error e, s) => (.error e, s)
      | (.ok _, s) => (.error .exception, s))
    else (.ok (), s)

/-- One call. `fine`: the backend works. `hit`: it stops working within the call, after it has answered `n` requests. Modelling device: histories of calls, nothing in /repo. -/
inductive Call where
  | fine (o : Op)
  | hit (n : Nat) (o : Op)

/-- One call, see the functions above; expire and the changes of others do not ask the backend of this session. Modelling device: histories of calls, nothing in /repo. -/
def step (P : Params) (s : St) : Call → Res Unit
  | .fine o => Sess.step P s o
  | .hit n (.create u c) => create P s n u c
  | .hit n (.modify u f) => modify P s n u f
  | .hit n (.delete u) => delete P s n u
  | .hit n (.read u) => notifyRead P s n u
  | .hit n (.load us) => Res.unit (load P s n us)
  | .hit n (.loadByOclass us) => Res.unit (loadByOclass s n us)
  | .hit n (.refresh us) => refresh P s n us
  | .hit n (.commit _) => s.commit (some n)
  | .hit _ (.drop u) => s.deleteTriples P u
  | .hit _ (.expire us) => (.ok (), (s.expire us).2)
  | .hit _ .expireAll => (.ok (), (s.expire s.reg).2)
  | .hit _ (.extern k c) => Sess.step P s (.extern k c)

/-- A history; the user goes on after exceptions. Modelling device: histories of calls, nothing in /repo. -/
def run (P : Params) (s : St) (h : List Call) : St := h.foldl (fun s c => (step P s c).2) s

end Osp.Outage
