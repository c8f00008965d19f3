import Verif.Common
import Mathlib.Data.Finset.Basic
import Mathlib.Logic.Function.Basic
/-!
# Model of wrapper sessions with a database backend

`osp/core/session/session.py`, `wrapper_session.py`, `buffers.py`, `db/db_wrapper_session.py`, `db/triplestore_wrapper_session.py` and
`osp/core/utils/wrapper_development.py:create_from_triples`.

Abstractions. The triples with a given subject are a finite set of opaque (predicate, object) codes. An object is identified with its uid. The user
API is modelled by its primitive effects on one object: creating, modifying (read notification, change of the triples, update notification), deleting,
reading. `Cuds.add`, `remove`, attribute assignment etc. are sequences of these primitives. Types and the wrapper checks are in `Verif/Sess/Root.lean`.
The type triples of neighbours which a load adds to the session graph are not modelled.
-/
namespace Osp.Sess

/-- Uids as numbers. Modelling simplification. -/
abbrev Uid := Nat
/-- The triples (u, *, *) of an object, numbered. Modelling simplification. -/
abbrev Content := Finset Nat

/-- BufferContext, buffers.py:39-53. -/
inductive Ctx where
  | user | engine
  deriving DecidableEq, Repr

/-- The three buffers of one context as key lists of the dictionaries, buffers.py:25-37, wrapper_session.py:320-333. -/
structure Buf where
  added : List Uid
  updated : List Uid
  deleted : List Uid
  deriving DecidableEq, Repr

/-- `_reset_buffers`, wrapper_session.py:320-333. -/
def Buf.empty : Buf := ⟨[], [], []⟩

/-- `_get_buffer_uids`, wrapper_session.py:335-349. -/
def Buf.uids (b : Buf) : List Uid := b.added ++ b.updated ++ b.deleted

/-- What the model leaves open: which neighbours differ between two contents (`get_neighbor_diff`), which neighbours a content has, which part
of a content are the type triples, and in which order a Python set is iterated. Modelling device; arbitrary. -/
structure Params where
  diff : Content → Content → List Uid
  nb : Content → List Uid
  typePart : Content → Content
  order : List Uid → List Uid
  order_mem : ∀ l u, u ∈ order l ↔ u ∈ l

/-- Session and database. session.py 15-19, wrapper_session.py 51-65; the database of triplestore_wrapper_session.py. -/
structure St where
  /-- `_registry` keys -/
  reg : List Uid
  /-- `graph`: triples by subject -/
  g : Uid → Content
  /-- `_graph` of handles of deleted objects, session.py:107-109 -/
  det : Uid → Content
  user : Buf
  engine : Buf
  ctx : Ctx
  /-- `_expired` -/
  expired : List Uid
  root : Option Uid
  /-- committed triples by subject; the root is stored under the zero uid -/
  db : Uid → Content

/-- Insert a key. Python itself; models nothing in /repo. -/
def ins (l : List Uid) (u : Uid) : List Uid := if u ∈ l then l else l ++ [u]
/-- Delete a key. Python itself; models nothing in /repo. -/
def del (l : List Uid) (u : Uid) : List Uid := l.filter (· ≠ u)

/-- A session just connected to a database, wrapper_session.py:51-64. -/
def St.opened (db : Uid → Content) : St :=
  { reg := [], g := fun _ => ∅, det := fun _ => ∅, user := .empty, engine := .empty, ctx := .user, expired := [], root := none, db := db }

/-- wrapper_session.py 51-65, `_buffers[_current_context]`. -/
def St.buf (s : St) : Buf := match s.ctx with
  | .user => s.user
  | .engine => s.engine

/-- wrapper_session.py 51-65. -/
def St.setBuf (s : St) (b : Buf) : St := match s.ctx with
  | .user => { s with user := b }
  | .engine => { s with engine := b }

/-- The database slot of an object: `_substitute_root_iri`, triplestore_wrapper_session.py:70-76 and :93-94. -/
def St.slot (s : St) (u : Uid) : Uid := if s.root = some u then 0 else u

/-- Exceptions leave the state reached. Modelling device. -/
abbrev Res (α : Type) := Except PyErr α × St

/-- `WrapperSession._store` with `Session._store`, wrapper_session.py:209-240 and session.py:36-50 (the checks are in `Root.lean`). -/
def St.store (s : St) (u : Uid) (c : Content) : St :=
  let b := { s.buf with deleted := del s.buf.deleted u }
  let b := if u ∈ s.reg then { b with updated := ins b.updated u } else { b with added := ins b.added u }
  let s := s.setBuf b
  { s with reg := ins s.reg u, g := Function.update s.g u (s.g u ∪ c), root := match s.root with
    | none => some u
    | some r => some r }

/-- `_notify_update`, wrapper_session.py:243-263. -/
def St.notifyUpdate (s : St) (u : Uid) : Res Unit :=
  if u ∈ s.buf.deleted then (.error .runtimeError, s)
  else if u ∉ s.buf.added ∧ u ∉ s.buf.updated then (.ok (), s.setBuf { s.buf with updated := s.buf.updated ++ [u] })
  else (.ok (), s)

/-- `_notify_delete`, wrapper_session.py:266-291. -/
def St.notifyDelete (s : St) (u : Uid) : St :=
  let b := s.buf
  if u ∈ b.added then s.setBuf { b with added := del b.added u }
  else if u ∈ b.updated then s.setBuf { b with updated := del b.updated u, deleted := ins b.deleted u }
  else if u ∉ b.deleted then s.setBuf { b with deleted := b.deleted ++ [u] }
  else s

/-- `_delete_cuds_triples`, session.py:96-109. -/
def St.deleteTriples (P : Params) (s : St) (u : Uid) : Res Unit :=
  if u ∉ s.reg then (.error .keyError, s)
  else (.ok (), St.notifyDelete { s with reg := del s.reg u, det := Function.update s.det u (P.typePart (s.g u)), g := Function.update s.g u ∅ } u)

/-- `_expire`, wrapper_session.py:303-318. Returns the uids that became expired. -/
def St.expire (s : St) (us : List Uid) : List Uid × St :=
  let us := us.filter (· ∉ s.user.uids)
  (us.filter (· ∈ s.reg), { s with expired := (s.expired ++ us.filter (· ∉ s.expired)).filter (· ∈ s.reg) })

/-- `with EngineContext(session)`, buffers.py:55-80: the previous context is restored also if an exception is raised. -/
def St.inEngine {α : Type} (s : St) (f : St → Res α) : Res α :=
  let s1 := if s.ctx ≠ .engine then { s with engine := .empty } else s
  let r := f { s1 with ctx := .engine }
  (r.1, { r.2 with ctx := s.ctx })

/-- `_load_by_iri` and `create_from_triples` with `fix_neighbors=False`, triplestore_wrapper_session.py:86-107 and wrapper_development.py:188-232. -/
def St.loadByIri (s : St) (u : Uid) : Res (Option Uid) :=
  let c := s.db (s.slot u)
  if c = ∅ then (.ok none, s)
  else
    let s := { s with expired := del s.expired u }
    let s := if u ∈ s.reg then { s with g := Function.update s.g u ∅ } else s.store u ∅
    let s := { s with g := Function.update s.g u (s.g u ∪ c) }
    match s.notifyUpdate u with
    | (.ok _, s) => (.ok (some u), s)
    | (.error e, s) => (.error e, s)

/-- The part of the loop body of `load` after the object was loaded: expiring neighbours (with the override of db_wrapper_session.py:134-140) and
deleting objects the backend does not have any more, wrapper_session.py:104-110. -/
def St.afterLoad (P : Params) (uids : List Uid) (old : Option Content) (u : Uid) (new : Option Uid) (s : St) : Res (Option Uid) :=
  match old with
  | none => (.ok new, s)
  | some o =>
    let s := if s.root = some u then s
      else (s.expire ((P.diff o (if new.isSome then s.g u else ∅)).filter (· ∉ uids))).2
    if new = none ∧ u ∈ s.reg then
      match s.deleteTriples P u with
      | (.ok _, s) => (.ok new, s)
      | (.error e, s) => (.error e, s)
    else (.ok new, s)

/-- One round of the loop of `load`, wrapper_session.py:96-111. -/
def St.loadStep (P : Params) (uids missing : List Uid) (u : Uid) (s : St) : Res (Option Uid) :=
  if u ∉ missing then (if u ∈ s.reg then (.ok (some u), s) else (.error .keyError, s))
  else
    let old := if u ∈ s.reg then some (s.g u) else none
    match s.loadByIri u with
    | (.error e, s) => (.error e, s)
    | (.ok new, s) => St.afterLoad P uids old u new s

/-- The loop of `load`; every `next` enters the engine context, buffers.py:83-112, result.py. -/
def St.loadLoop (P : Params) (uids missing : List Uid) : List Uid → St → Res (List (Option Uid))
  | [], s => (.ok [], s)
  | u :: us, s =>
    match s.inEngine (St.loadStep P uids missing u) with
    | (.error e, s) => (.error e, s)
    | (.ok x, s) => match St.loadLoop P uids missing us s with
      | (.error e, s) => (.error e, s)
      | (.ok xs, s) => (.ok (x :: xs), s)

/-- `WrapperSession.load`, consumed completely, wrapper_session.py:70-111. -/
def St.load (P : Params) (s : St) (uids : List Uid) : Res (List (Option Uid)) :=
  if s.root = none then (.error .runtimeError, s)
  else
    let expired := uids.filter (· ∈ s.expired)
    let missing := uids.filter (fun u => u ∉ s.reg ∨ u ∈ expired)
    St.loadLoop P uids missing uids { s with expired := s.expired.filter (· ∉ expired) }

/-- `refresh`, wrapper_session.py:145-158. -/
def St.refresh (P : Params) (s : St) (us : List Uid) : Res Unit :=
  if us = [] then (.ok (), s)
  else
    let (es, s) := s.expire us
    match s.load P es with
    | (.ok _, s) => (.ok (), s)
    | (.error e, s) => (.error e, s)

/-- `_notify_read`, wrapper_session.py:294-301 (handles that are neither registered nor deleted do not occur in the model). -/
def St.notifyRead (P : Params) (s : St) (u : Uid) : Res Unit :=
  if u ∈ s.expired then s.refresh P [u] else (.ok (), s)

/-- `_load_by_oclass` for the uids the query found, triplestore_wrapper_session.py:62-68. -/
def St.loadFound (s : St) : List Uid → Res (List (Option Uid))
  | [] => (.ok [], s)
  | u :: us =>
    match s.inEngine (fun s => s.loadByIri u) with
    | (.error e, s) => (.error e, s)
    | (.ok x, s) => match St.loadFound s us with
      | (.error e, s) => (.error e, s)
      | (.ok xs, s) => (.ok (x :: xs), s)

/-- `load_by_oclass`, consumed completely, db_wrapper_session.py:31-47; `us` are the uids the queries for the subclasses find. -/
def St.loadByOclass (s : St) (us : List Uid) : Res (List (Option Uid)) :=
  if s.root = none then (.error .runtimeError, s) else s.loadFound us

/-- The loop of `_load_first_level`, triplestore_wrapper_session.py:48-59. -/
def St.loadAll (s : St) : List Uid → Res Unit
  | [] => (.ok (), s)
  | u :: us =>
    match s.loadByIri u with
    | (.error e, s) => (.error e, s)
    | (.ok _, s) => St.loadAll s us

/-- `Cuds(...)`: `DbWrapperSession._store` with the initialisation when the wrapper is stored, db_wrapper_session.py:49-67; the backend operations
of the initialisation are assumed to succeed. -/
def St.create (P : Params) (s : St) (u : Uid) (c : Content) : Res Unit :=
  if u = 0 then (.error .valueError, s)
  else
    let first := s.root = none
    let s := s.store u c
    if first then s.inEngine (fun s => s.loadAll (P.order (u :: (P.nb (s.db (s.slot u))).filter (· ≠ 0))))
    else (.ok (), s)

/-- A modification of the triples of one object through its handle: `_notify_read`, the change, `_notify_update`; cuds.py:823-848 (attributes),
neighbor_dict.py (relationships). If the object is not registered any more the handle has its own graph. -/
def St.modify (P : Params) (s : St) (u : Uid) (f : Content → Content) : Res Unit :=
  match s.notifyRead P u with
  | (.error e, s) => (.error e, s)
  | (.ok _, s) =>
    let s := if u ∈ s.reg then { s with g := Function.update s.g u (f (s.g u)) } else { s with det := Function.update s.det u (f (s.det u)) }
    s.notifyUpdate u

/-- The end of `delete_cuds_object`, session.py:81-94: after the relationships were removed (which are modifications), read and delete. -/
def St.delete (P : Params) (s : St) (u : Uid) : Res Unit :=
  match s.notifyRead P u with
  | (.error e, s) => (.error e, s)
  | (.ok _, s) => s.deleteTriples P u

/-! ### commit -/

/-- Backend operations inside the transaction. triplestore_wrapper_session.py 119-134. -/
inductive DbOp where
  | add (slot : Uid) (c : Content)
  | remove (slot : Uid)
  deriving DecidableEq

/-- triplestore_wrapper_session.py 119-134, contract of the backend. -/
def DbOp.run (db : Uid → Content) : DbOp → Uid → Content
  | .add k c => Function.update db k (db k ∪ c)
  | .remove k => Function.update db k ∅

/-- `get_triples` of the handle in a buffer, cuds.py:122-131. -/
def St.content (s : St) (u : Uid) : Content := if u ∈ s.reg then s.g u else s.det u

/-- `_apply_added`, `_apply_updated`, `_apply_deleted`, triplestore_wrapper_session.py:15-39. -/
def St.commitOps (s : St) : List DbOp :=
  s.user.added.map (fun u => .add (s.slot u) (s.content u)) ++
  s.user.updated.flatMap (fun u => [.remove (s.slot u), .add (s.slot u) (s.content u)]) ++
  s.user.deleted.map (fun u => .remove (s.slot u))

/-- `commit` inside the engine context, db_wrapper_session.py:12-29. `fail = some k`: the k-th backend operation raises; the last one is `_commit`
itself. The transaction is rolled back by the backend, so the committed triples do not change. -/
def St.commitBody (fail : Option Nat) (s : St) : Res Unit :=
  match s.root with
  | none => (.error .runtimeError, s)
  | some r =>
    if r ∉ s.reg then (.error .keyError, s)
    else
      let ops := s.commitOps
      match fail with
      | some k =>
        if k < ops.length then (.error .exception, s)
        else (.error .exception, { s with user := .empty })
      | none =>
        let s := { s with user := .empty, db := ops.foldl DbOp.run s.db }
        (.ok (), (s.expire s.reg).2)

/-- `DbWrapperSession.commit`, db_wrapper_session.py:11-29, wrapper_session.py:17-29. -/
def St.commit (s : St) (fail : Option Nat) : Res Unit := s.inEngine (St.commitBody fail)

/-! ### histories -/

/-- The operations of a history. `extern` is a change of the database by somebody else. Modelling device: histories of calls, nothing in /repo. -/
inductive Op where
  | create (u : Uid) (c : Content)
  | modify (u : Uid) (f : Content → Content)
  | delete (u : Uid)
  /-- deletion without reading, as `prune` does, session.py:68-79 -/
  | drop (u : Uid)
  | read (u : Uid)
  | load (us : List Uid)
  | loadByOclass (us : List Uid)
  | expire (us : List Uid)
  | expireAll
  | refresh (us : List Uid)
  | commit (fail : Option Nat)
  | extern (slot : Uid) (c : Content)

/-- Modelling device: histories of calls, nothing in /repo. -/
def Res.unit {α : Type} (r : Res α) : Res Unit := (match r.1 with
  | .ok _ => .ok ()
  | .error e => .error e, r.2)

/-- Modelling device: histories of calls, nothing in /repo. -/
def step (P : Params) (s : St) : Op → Res Unit
  | .create u c => s.create P u c
  | .modify u f => s.modify P u f
  | .delete u => s.delete P u
  | .drop u => s.deleteTriples P u
  | .read u => s.notifyRead P u
  | .load us => Res.unit (s.load P us)
  | .loadByOclass us => Res.unit (s.loadByOclass us)
  | .expire us => (.ok (), (s.expire us).2)
  | .expireAll => (.ok (), (s.expire s.reg).2)
  | .refresh us => s.refresh P us
  | .commit fail => s.commit fail
  | .extern k c => (.ok (), { s with db := Function.update s.db k c })

/-- A history; the user goes on after exceptions. Modelling device: histories of calls, nothing in /repo. -/
def run (P : Params) (s : St) (ops : List Op) : St := ops.foldl (fun s o => (step P s o).2) s

end Osp.Sess
