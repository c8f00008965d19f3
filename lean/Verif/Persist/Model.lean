import Verif.Tables.Props
/-!
# Committing to and loading from a SQL database

`osp/core/session/db/triplestore_wrapper_session.py` (cited as ts:) over the tables of `osp/core/session/db/sql_wrapper_session.py` (cited as sql:, modelled in
`Verif/Tables`), `osp/core/session/db/db_wrapper_session.py` (cited as db:) and `osp/core/utils/wrapper_development.py:create_from_triples` (cited as wd:).

What is modelled: the replacement of the wrapper's IRI by the zero IRI and back, the three loops of a commit with the statements they send to the tables, the loading of one
object with the types of its neighbours, what this does to the graph of the session, the loading of the first level and of the objects of a class.

Simplifications. Those of `Verif/Tables`. Buffers are the lists of their entries in the order of insertion, an entry is a uid with the (predicate, object) pairs that
`get_triples` gives for the object; how the buffers come about is the subject of `Verif/Sess`. Predicates do not begin with the prefix of object IRIs. A failing commit is
rolled back as in `Verif/Tables`. Wrapper checks, notifications and the set of expired objects are not modelled here
(see `Verif/Sess`).
-/
namespace Osp.Persist
open Tables

variable {D V : Type}

/-- The ontology, and what the text of a literal looks like: `none` for a text without the prefix of object IRIs, otherwise what `uid_from_iri` gives for it. ts:70-84. -/
structure Env (D V : Type) extends Tables.Onto D where
  looks : V → Option (Except PyErr Uid)
  /-- the order in which a Python set of uids is iterated: any list with the same elements, each once -/
  order : List Uid → List Uid
  order_mem : ∀ l u, u ∈ order l ↔ u ∈ l
  order_nodup : ∀ l, (order l).Nodup

/-- `x` is replaced by the IRI of `b` if it is the IRI of `a`, ts:70-84: an object of a triple. -/
def substObj (E : Env D V) (a b : Uid) : Obj D V → Except PyErr (Obj D V)
  | .cuds u => .ok (.cuds (if u = a then b else u))
  | .ent i => .ok (.ent i)
  | .lit d v => match E.looks v with
    | none => .ok (.lit d v)
    | some (.error e) => .error e
    | some (.ok u) => .ok (if u = a then .cuds b else .lit d v)

/-- A triple, ts:70-84. -/
def substTriple (E : Env D V) (a b : Uid) (t : Triple D V) : Except PyErr (Triple D V) :=
  match substObj E a b t.o with
  | .error e => .error e
  | .ok o => .ok ⟨if t.s = a then b else t.s, t.p, o⟩

/-- The generator, consumed completely, ts:70-84. -/
def subst (E : Env D V) (a b : Uid) : List (Triple D V) → Except PyErr (List (Triple D V))
  | [] => .ok []
  | t :: ts => match substTriple E a b t with
    | .error e => .error e
    | .ok x => match subst E a b ts with
      | .error e => .error e
      | .ok xs => .ok (x :: xs)

/-! ### commit -/

/-- An entry of a buffer: the uid of the object and its predicates with objects. wrapper_session.py 320-333, cuds.py 125-133. -/
structure Entry (D V : Type) where
  u : Uid
  c : List (Iri × Obj D V)

/-- `get_triples`, cuds.py 125-133. -/
def Entry.triples (e : Entry D V) : List (Triple D V) := e.c.map (fun x => ⟨e.u, x.1, x.2⟩)

/-- The buffers of the user. wrapper_session.py 320-333. -/
structure Bufs (D V : Type) where
  added : List (Entry D V)
  updated : List (Entry D V)
  deleted : List Uid

variable [DecidableEq D] [DecidableEq V]

/-- `_add(*triples)`, sql:296-319. -/
def addAll (O : Tables.Onto D) : List (Triple D V) → St D V → Except PyErr Unit × St D V
  | [], st => (.ok (), st)
  | t :: ts, st => match add O t st with
    | (.error e, st) => (.error e, st)
    | (.ok _, st) => addAll O ts st

/-- The triples of one object are replaced and added, ts:19-22 and 30-32. The arguments of `_add` are computed before the first triple is added. -/
def addEntry (E : Env D V) (root : Uid) (e : Entry D V) (st : St D V) : Except PyErr Unit × St D V :=
  match subst E root 0 e.triples with
  | .error x => (.error x, st)
  | .ok ts => addAll E.toOnto ts st

/-- `_apply_added`, ts:15-22. -/
def applyAdded (E : Env D V) (root : Uid) : List (Entry D V) → St D V → Except PyErr Unit × St D V
  | [], st => (.ok (), st)
  | e :: es, st => match addEntry E root e st with
    | (.error x, st) => (.error x, st)
    | (.ok _, st) => applyAdded E root es st

/-- The removal of all triples of an object, ts:29 and 39-40. -/
def removeObj (E : Env D V) (root u : Uid) (st : St D V) : Except PyErr Unit × St D V :=
  remove E.toOnto ⟨some (if u = root then 0 else u), none, none⟩ st

/-- `_apply_updated`, ts:25-32. -/
def applyUpdated (E : Env D V) (root : Uid) : List (Entry D V) → St D V → Except PyErr Unit × St D V
  | [], st => (.ok (), st)
  | e :: es, st => match removeObj E root e.u st with
    | (.error x, st) => (.error x, st)
    | (.ok _, st) => match addEntry E root e st with
      | (.error x, st) => (.error x, st)
      | (.ok _, st) => applyUpdated E root es st

/-- `_apply_deleted`, ts:35-40. -/
def applyDeleted (E : Env D V) (root : Uid) : List Uid → St D V → Except PyErr Unit × St D V
  | [], st => (.ok (), st)
  | u :: us, st => match removeObj E root u st with
    | (.error x, st) => (.error x, st)
    | (.ok _, st) => applyDeleted E root us st

/-- The statements of a transaction, db:18-22. -/
def applyAll (E : Env D V) (root : Uid) (b : Bufs D V) (st : St D V) : Except PyErr Unit × St D V :=
  match applyAdded E root b.added st with
  | (.error x, st) => (.error x, st)
  | (.ok _, st) => match applyUpdated E root b.updated st with
    | (.error x, st) => (.error x, st)
    | (.ok _, st) => applyDeleted E root b.deleted st

/-- `commit`, db:11-29: if a statement raises, the transaction is rolled back and the exception raised again. -/
def commit (E : Env D V) (root : Uid) (b : Bufs D V) (st : St D V) : Except PyErr Unit × St D V :=
  match applyAll E root b st with
  | (.error x, st1) => (.error x, rollback st st1)
  | (.ok _, st1) => (.ok (), st1)

/-! ### load -/

/-- The types of the objects of the triples, sql:284-287. -/
def typesOf (O : Tables.Onto D) : List (Triple D V) → St D V → Except PyErr (List (Triple D V)) × St D V
  | [], st => (.ok [], st)
  | t :: ts, st => match t.o with
    | .cuds u => match triples O ⟨some u, some O.rdfType, none⟩ st with
      | (.error e, st) => (.error e, st)
      | (.ok a, st) => match typesOf O ts st with
        | (.error e, st) => (.error e, st)
        | (.ok b, st) => (.ok (a ++ b), st)
    | _ => (.error .valueError, st)

/-- `_load_triples_for_iri`, sql:279-292: the relationships, the types of the neighbours, the other triples. -/
def loadTriples (O : Tables.Onto D) (u : Uid) (st : St D V) : Except PyErr (List (Triple D V) × List (Triple D V)) × St D V :=
  match queries O ⟨some u, none, none⟩ [.rels] st with
  | (.error e, st) => (.error e, st)
  | (.ok a, st) => match typesOf O a st with
    | (.error e, st) => (.error e, st)
    | (.ok n, st) => match queries O ⟨some u, none, none⟩ (.types :: st.db.dts.map .data) st with
      | (.error e, st) => (.error e, st)
      | (.ok b, st) => (.ok (a ++ b, n), st)

/-- `_load_by_iri` up to the call of `create_from_triples`, ts:86-101. -/
def fetch (E : Env D V) (root u : Uid) (st : St D V) : Except PyErr (List (Triple D V) × List (Triple D V)) × St D V :=
  match loadTriples E.toOnto (if u = root then 0 else u) st with
  | (.error e, st) => (.error e, st)
  | (.ok (a, n), st) => match subst E 0 root a with
    | .error e => (.error e, st)
    | .ok a => match subst E 0 root n with
      | .error e => (.error e, st)
      | .ok n => (.ok (a, n), st)

/-- The registry and the graph of a session. session.py 15-19. -/
structure Ses (D V : Type) where
  root : Uid
  reg : List Uid
  g : List (Triple D V)

/-- `create_from_triples` with `fix_neighbors=False`, wd:204-232: the object (if there are triples) is created or its triples are removed, then all triples are added. -/
def createFrom (ts ns : List (Triple D V)) (s : Ses D V) : Option Uid × Ses D V :=
  match ts with
  | [] => (none, s)
  | t :: _ =>
    let s1 : Ses D V := if t.s ∈ s.reg then { s with g := s.g.filter (fun x => decide (x.s ≠ t.s)) } else { s with reg := s.reg ++ [t.s] }
    (some t.s, { s1 with g := s1.g ++ ts ++ ns })

/-- `_load_by_iri`, ts:86-107. -/
def loadByIri (E : Env D V) (u : Uid) (s : Ses D V) (st : St D V) : Except PyErr (Option Uid) × Ses D V × St D V :=
  match fetch E s.root u st with
  | (.error e, st) => (.error e, s, st)
  | (.ok (a, n), st) => (.ok (createFrom a n s).1, (createFrom a n s).2, st)

/-- `_load_from_backend`, ts:42-46, and the loop of `_load_first_level`, ts:58-59. -/
def loadAll (E : Env D V) : List Uid → Ses D V → St D V → Except PyErr (List (Option Uid)) × Ses D V × St D V
  | [], s, st => (.ok [], s, st)
  | u :: us, s, st => match loadByIri E u s st with
    | (.error e, s, st) => (.error e, s, st)
    | (.ok x, s, st) => match loadAll E us s st with
      | (.error e, s, st) => (.error e, s, st)
      | (.ok xs, s, st) => (.ok (x :: xs), s, st)

/-- The uids of the objects of the triples that are not the wrapper, ts:52-56. -/
def childUids : List (Triple D V) → List Uid
  | [] => []
  | t :: ts => match t.o with
    | .cuds u => if u ≠ 0 then u :: childUids ts else childUids ts
    | _ => childUids ts

/-- `_load_first_level`, ts:48-59. -/
def firstLevel (E : Env D V) (s : Ses D V) (st : St D V) : Except PyErr Unit × Ses D V × St D V :=
  match triples E.toOnto ⟨some 0, none, none⟩ st with
  | (.error e, st) => (.error e, s, st)
  | (.ok ts, st) => match loadAll E (E.order (s.root :: childUids ts)) s st with
    | (.error e, s, st) => (.error e, s, st)
    | (.ok _, s, st) => (.ok (), s, st)

/-- `_load_by_oclass`, ts:62-68. -/
def loadByOclass (E : Env D V) (c : Iri) (s : Ses D V) (st : St D V) : Except PyErr (List (Option Uid)) × Ses D V × St D V :=
  match triples E.toOnto ⟨none, some E.rdfType, some (.ent c)⟩ st with
  | (.error e, st) => (.error e, s, st)
  | (.ok ts, st) => loadAll E (E.order (ts.map (fun t => if t.s = 0 then s.root else t.s))) s st

/-- `load_by_oclass` for the list of the subclasses, db:31-47. -/
def loadByOclasses (E : Env D V) : List Iri → Ses D V → St D V → Except PyErr (List (Option Uid)) × Ses D V × St D V
  | [], s, st => (.ok [], s, st)
  | c :: cs, s, st => match loadByOclass E c s st with
    | (.error e, s, st) => (.error e, s, st)
    | (.ok xs, s, st) => match loadByOclasses E cs s st with
      | (.error e, s, st) => (.error e, s, st)
      | (.ok ys, s, st) => (.ok (xs ++ ys), s, st)

/-- A wrapper is stored in a new session on the database: initialisation and first level, db:49-67, sql:393-418. -/
def connect (E : Env D V) (root : Uid) (own : List (Triple D V)) (dts : List D) (st : St D V) : Except PyErr Unit × Ses D V × St D V :=
  firstLevel E ⟨root, [root], own⟩ (reopen dts st)

/-! ### histories -/

/-- What happens to a database: a new session with a new wrapper, a commit, loads. Modelling device: histories of calls, nothing in /repo. -/
inductive Ev (D V : Type) where
  | connect (root : Uid) (own : List (Triple D V)) (dts : List D)
  | commit (b : Bufs D V)
  | load (us : List Uid)
  | byOclass (cs : List Iri)

/-- The last session and the database. Modelling device: histories of calls, nothing in /repo. -/
structure World (D V : Type) where
  s : Ses D V
  st : St D V

/-- An empty database without session. Modelling device. -/
def World.start : World D V := ⟨⟨0, [], []⟩, St.empty⟩

/-- Modelling device: histories of calls, nothing in /repo. -/
def step (E : Env D V) (w : World D V) : Ev D V → Except PyErr Unit × World D V
  | .connect root own dts => match connect E root own dts w.st with
    | (r, s, st) => (r, ⟨s, st⟩)
  | .commit b => match commit E w.s.root b w.st with
    | (r, st) => (r, ⟨w.s, st⟩)
  | .load us => match loadAll E us w.s w.st with
    | (.error e, s, st) => (.error e, ⟨s, st⟩)
    | (.ok _, s, st) => (.ok (), ⟨s, st⟩)
  | .byOclass cs => match loadByOclasses E cs w.s w.st with
    | (.error e, s, st) => (.error e, ⟨s, st⟩)
    | (.ok _, s, st) => (.ok (), ⟨s, st⟩)

/-- A history; the user goes on after exceptions. Modelling device: histories of calls, nothing in /repo. -/
def run (E : Env D V) (w : World D V) (evs : List (Ev D V)) : World D V := evs.foldl (fun w e => (step E w e).2) w

/-- Some call of the history raised. Modelling device: histories of calls, nothing in /repo. -/
def raised (E : Env D V) : World D V → List (Ev D V) → Option PyErr
  | _, [] => none
  | w, e :: es => match step E w e with
    | (.error x, _) => some x
    | (.ok _, w) => raised E w es

end Osp.Persist
