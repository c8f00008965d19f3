import Verif.Common
/-!
# The SQL tables of the triple store (C39)

`osp/core/session/db/sql_wrapper_session.py` (cited as sql:) over the sqlite backend `osp/wrappers/sqlite/sqlite_session.py` (cited as lite:).

What is modelled: the five kinds of tables with their generated keys, the namespace dictionaries of the session, the choice of the table, the construction of the
conditions (with the rows they create), the evaluation of the joins and of the deletions, and the translation of rows to triples.

Simplifications. A row order is never relied on: `SELECT` and the iteration over the set of tables give results in some order, here in the order of the tables. Values
of one datatype are compared by equality; how sqlite stores and compares them is the subject of C36, C37, C49 and C50. The IRI of a CUDS object and its uid are
identified (C45), subjects are CUDS objects, and predicates do not begin with the CUDS prefix. The ontology (which namespace an IRI is split at and what `from_iri`
finds) is a parameter that stays fixed during a history. Errors of the database other than a missing data table are not modelled.
-/
namespace Osp.Tables

/-- Texts. rdflib, as used by the cited callers; models nothing in /repo itself. Nothing in /repo. -/
abbrev Iri := List Char
/-- Uids as numbers. Modelling simplification. -/
abbrev Uid := Nat
/-- Keys of the tables, sql_wrapper_session.py 20-101. -/
abbrev Idx := Nat

variable {D V : Type}

/-- Objects of triples: the IRI of a CUDS object, another IRI, a literal with its datatype. sql_wrapper_session.py 149-174. -/
inductive Obj (D V : Type) where
  | cuds (u : Uid)
  | ent (i : Iri)
  | lit (dt : Option D) (v : V)
  deriving DecidableEq

/-- sql_wrapper_session.py 103-115. -/
structure Triple (D V : Type) where
  s : Uid
  p : Iri
  o : Obj D V
  deriving DecidableEq

/-- A pattern; `none` matches everything. sql_wrapper_session.py 103-131. -/
structure Pat (D V : Type) where
  s : Option Uid
  p : Option Iri
  o : Option (Obj D V)

/-- What `from_iri` finds for a predicate: a relationship, or an attribute (or class) with its datatype. sql_wrapper_session.py 149-174. -/
inductive Kind (D : Type) where
  | rel
  | attr (dt : Option D)
  deriving DecidableEq

/-- The ontology as the session sees it: the namespace an IRI is split at (namespace_registry.py:175-194) and the kind of a predicate (`none`: `from_iri` raises). -/
structure Onto (D : Type) where
  rdfType : Iri
  xsdString : D
  nsOf : Iri → Iri
  kind : Iri → Option (Kind D)

/-- The name part, sql:246. -/
def Onto.nameOf (O : Onto D) (i : Iri) : Iri := i.drop (O.nsOf i).length

/-- The tables, sql:21-96. `dts` are the datatypes that have a data table. -/
structure Db (D V : Type) where
  ns : List (Idx × Iri) := []
  cuds : List (Idx × Uid) := []
  ents : List (Idx × (Idx × Iri)) := []
  types : List (Idx × Idx) := []
  rels : List (Idx × Idx × Idx) := []
  dts : List D := []
  data : D → List (Idx × Idx × V) := fun _ => []

/-- The session: the database and the dictionary `_idx_to_ns` (`_ns_to_idx` is its inversion), sql:387-389. -/
structure St (D V : Type) where
  db : Db D V
  cache : List (Idx × Iri)

/-- Generated keys: sqlite uses the largest key plus one. sqlite; nothing in /repo. -/
def fresh {α : Type} (t : List (Idx × α)) : Idx := (t.map Prod.fst).foldl Nat.max 0 + 1

/-- Select the row with a value and insert it if there is none: `_get_cuds_idx`, `_get_entity_idx`, sql:321-354. -/
def getIdx {α : Type} [DecidableEq α] (x : α) (t : List (Idx × α)) : Idx × List (Idx × α) :=
  match t.find? (fun r => decide (r.2 = x)) with
  | some r => (r.1, t)
  | none => (fresh t, t ++ [(fresh t, x)])

/-- `_ns_to_idx[ns]`: the last key wins in the inverted dictionary, sql:389. -/
def cacheIdx (cache : List (Idx × Iri)) (n : Iri) : Option Idx := (cache.reverse.find? (fun r => decide (r.2 = n))).map Prod.fst

/-- `_get_ns_idx`, sql:248-258. After the insertion the dictionaries are loaded from the table. -/
def getNsIdx (n : Iri) (st : St D V) : Idx × St D V :=
  match cacheIdx st.cache n with
  | some i => (i, st)
  | none =>
    let t := st.db.ns ++ [(fresh st.db.ns, n)]
    ((cacheIdx t n).getD 0, ⟨{ st.db with ns := t }, t⟩)

/-- `_get_ns`, sql:260-263. -/
def getNs (i : Idx) (st : St D V) : Except PyErr Iri × St D V :=
  match st.cache.lookup i with
  | some n => (.ok n, st)
  | none => match st.db.ns.lookup i with
    | some n => (.ok n, { st with cache := st.db.ns })
    | none => (.error .keyError, { st with cache := st.db.ns })

/-- `_split_namespace` for an IRI that is not a CUDS IRI, sql:244-246. -/
def split (O : Onto D) (i : Iri) (st : St D V) : (Idx × Iri) × St D V :=
  let (n, st) := getNsIdx (O.nsOf i) st
  ((n, O.nameOf i), st)

/-- `_get_cuds_idx`, sql:321-334. -/
def cudsIdx (u : Uid) (st : St D V) : Idx × St D V :=
  let (i, t) := getIdx u st.db.cuds
  (i, { st with db := { st.db with cuds := t } })

/-- `_get_entity_idx(*_split_namespace(iri))`, sql:336-354. -/
def entIdx (O : Onto D) (i : Iri) (st : St D V) : Idx × St D V :=
  let (e, st) := split O i st
  let (k, t) := getIdx e st.db.ents
  (k, { st with db := { st.db with ents := t } })

/-! ### choice of the table -/

/-- sql_wrapper_session.py 20-101, 149-174. -/
inductive Tbl (D : Type) where
  | types | rels | data (d : D)

/-- `_determine_table`, sql:149-174. Without predicate and datatype the function returns `None`, which cannot be unpacked. -/
def determineTable (O : Onto D) (p : Option Iri) (o : Option (Obj D V)) : Except PyErr (Tbl D) :=
  match o with
  | some (.cuds _) => .ok .rels
  | some (.ent _) => .ok .types
  | some (.lit (some d) _) => .ok (.data d)
  | _ =>
    match p with
    | none => .error .typeError
    | some p =>
      if p = O.rdfType then .ok .types
      else match O.kind p with
        | none => .error .keyError
        | some .rel => .ok .rels
        | some (.attr dt) => .ok (.data (dt.getD O.xsdString))

/-- All tables with triples, sql:136-139. -/
def allTables (db : Db D V) : List (Tbl D) := .rels :: .types :: db.dts.map .data

/-- The tables a pattern is looked up in, sql:117-133. -/
def tablesFor (O : Onto D) (db : Db D V) (pat : Pat D V) : Except PyErr (List (Tbl D)) :=
  match pat.p, pat.o with
  | none, none => .ok (allTables db)
  | p, o => match determineTable O p o with
    | .error e => .error e
    | .ok t => .ok [t]

/-! ### selection -/

/-- The conditions of a query, `_get_conditions`, sql:209-238: uid of the subject, split predicate, uid or split IRI or value of the object. -/
structure Conds (V : Type) where
  s : Option Uid
  p : Option (Idx × Iri)
  ou : Option Uid
  oe : Option (Idx × Iri)
  ov : Option V

/-- Splitting an optional IRI. sql_wrapper_session.py 208-246. -/
def splitOpt (O : Onto D) (i : Option Iri) (st : St D V) : Option (Idx × Iri) × St D V :=
  match i with
  | none => (none, st)
  | some i => let (e, st) := split O i st; (some e, st)

/-- `_get_conditions`, sql:209-238. In the table of the types the predicate is not looked at. In the table of the relationships the object is a CUDS IRI, in a data
table a literal, by the choice of the table. -/
def conditions (O : Onto D) (pat : Pat D V) (t : Tbl D) (st : St D V) : Conds V × St D V :=
  match t with
  | .types =>
    let (e, st) := splitOpt O (match pat.o with | some (.ent i) => some i | _ => none) st
    (⟨pat.s, none, none, e, none⟩, st)
  | .rels =>
    let (e, st) := splitOpt O pat.p st
    (⟨pat.s, e, match pat.o with | some (.cuds u) => some u | _ => none, none, none⟩, st)
  | .data _ =>
    let (e, st) := splitOpt O pat.p st
    (⟨pat.s, e, none, none, match pat.o with | some (.lit _ v) => some v | _ => none⟩, st)

/-- An optional equality condition. sql_util.py 78-118. -/
def eqC {α : Type} [DecidableEq α] (c : Option α) (x : α) : Bool := match c with
  | none => true
  | some y => decide (x = y)

/-- A selected row: the uid, the namespace index and name of the entity, and the object. sql_wrapper_session.py 176-206. -/
structure Row (V : Type) where
  u : Uid
  n : Idx
  name : Iri
  ou : Option Uid := none
  ov : Option V := none

/-- The join of the table of the types, sql:176-207. -/
def selectTypes (db : Db D V) (c : Conds V) : List (Row V) :=
  db.types.flatMap fun r => db.cuds.flatMap fun a => db.ents.flatMap fun e =>
    if r.1 = a.1 ∧ r.2 = e.1 ∧ eqC c.s a.2 ∧ eqC c.oe e.2 then [⟨a.2, e.2.1, e.2.2, none, none⟩] else []

/-- The join of the table of the relationships, sql:176-207. -/
def selectRels (db : Db D V) (c : Conds V) : List (Row V) :=
  db.rels.flatMap fun r => db.cuds.flatMap fun a => db.ents.flatMap fun e => db.cuds.flatMap fun b =>
    if r.1 = a.1 ∧ r.2.1 = e.1 ∧ r.2.2 = b.1 ∧ eqC c.s a.2 ∧ eqC c.p e.2 ∧ eqC c.ou b.2 then [⟨a.2, e.2.1, e.2.2, some b.2, none⟩] else []

/-- The join of a data table, sql:176-207. -/
def selectData [DecidableEq V] (db : Db D V) (d : D) (c : Conds V) : List (Row V) :=
  (db.data d).flatMap fun r => db.cuds.flatMap fun a => db.ents.flatMap fun e =>
    if r.1 = a.1 ∧ r.2.1 = e.1 ∧ eqC c.s a.2 ∧ eqC c.p e.2 ∧ eqC c.ov r.2.2 then [⟨a.2, e.2.1, e.2.2, none, some r.2.2⟩] else []

/-- The triple of a row, sql:265-275. -/
def rowTriple (O : Onto D) (t : Tbl D) (r : Row V) (x : Iri) : Option (Triple D V) :=
  match t with
  | .types => some ⟨r.u, O.rdfType, .ent x⟩
  | .rels => r.ou.map (fun u => ⟨r.u, x, .cuds u⟩)
  | .data d => r.ov.map (fun v => ⟨r.u, x, .lit (some d) v⟩)

/-- `_rows_to_triples`, sql:265-275. -/
def rowsToTriples (O : Onto D) (t : Tbl D) : List (Row V) → St D V → Except PyErr (List (Triple D V)) × St D V
  | [], st => (.ok [], st)
  | r :: rs, st => match getNs r.n st with
    | (.error e, st) => (.error e, st)
    | (.ok n, st) => match rowsToTriples O t rs st with
      | (.error e, st) => (.error e, st)
      | (.ok ts, st) => (.ok ((rowTriple O t r (n ++ r.name)).toList ++ ts), st)

/-- One query: conditions, selection, translation. A data table that does not exist is an error of the database. sql_wrapper_session.py 103-131, 265-277. -/
def query [DecidableEq D] [DecidableEq V] (O : Onto D) (pat : Pat D V) (t : Tbl D) (st : St D V) : Except PyErr (List (Triple D V)) × St D V :=
  match conditions O pat t st with
  | (c, st) => match t with
    | .types => rowsToTriples O t (selectTypes st.db c) st
    | .rels => rowsToTriples O t (selectRels st.db c) st
    | .data d => if d ∈ st.db.dts then rowsToTriples O t (selectData st.db d c) st else (.error .exception, st)

/-- The queries of several tables. sql_wrapper_session.py 103-131. -/
def queries [DecidableEq D] [DecidableEq V] (O : Onto D) (pat : Pat D V) : List (Tbl D) → St D V → Except PyErr (List (Triple D V)) × St D V
  | [], st => (.ok [], st)
  | t :: ts, st => match query O pat t st with
    | (.error e, st) => (.error e, st)
    | (.ok x, st) => match queries O pat ts st with
      | (.error e, st) => (.error e, st)
      | (.ok y, st) => (.ok (x ++ y), st)

/-- `_triples`, sql:103-108. -/
def triples [DecidableEq D] [DecidableEq V] (O : Onto D) (pat : Pat D V) (st : St D V) : Except PyErr (List (Triple D V)) × St D V :=
  match tablesFor O st.db pat with
  | .error e => (.error e, st)
  | .ok ts => queries O pat ts st

/-! ### adding -/

/-- `_db_insert` into a table with a primary key over all columns, lite:108-122: a row that is there already is not inserted. -/
def insertUnique {α : Type} [DecidableEq α] (r : α) (t : List α) : List α := if r ∈ t then t else t ++ [r]

/-- `_add` of one triple, sql:296-319. The rows of the subject and of the entities are created before the row of the triple. -/
def add [DecidableEq D] (O : Onto D) (t : Triple D V) (st : St D V) : Except PyErr Unit × St D V :=
  match determineTable O (some t.p) (some t.o) with
  | .error e => (.error e, st)
  | .ok .types =>
    let (s, st) := cudsIdx t.s st
    match t.o with
    | .ent i =>
      let (o, st) := entIdx O i st
      (.ok (), { st with db := { st.db with types := insertUnique (s, o) st.db.types } })
    | _ => (.error .valueError, st)
  | .ok .rels =>
    let (s, st) := cudsIdx t.s st
    let (p, st) := entIdx O t.p st
    match t.o with
    | .cuds u =>
      let (o, st) := cudsIdx u st
      (.ok (), { st with db := { st.db with rels := insertUnique (s, p, o) st.db.rels } })
    | _ => (.error .valueError, st)
  | .ok (.data d) =>
    let (s, st) := cudsIdx t.s st
    let (p, st) := entIdx O t.p st
    match t.o with
    | .lit _ v =>
      if d ∈ st.db.dts then (.ok (), { st with db := { st.db with data := fun e => if e = d then st.db.data d ++ [(s, p, v)] else st.db.data e } })
      else (.error .exception, st)
    | _ => (.error .valueError, st)

/-! ### removing -/

/-- Optional `_get_cuds_idx`. sql_wrapper_session.py 360-385. -/
def cudsIdxOpt (u : Option Uid) (st : St D V) : Option Idx × St D V :=
  match u with
  | none => (none, st)
  | some u => let (i, st) := cudsIdx u st; (some i, st)

/-- Optional `_get_entity_idx`. sql_wrapper_session.py 360-385. -/
def entIdxOpt (O : Onto D) (i : Option Iri) (st : St D V) : Option Idx × St D V :=
  match i with
  | none => (none, st)
  | some i => let (k, st) := entIdx O i st; (some k, st)

/-- The deletion of one table: `_construct_remove_condition`, sql:360-385, and `_db_delete`, lite:137-143. -/
def removeTable [DecidableEq D] [DecidableEq V] (O : Onto D) (pat : Pat D V) (t : Tbl D) (st : St D V) : Except PyErr Unit × St D V :=
  let (s, st) := cudsIdxOpt pat.s st
  match t with
  | .types =>
    let (o, st) := entIdxOpt O (match pat.o with | some (.ent i) => some i | _ => none) st
    (.ok (), { st with db := { st.db with types := st.db.types.filter (fun r => !(eqC s r.1 && eqC o r.2)) } })
  | .rels =>
    let (p, st) := entIdxOpt O pat.p st
    let (o, st) := cudsIdxOpt (match pat.o with | some (.cuds u) => some u | _ => none) st
    (.ok (), { st with db := { st.db with rels := st.db.rels.filter (fun r => !(eqC s r.1 && eqC p r.2.1 && eqC o r.2.2)) } })
  | .data d =>
    let (p, st) := entIdxOpt O pat.p st
    let v : Option V := match pat.o with | some (.lit _ v) => some v | _ => none
    if d ∈ st.db.dts then
      (.ok (), { st with db := { st.db with data := fun e => if e = d then (st.db.data d).filter (fun r => !(eqC s r.1 && eqC p r.2.1 && eqC v r.2.2)) else st.db.data e } })
    else (.error .exception, st)

/-- sql_wrapper_session.py 356-358. -/
def removeTables [DecidableEq D] [DecidableEq V] (O : Onto D) (pat : Pat D V) : List (Tbl D) → St D V → Except PyErr Unit × St D V
  | [], st => (.ok (), st)
  | t :: ts, st => match removeTable O pat t st with
    | (.error e, st) => (.error e, st)
    | (.ok _, st) => removeTables O pat ts st

/-- `_remove`, sql:356-358. -/
def remove [DecidableEq D] [DecidableEq V] (O : Onto D) (pat : Pat D V) (st : St D V) : Except PyErr Unit × St D V :=
  match tablesFor O st.db pat with
  | .error e => (.error e, st)
  | .ok ts => removeTables O pat ts st

/-! ### sessions -/

/-- `_initialize` of a session on an existing database: missing data tables are created, the dictionaries loaded, sql:393-418. -/
def reopen [DecidableEq D] (dts : List D) (st : St D V) : St D V :=
  ⟨{ st.db with dts := st.db.dts ++ dts.filter (fun d => d ∉ st.db.dts) }, st.db.ns⟩

/-- The deletions of `_clear_database` and its call of `_initialize`, sql:660-685. -/
def clear [DecidableEq D] (dts : List D) (st : St D V) : St D V :=
  reopen dts ⟨{ dts := st.db.dts }, st.cache⟩

/-- A new database. Modelling device. -/
def St.empty : St D V := ⟨{}, []⟩

/-- Modelling device: histories of calls, nothing in /repo. -/
inductive Op (D V : Type) where
  | add (t : Triple D V)
  | remove (pat : Pat D V)
  | query (pat : Pat D V)
  | reopen (dts : List D)
  | clear (dts : List D)

/-- Modelling device: histories of calls, nothing in /repo. -/
def step [DecidableEq D] [DecidableEq V] (O : Onto D) (st : St D V) : Op D V → Except PyErr Unit × St D V
  | .add t => add O t st
  | .remove pat => remove O pat st
  | .query pat => match triples O pat st with
    | (.error e, st) => (.error e, st)
    | (.ok _, st) => (.ok (), st)
  | .reopen dts => (.ok (), reopen dts st)
  | .clear dts => (.ok (), clear dts st)

/-- The state after a history; calls that raise keep what they had done before. Modelling device: histories of calls, nothing in /repo. -/
def run [DecidableEq D] [DecidableEq V] (O : Onto D) (st : St D V) (ops : List (Op D V)) : St D V := ops.foldl (fun st op => (step O st op).2) st

/-- The first exception of a history. Modelling device: histories of calls, nothing in /repo. -/
def firstErr [DecidableEq D] [DecidableEq V] (O : Onto D) : St D V → List (Op D V) → Option PyErr
  | _, [] => none
  | st, op :: ops => match step O st op with
    | (.error e, _) => some e
    | (.ok _, st) => firstErr O st ops

end Osp.Tables
