import Verif.Stmt.Insert
import Verif.Sql.Strings
import Verif.Yaml.Datatype
import Verif.Cuds.Props
/-!
# Creating and clearing the tables of an SQL database (C91)

`osp/core/session/db/sql_wrapper_session.py` (cited as sql:), `osp/wrappers/sqlite/sqlite_session.py` (lite:), `osp/core/utils/general.py`, `osp/core/ontology/cuba.py`.
-/
namespace Osp.Setup
open Osp.Sql Osp.Stmt

/-- The arguments of `_do_db_create`, sql:499-500. -/
structure Decl where
  table : Text
  columns : List Text
  dts : Dts
  pk : List Text
  fk : List (Text × (Text × Text))
  indexes : List (List Text)

/-- The namespaces, sql:27, 35, 57-58, 67, 85, 90-92. -/
def nsDecl : Decl := ⟨nsTable, ["ns_idx".toList, "namespace".toList], nsDts, ["ns_idx".toList], [], [["namespace".toList]]⟩
/-- The CUDS objects, sql:24, 31, 39-42, 62, 70, 87. -/
def cudsDecl : Decl := ⟨cudsTable, ["cuds_idx".toList, "uid".toList], cudsDts, ["cuds_idx".toList], [], [["uid".toList]]⟩
/-- The entities, sql:25, 32, 43-47, 63, 71, 88. -/
def entitiesDecl : Decl := ⟨entitiesTable, ["entity_idx".toList, "ns_idx".toList, "name".toList], entitiesDts, ["entity_idx".toList],
  [("ns_idx".toList, (nsTable, "ns_idx".toList))], [["ns_idx".toList, "name".toList]]⟩
/-- The types, sql:26, 33, 48-51, 64, 72-75, 89. -/
def typesDecl : Decl := ⟨typesTable, ["s".toList, "o".toList], typesDts, ["s".toList, "o".toList],
  [("s".toList, (cudsTable, "cuds_idx".toList)), ("o".toList, (entitiesTable, "entity_idx".toList))], [["s".toList], ["o".toList]]⟩
/-- The relationships, sql:28, 34, 52-54, 65, 76-80, 93-94. -/
def relsDecl : Decl := ⟨relsTable, ["s".toList, "p".toList, "o".toList], relsDts, ["s".toList, "p".toList, "o".toList],
  [("s".toList, (cudsTable, "cuds_idx".toList)), ("p".toList, (entitiesTable, "entity_idx".toList)), ("o".toList, (cudsTable, "cuds_idx".toList))],
  [["s".toList, "p".toList], ["p".toList, "o".toList]]⟩
/-- The values of a datatype, sql:29, 36, 55-56, 66, 81-84, 95 and 408-418. -/
def dataDecl (table dt : Text) : Decl := ⟨table, ["s".toList, "p".toList, "o".toList], dataDts dt, [],
  [("s".toList, (cudsTable, "cuds_idx".toList)), ("p".toList, (entitiesTable, "entity_idx".toList))], [["s".toList, "p".toList]]⟩

/-! ### the statements -/

/-- The names of the column types, lite:230-247. -/
def typeName : Affinity → Text
  | .text => "TEXT".toList
  | .integer => "INTEGER".toList
  | .numeric => "BOOLEAN".toList
  | .real => "REAL".toList

/-- The datatype of the elements of a vector, `YML_DATATYPES[name]`, datatypes.py:165-171, 216: the model of `get_expanded_cols` in Sql leaves the YAML name. Other datatypes stay. -/
def elemIri (t : Text) : Text := match Yaml.basicOf t with
  | some b => b.iri
  | none => t

/-- The type of a column, none if it is not in the dictionary, lite:94-98. -/
def colType (ds : Dts) (c : Text) : Except PyErr (Option Affinity) := match ds.lookup c with
  | none => .ok none
  | some dt => match sqliteType (dt.map elemIri) with
    | .ok a => .ok (some a)
    | .error e => .error e

/-- All columns, lite:94-98. -/
def colTypes (ds : Dts) : List Text → Except PyErr (List (Text × Option Affinity))
  | [] => .ok []
  | c :: cs => match colType ds c with
    | .error e => .error e
    | .ok a => match colTypes ds cs with
      | .error e => .error e
      | .ok l => .ok ((c, a) :: l)

/-- One column in the statement, lite:95-96. -/
def colText : Text × Option Affinity → Text
  | (c, none) => c
  | (c, some a) => quoted c ++ ' ' :: quoted (typeName a)

/-- `CREATE TABLE`, lite:99-115. -/
def createText (table : Text) (cols : List (Text × Option Affinity)) (pk : List Text) (fk : List (Text × (Text × Text))) : Text :=
  let constraints := if pk.isEmpty then [] else ["PRIMARY KEY(".toList ++ joinWith ", ".toList (pk.map quoted) ++ [')']]
  let constraints := constraints ++ fk.map (fun e => "FOREIGN KEY(".toList ++ quoted e.1 ++ ") REFERENCES ".toList ++ quoted e.2.1 ++ '(' :: quoted e.2.2 ++ [')'])
  "CREATE TABLE IF NOT EXISTS ".toList ++ quoted table ++ " (".toList ++ joinWith ", ".toList (cols.map colText ++ constraints) ++ ");".toList

/-- The name of an index, lite:118-119. -/
def indexName (table : Text) (cols : List Text) : Text := "idx_".toList ++ table ++ '_' :: joinWith ['_'] cols

/-- `CREATE INDEX`, lite:117-121. -/
def indexText (table : Text) (cols : List Text) : Text :=
  "CREATE INDEX IF NOT EXISTS ".toList ++ quoted (indexName table cols) ++ " ON ".toList ++ quoted table ++ '(' :: joinWith ", ".toList (cols.map quoted) ++ [')']

/-! ### sqlite -/

/-- A table of the database. sqlite; models nothing in /repo. -/
structure Table where
  name : Text
  cols : List (Text × Option Affinity)
  pk : List Text
  fk : List (Text × (Text × Text))
  deriving DecidableEq

/-- The database without its rows: tables, indexes (name, table, columns), and the statements that were sent. sqlite; models nothing in /repo. -/
structure Db where
  tables : List Table
  indexes : List (Text × Text × List Text)
  sent : List Text
  deriving DecidableEq

/-- Running `CREATE TABLE IF NOT EXISTS`: nothing happens if there is a table of that name (names are written in one way in /repo, so upper and lower case do not matter); a table has a limited number of columns
(SQLITE_MAX_COLUMN). sqlite; models nothing in /repo. -/
def Db.create (maxCols : Nat) (db : Db) (text : Text) (t : Table) : Except PyErr Unit × Db :=
  let db := { db with sent := db.sent ++ [text] }
  if db.tables.any (fun u => decide (u.name = t.name)) then (.ok (), db)
  else if maxCols < t.cols.length then (.error .exception, db)
  else (.ok (), { db with tables := db.tables ++ [t] })

/-- Running `CREATE INDEX IF NOT EXISTS`. sqlite; models nothing in /repo. -/
def Db.index (db : Db) (text : Text) (i : Text × Text × List Text) : Db :=
  let db := { db with sent := db.sent ++ [text] }
  if db.indexes.any (fun j => decide (j.1 = i.1)) then db else { db with indexes := db.indexes ++ [i] }

/-- `_db_create`, lite:92-121. -/
def dbCreate (maxCols : Nat) (table : Text) (columns : List Text) (ds : Dts) (pk : List Text) (fk : List (Text × (Text × Text))) (indexes : List (List Text)) (db : Db) :
    Except PyErr Unit × Db :=
  match colTypes ds columns with
  | .error e => (.error e, db)
  | .ok cols => match db.create maxCols (createText table cols pk fk) ⟨table, cols, pk, fk⟩ with
    | (.error e, db) => (.error e, db)
    | (.ok _, db) => (.ok (), indexes.foldl (fun db i => db.index (indexText table i) (indexName table i, table, i)) db)

/-- What `_do_db_create` gives to the check of characters, sql:503-504. -/
def declItems (d : Decl) (cs : List Text) (ds : Dts) : List (Item Unit) :=
  [.str d.table, .list (cs.map .str), .dict (ds.map (fun e => (.str e.1, optItem e.2))), .list (d.pk.map .str),
    .dict (d.fk.map (fun e => (.str e.1, .list [.str e.2.1, .str e.2.2]))), .list (d.indexes.map (fun i => .list (i.map .str)))]

/-- `_do_db_create`, sql:499-506, and `_default_create`, sql:548-557. -/
def doCreate (maxCols : Nat) (d : Decl) (db : Db) : Except PyErr Unit × Db :=
  match expandNames d.dts d.columns [] d.dts with
  | .error e => (.error e, db)
  | .ok (cs, ds) => match checkArgs (declItems d cs ds) with
    | .error e => (.error e, db)
    | .ok _ => dbCreate maxCols d.table cs ds d.pk d.fk d.indexes db

/-- Several tables, one after the other; the first exception ends it. sql:394-418. -/
def createAll (maxCols : Nat) : List Decl → Db → Except PyErr Unit × Db
  | [], db => (.ok (), db)
  | d :: l, db => match doCreate maxCols d db with
    | (.error e, db) => (.error e, db)
    | (.ok _, db) => createAll maxCols l db

/-! ### datatypes -/

/-- `NAMESPACE_IRI`, cuba.py:6. -/
def cuba : Text := "http://www.osp-core.com/cuba#".toList

/-- `ENTITIES` and `HIDDEN`, cuba.py:8-17. -/
def cubaNames : List Text := ["activeRelationship", "Entity", "File", "Nothing", "passiveRelationship", "path", "Wrapper", "attribute", "relationship", "Class", "_default",
  "_default_attribute", "_default_value", "_default_rel", "_length", "_shape", "_dtype", "_reference_by_label"].map String.toList

/-- `iri in rdflib_cuba`, cuba.py:39-45. -/
def inCuba (iri : Text) : Bool := cuba.isPrefixOf iri &&
  (let name := iri.drop cuba.length
   decide (name ∈ cubaNames) || "_datatypes/STRING-".toList.isPrefixOf name || "_datatypes/VECTOR-".toList.isPrefixOf name)

/-- `get_custom_datatypes`, general.py:113-128; `declared` are the subjects of the triples `(_, rdf:type, rdfs:Datatype)` of the ontology. -/
def customDatatypes (declared : List Text) : List Text := declared.filter inCuba

/-- The standard datatypes with a table, sql:402-405. -/
def standard : List Text := [xsdInteger, xsdIri ++ "boolean".toList, xsdIri ++ "float".toList, xsdString]

/-- A set in some order. Python itself; models nothing in /repo. -/
structure SetOrder where
  items : List Text → List Text
  mem : ∀ l x, x ∈ items l ↔ x ∈ l
  nodup : ∀ l, (items l).Nodup

/-- The tables of values, sql:406-418: the name of a table is computed when it is its turn. -/
def createData (maxCols : Nat) : List Text → Db → Except PyErr Unit × Db
  | [], db => (.ok (), db)
  | dt :: l, db => match dataTableName dt with
    | .error e => (.error e, db)
    | .ok t => match doCreate maxCols (dataDecl t dt) db with
      | (.error e, db) => (.error e, db)
      | (.ok _, db) => createData maxCols l db

/-- `_initialize`, sql:392-418. `check`: the result of the check of the version of the schema (C44). Reading the namespaces (sql:400) does not change the database and is modelled in Tables. -/
def initDb (maxCols : Nat) (check : Except PyErr Unit) (S : SetOrder) (declared : List Text) (db : Db) : Except PyErr Unit × Db :=
  match check with
  | .error e => (.error e, db)
  | .ok _ => match createAll maxCols [nsDecl, cudsDecl, entitiesDecl, typesDecl, relsDecl] db with
    | (.error e, db) => (.error e, db)
    | (.ok _, db) => createData maxCols (S.items (customDatatypes declared ++ standard)) db

/-! ### clearing -/

/-- The part of `_clear_database` that empties the session, sql:581-592, without the buffers: the relationships of the root go, then the triples of all other objects. -/
def clearLocal (O : Cuds.Onto) (s : Cuds.Sess) : Cuds.Out Unit := match s.root with
  | none => ⟨.error .valueError, s⟩
  | some r => if r ∉ s.reg then ⟨.error .keyError, s⟩
    else match Cuds.get O s r [] (some O.relationship) none with
      | .error e => ⟨.error e, s⟩
      | .ok us =>
        let o : Cuds.Out Unit := if us ≠ [] then Cuds.remove O s r [] (some O.relationship) none else ⟨.ok (), s⟩
        match o.res with
        | .error e => ⟨.error e, o.st⟩
        | .ok _ => ⟨.ok (), (o.st.reg.filter (fun u => u ≠ r)).foldl Cuds.deleteTriples o.st⟩

/-- The rows of each table. sqlite; models nothing in /repo. -/
abbrev Rows (R : Type) := Text → List R

/-- The tables that are emptied, in that order, sql:595-602. -/
def clearOrder (db : Db) : List Text := (db.tables.map Table.name).filter (fun t => tablePrefix.isPrefixOf t) ++ [typesTable, relsTable, cudsTable, entitiesTable, nsTable]

/-- Emptying tables; `fails`: sqlite may refuse (the database is locked, the disk is full, there is no such table). sql:595-602. -/
def clearTables {R : Type} (fails : Text → Option PyErr) : List Text → Rows R → Except PyErr Unit × Rows R
  | [], rows => (.ok (), rows)
  | t :: l, rows => match fails t with
    | some e => (.error e, rows)
    | none => clearTables fails l (fun x => if x = t then [] else rows x)

/-- A session with its database; `pending`: the buffers of the user may contain something. Modelling device. -/
structure World (R : Type) where
  local_ : Cuds.Sess
  pending : Bool
  db : Db
  rows : Rows R

/-- `_clear_database`, sql:575-607: in a transaction; an exception rolls the database back, not the session. The deletions in the session are buffered and then forgotten (sql:592). -/
def clear {R : Type} (O : Cuds.Onto) (maxCols : Nat) (fails : Text → Option PyErr) (check : Except PyErr Unit) (S : SetOrder) (declared : List Text) (w : World R) : Except PyErr Unit × World R :=
  let o := clearLocal O w.local_
  match o.res with
  | .error e => (.error e, { w with local_ := o.st, pending := true })
  | .ok _ => match clearTables fails (clearOrder w.db) w.rows with
    | (.error e, _) => (.error e, { w with local_ := o.st, pending := false })
    | (.ok _, rows) => match initDb maxCols check S declared w.db with
      | (.error e, _) => (.error e, { w with local_ := o.st, pending := false })
      | (.ok _, db) => (.ok (), ⟨o.st, false, db, rows⟩)

end Osp.Setup
