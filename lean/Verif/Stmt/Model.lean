import Verif.Sql.Conditions
import Verif.Tables.Model
/-!
# SQL statements (C89)

`SqlQuery`, the conditions and the expansion of vectors in `osp/core/session/db/sql_util.py` (cited as util:), the queries and conditions the triple store builds in
`osp/core/session/db/sql_wrapper_session.py` (cited as sql:), and the statements of `osp/wrappers/sqlite/sqlite_session.py` (cited as lite:).

Simplifications. `convert_from` is the identity on values that have the type of their column (C36, C50). The set of an AndCondition is iterated in some order and some
duplicates are removed: the parameter `PySet` stands for any such behaviour. Datatypes of elements of vectors are given by their YAML name (datatypes.py 168-174). Namespaces are
split before (`Osp.Tables.conditions`, `Osp.Tables.removeTable`).
-/
namespace Osp.Stmt
open Osp.Sql

variable {Y : Type}

/-- Values in conditions and in columns: keys, uids, names, data, and vectors as flat lists (only in conditions). `null` stands for a column that does not exist.
util:82-94, sql_wrapper_session.py 36-60. -/
inductive Cell (Y : Type) where
  | null
  | idx (n : Nat)
  | uid (u : Nat)
  | txt (t : Text)
  | val (y : Y)
  | vec (l : List Y)
  deriving DecidableEq

/-- Python equality of conditions: `__eq__`, util:96-112, util:130-146, util:159-169. Sets are compared as sets. -/
inductive PyEq {V : Type} : Cond V → Cond V → Prop
  | eq (t c : Text) (v : V) (d : Option Text) : PyEq (.eq t c v d) (.eq t c v d)
  | join (t1 c1 t2 c2 : Text) : PyEq (.join t1 c1 t2 c2) (.join t1 c1 t2 c2)
  | and (as bs : List (Cond V)) (f g : Cond V → Cond V) : (∀ a, a ∈ as → f a ∈ bs) → (∀ a, a ∈ as → PyEq a (f a)) → (∀ b, b ∈ bs → g b ∈ as) → (∀ b, b ∈ bs → PyEq (g b) b) →
      PyEq (.and as) (.and bs)

/-- The behaviour of Python sets of conditions: the elements in the order of the iteration. No element is invented, and for every element one that is equal to it is in the set.
(The hash of an AndCondition depends on the order of its set, util:171-173, so that equal ones may both stay.) Modelling device for util:148-157. -/
structure PySet (V : Type) where
  items : List (Cond V) → List (Cond V)
  part : ∀ l, ∃ k, (items l).Perm k ∧ k.Sublist l
  whole : ∀ l, ∀ c ∈ l, ∃ d ∈ items l, PyEq d c

/-- `AndCondition(*conditions)`, util:148-157, without `None` among them. -/
def mkAnd {V : Type} (S : PySet V) (cs : List (Cond V)) : Cond V := .and (S.items cs)

/-- Check of the characters, util:229-268 (C38), with enough steps for the arguments. -/
def checkArgs {V : Type} (args : List (Item V)) : Except PyErr Unit := checkChars (Item.weightL args) forbidden args.reverse

mutual
/-- `expand_vector_condition`, util:374-396. A datatype `None` has no method `startswith`; a value that is not a list cannot be iterated. -/
def expandCond (S : PySet (Cell Y)) : Cond (Cell Y) → Except PyErr (Cond (Cell Y))
  | .eq t c v dt => match dt with
    | none => .error .attributeError
    | some i => if isVec i then match expandedCols c i with
        | .error e => .error e
        | .ok (cols, edt) => match v with
          | .vec l => .ok (mkAnd S ((cols.zip l).map (fun x => .eq t x.1 (.val x.2) (some edt))))
          | _ => .error .typeError
      else .ok (.eq t c v (some i))
  | .join t1 c1 t2 c2 => .ok (.join t1 c1 t2 c2)
  | .and cs => match expandConds S cs with
    | .error e => .error e
    | .ok ds => .ok (mkAnd S ds)
/-- The conditions of an AndCondition, util:391-394. -/
def expandConds (S : PySet (Cell Y)) : List (Cond (Cell Y)) → Except PyErr (List (Cond (Cell Y)))
  | [] => .ok []
  | c :: cs => match expandCond S c with
    | .error e => .error e
    | .ok d => match expandConds S cs with
      | .error e => .error e
      | .ok ds => .ok (d :: ds)
end

/-- Optional conditions: `None` is returned as it is, util:374-396. -/
def expandOpt (S : PySet (Cell Y)) : Option (Cond (Cell Y)) → Except PyErr (Option (Cond (Cell Y)))
  | none => .ok none
  | some c => match expandCond S c with
    | .error e => .error e
    | .ok d => .ok (some d)

/-! ### queries -/

/-- A dictionary from columns to datatypes in the order of insertion. Python itself; models nothing in /repo. -/
abbrev Dts := List (Text × Option Text)

/-- `d[k] = v` for a dictionary. Python itself; models nothing in /repo. -/
def Dts.put (d : Dts) (k : Text) (v : Option Text) : Dts :=
  if d.any (fun e => decide (e.1 = k)) then d.map (fun e => if e.1 = k then (k, v) else e) else d ++ [(k, v)]

/-- `expand_vector_cols` without values, util:271-320. -/
def expandNames (d0 : Dts) : List Text → List Text → Dts → Except PyErr (List Text × Dts)
  | [], out, d => .ok (out, d)
  | c :: cs, out, d => match d0.lookup c with
    | none => .error .keyError
    | some dt => if dt.all (fun i => !isVec i) then expandNames d0 cs (out ++ [c]) (d.put c dt)
      else match expandedCols c (dt.getD []) with
        | .error e => .error e
        | .ok (cols, edt) => expandNames d0 cs (out ++ cols) ((cols.foldl (fun d k => d.put k (some edt)) d).put c dt)

/-- `SqlQuery`, util:15-28. The dictionaries are in the order of insertion. -/
structure Query (Y : Type) where
  order : List Text
  tables : List (Text × Text)
  cols : List (Text × List Text)
  dts : List (Text × Dts)
  cond : Option (Cond (Cell Y))

/-- `alias or table_name`, util:20 and util:61: an empty alias counts as none. -/
def aliasOr (alias : Option Text) (table : Text) : Text := match alias with
  | none => table
  | some a => if a.isEmpty then table else a

/-- The arguments of the check in `__init__` and `join`, util:22 and util:63. -/
def namesItems (table : Text) (cols : List Text) (dts : Dts) (alias : Text) : List (Item (Cell Y)) :=
  [.str table, .list (cols.map .str), .dict (dts.map (fun e => (.str e.1, optItem e.2))), .str alias]

/-- `SqlQuery(table_name, columns, datatypes, alias)`, util:18-28. -/
def newQuery (table : Text) (columns : List Text) (dts : Dts) (alias : Option Text) : Except PyErr (Query Y) :=
  let a := aliasOr alias table
  match expandNames dts columns [] dts with
  | .error e => .error e
  | .ok (cs, ds) => match checkArgs (namesItems (Y := Y) table cs ds a) with
    | .error e => .error e
    | .ok _ => .ok ⟨[a], [(a, table)], [(a, cs)], [(a, ds)], none⟩

/-- The columns that are selected, util:30-35. -/
def Query.columns (q : Query Y) : List (Text × Text) := q.order.flatMap (fun a => ((q.cols.lookup a).getD []).map (fun c => (a, c)))

/-- The argument of the check in `where`, util:40. -/
def condItem : Option (Cond (Cell Y)) → Item (Cell Y)
  | none => .none
  | some c => .cond c

/-- `where`, util:37-56. Nothing is raised for `None`. -/
def Query.where_ (S : PySet (Cell Y)) (q : Query Y) (condition : Option (Cond (Cell Y))) : Except PyErr (Query Y) :=
  match expandOpt S condition with
  | .error e => .error e
  | .ok condition => match checkArgs [condItem condition] with
    | .error e => .error e
    | .ok _ => match condition with
      | none => .ok q
      | some c => match q.cond with
        | none => .ok { q with cond := some c }
        | some (.and old) => match c with
          | .and new => .ok { q with cond := some (mkAnd S (old ++ new)) }
          | c => .ok { q with cond := some (mkAnd S (old ++ [c])) }
        | some old => match c with
          | .and new => .ok { q with cond := some (mkAnd S (new ++ [old])) }
          | c => .ok { q with cond := some (mkAnd S [old, c]) }

/-- `join`, util:58-71. -/
def Query.join (q : Query Y) (table : Text) (columns : List Text) (dts : Dts) (alias : Option Text) : Except PyErr (Query Y) :=
  let a := aliasOr alias table
  match expandNames dts columns [] dts with
  | .error e => .error e
  | .ok (cs, ds) => match checkArgs (namesItems (Y := Y) table cs ds a) with
    | .error e => .error e
    | .ok _ => if q.tables.any (fun e => decide (e.1 = a)) then .error .valueError
      else .ok { q with order := q.order ++ [a], tables := q.tables ++ [(a, table)], cols := q.cols ++ [(a, cs)], dts := q.dts ++ [(a, ds)] }

/-! ### the statements of the sqlite backend -/

/-- `_get_condition_pattern` of an optional condition, lite:193-194. -/
def condPatternOpt (c : Option (Cond (Cell Y))) : Text × (Text → Option (Cell Y)) := match c with
  | none => (['1'], fun _ => none)
  | some c => condPattern "cond".toList c

/-- `_db_select`, lite:78-90: the text of the statement and the parameters. -/
def dbSelect (q : Query Y) : Text × (Text → Option (Cell Y)) :=
  let p := condPatternOpt q.cond
  ("SELECT ".toList ++ joinWith ", ".toList (q.columns.map (fun x => quoted x.1 ++ '.' :: quoted x.2)) ++ " FROM ".toList ++
    joinWith ", ".toList (q.tables.map (fun x => quoted x.2 ++ " AS ".toList ++ quoted x.1)) ++ " WHERE ".toList ++ p.1 ++ [';'], p.2)

/-- Names of the parameters in `_sql_list_pattern`, lite:69-75. -/
def listParam (pre : Text) (i : Nat) : Text := pre ++ '_' :: dec i

/-- The dictionary of `_sql_list_pattern`, lite:72-74. -/
def listValues (pre : Text) : Nat → List (Cell Y) → Text → Option (Cell Y)
  | _, [] => fun _ => none
  | i, v :: vs => dictUpdate (fun k => if k = listParam pre i then some v else none) (listValues pre (i + 1) vs)

/-- `_db_insert`, lite:124-138: the statement and the parameters. -/
def dbInsert (table : Text) (columns : List Text) (values : List (Cell Y)) : Text × (Text → Option (Cell Y)) :=
  ("INSERT INTO ".toList ++ quoted table ++ " (".toList ++ joinWith ", ".toList (columns.map quoted) ++ ") VALUES (".toList ++
    joinWith ", ".toList ((List.range values.length).map (fun i => ':' :: listParam "val".toList i)) ++ ");".toList, listValues "val".toList 0 values)

/-- `_db_update`, lite:141-153: the statement and the parameters. `dict(**a, **b)` raises a TypeError for a key in both. -/
def dbUpdate (table : Text) (columns : List Text) (values : List (Cell Y)) (c : Option (Cond (Cell Y))) : Text × (Text → Option (Cell Y)) :=
  let p := condPatternOpt c
  ("UPDATE ".toList ++ quoted table ++ " SET ".toList ++
    joinWith ", ".toList ((columns.zip (List.range values.length)).map (fun x => quoted x.1 ++ " = ".toList ++ (':' :: listParam "val".toList x.2))) ++
    " WHERE ".toList ++ p.1 ++ [';'], dictUpdate (listValues "val".toList 0 values) p.2)

/-- `_db_delete`, lite:156-161. -/
def dbDelete (table : Text) (c : Option (Cond (Cell Y))) : Text × (Text → Option (Cell Y)) :=
  let p := condPatternOpt c
  ("DELETE FROM ".toList ++ quoted table ++ " WHERE ".toList ++ p.1 ++ [';'], p.2)

/-- `_do_db_delete`, sql:542-546. -/
def doDelete (S : PySet (Cell Y)) (table : Text) (c : Option (Cond (Cell Y))) : Except PyErr (Text × (Text → Option (Cell Y))) :=
  match checkArgs [.str table, condItem c] with
  | .error e => .error e
  | .ok _ => match expandOpt S c with
    | .error e => .error e
    | .ok c => .ok (dbDelete table c)

/-! ### the queries of the triple store -/

/-- sql:24. -/
def cudsTable : Text := "OSP_V1_CUDS".toList
/-- sql:25. -/
def entitiesTable : Text := "OSP_V1_ENTITIES".toList
/-- sql:26. -/
def typesTable : Text := "OSP_V1_TYPES".toList
/-- sql:28. -/
def relsTable : Text := "OSP_V1_RELATIONS".toList
/-- `rdflib.XSD.integer`, used at sql:39-60. -/
def xsdInteger : Text := xsdIri ++ "integer".toList
/-- `rdflib.XSD.string`, used at sql:39-60. -/
def xsdString : Text := xsdIri ++ "string".toList
/-- sql:27. -/
def nsTable : Text := "OSP_V1_NAMESPACES".toList
/-- `DATATYPES[NAMESPACES_TABLE]`, sql:57-58. -/
def nsDts : Dts := [("ns_idx".toList, some xsdInteger), ("namespace".toList, some xsdString)]
/-- `DATATYPES[TYPES_TABLE]`, sql:48-51. -/
def typesDts : Dts := [("s".toList, some xsdInteger), ("o".toList, some xsdInteger)]
/-- `DATATYPES[RELATIONSHIP_TABLE]`, sql:52-54. -/
def relsDts : Dts := [("s".toList, some xsdInteger), ("p".toList, some xsdInteger), ("o".toList, some xsdInteger)]
/-- `DATATYPES[DATA_TABLE_PREFIX]` with the datatype of the objects, sql:55-56 and sql:300. -/
def dataDts (odt : Text) : Dts := [("o".toList, some odt), ("s".toList, some xsdInteger), ("p".toList, some xsdInteger)]
/-- `DATATYPES[CUDS_TABLE]`, sql:40-43. -/
def cudsDts : Dts := [("cuds_idx".toList, some xsdInteger), ("uid".toList, some "UUID".toList)]
/-- `DATATYPES[ENTITIES_TABLE]`, sql:44-48. -/
def entitiesDts : Dts := [("entity_idx".toList, some xsdInteger), ("ns_idx".toList, some xsdInteger), ("name".toList, some xsdString)]

/-- Values of literals: one value or the elements of a vector. datatypes.py 94-123. -/
inductive Dat (Y : Type) where
  | one (y : Y)
  | many (l : List Y)
  deriving DecidableEq

/-- sql:232-236 and util:92, a literal as the value of a condition. -/
def Dat.cell : Dat Y → Cell Y
  | .one y => .val y
  | .many l => .vec l

/-- Objects in a pattern after the namespaces are split, sql:223-236. -/
inductive SObj (Y : Type) where
  | cuds (u : Nat)
  | ent (n : Nat) (name : Text)
  | lit (v : Dat Y)

/-- `_get_conditions`, sql:209-238. An object of another kind than the table holds is not asked for (`_determine_table`, sql:149-174); here it is a TypeError. -/
def getConditions (S : PySet (Cell Y)) (s : Option Nat) (p : Option (Nat × Text)) (o : Option (SObj Y)) (table odt : Text) : Except PyErr (Cond (Cell Y)) :=
  let cs : List (Cond (Cell Y)) := match s with
    | none => []
    | some u => [.eq "ts".toList "uid".toList (.uid u) (some "UUID".toList)]
  let cs := cs ++ (match p with
    | none => []
    | some (n, name) => if table ≠ typesTable then
        [.eq "tp".toList "ns_idx".toList (.idx n) (some xsdInteger), .eq "tp".toList "name".toList (.txt name) (some xsdString)] else [])
  match o with
  | none => .ok (mkAnd S cs)
  | some o => if table = relsTable then match o with
      | .cuds u => .ok (mkAnd S (cs ++ [.eq "to".toList "uid".toList (.uid u) (some "UUID".toList)]))
      | _ => .error .typeError
    else if table = typesTable then match o with
      | .ent n name => .ok (mkAnd S (cs ++ [.eq "to".toList "ns_idx".toList (.idx n) (some xsdInteger), .eq "to".toList "name".toList (.txt name) (some xsdString)]))
      | _ => .error .typeError
    else match o with
      | .lit v => .ok (mkAnd S (cs ++ [.eq table "o".toList v.cell (some odt)]))
      | _ => .error .typeError

/-- `_construct_query`, sql:176-206. -/
def constructQuery (S : PySet (Cell Y)) (s : Option Nat) (p : Option (Nat × Text)) (o : Option (SObj Y)) (table odt : Text) : Except PyErr (Query Y) := do
  let q ← newQuery cudsTable ["uid".toList] cudsDts (some "ts".toList)
  let q ← q.where_ S (some (.join table "s".toList "ts".toList "cuds_idx".toList))
  let q ← if table ≠ typesTable then do
      let q ← q.join entitiesTable ["ns_idx".toList, "name".toList] entitiesDts (some "tp".toList)
      q.where_ S (some (.join table "p".toList "tp".toList "entity_idx".toList))
    else do
      let q ← q.join entitiesTable ["ns_idx".toList, "name".toList] entitiesDts (some "to".toList)
      q.where_ S (some (.join table "o".toList "to".toList "entity_idx".toList))
  let q ← if table = relsTable then do
      let q ← q.join cudsTable ["uid".toList] cudsDts (some "to".toList)
      q.where_ S (some (.join table "o".toList "to".toList "cuds_idx".toList))
    else .ok q
  let q ← if tablePrefix.isPrefixOf table then q.join table ["o".toList] [("o".toList, some odt)] none else q.join table [] [] none
  let c ← getConditions S s p o table odt
  q.where_ S (some c)

/-- Objects in a pattern for a deletion: the key of an entity or a CUDS object, or a value. sql:367-385. -/
inductive RObj (Y : Type) where
  | key (k : Nat)
  | lit (v : Dat Y)

/-- sql:368-385, the value of the condition. -/
def RObj.cell : RObj Y → Cell Y
  | .key k => .idx k
  | .lit v => v.cell

/-- `_construct_remove_condition`, sql:360-385, with the keys already looked up. -/
def removeCondition (S : PySet (Cell Y)) (s p : Option Nat) (o : Option (RObj Y)) (table odt : Text) : Cond (Cell Y) :=
  let cs : List (Cond (Cell Y)) := match s with
    | none => []
    | some k => [.eq table "s".toList (.idx k) (some xsdInteger)]
  if table = typesTable then
    mkAnd S (cs ++ (match o with
      | none => []
      | some o => [.eq table "o".toList o.cell (some xsdInteger)]))
  else
    let cs := cs ++ (match p with
      | none => []
      | some k => [.eq table "p".toList (.idx k) (some xsdInteger)])
    mkAnd S (cs ++ (match o with
      | none => []
      | some o => [.eq table "o".toList o.cell (some odt)]))

/-- `_default_select`, sql:559-565. -/
def defaultSelect (S : PySet (Cell Y)) (table : Text) (columns : List Text) (dts : Dts) (c : Option (Cond (Cell Y))) : Except PyErr (Query Y) := do
  let q ← newQuery table columns dts none
  q.where_ S c

/-- The selection of `_get_cuds_idx`, sql:322-326. -/
def cudsQuery (S : PySet (Cell Y)) (u : Nat) : Except PyErr (Query Y) :=
  defaultSelect S cudsTable ["cuds_idx".toList, "uid".toList] cudsDts (some (.eq cudsTable "uid".toList (.uid u) (some "UUID".toList)))

/-- The selection of `_get_entity_idx`, sql:337-344. -/
def entityQuery (S : PySet (Cell Y)) (n : Nat) (name : Text) : Except PyErr (Query Y) :=
  defaultSelect S entitiesTable ["entity_idx".toList, "ns_idx".toList, "name".toList] entitiesDts
    (some (mkAnd S [.eq entitiesTable "ns_idx".toList (.idx n) (some xsdInteger), .eq entitiesTable "name".toList (.txt name) (some xsdString)]))

/-- The selection of `_load_namespace_indexes`, sql:388. -/
def nsQuery (S : PySet (Cell Y)) : Except PyErr (Query Y) := defaultSelect S nsTable ["ns_idx".toList, "namespace".toList] nsDts none

/-! ### insertions -/

/-- The values of `expand_vector_cols`, util:298-317. -/
def expandValues (d0 : Dts) : List Text → List (Cell Y) → Except PyErr (List (Cell Y))
  | [], _ => .ok []
  | _ :: _, [] => .error .indexError
  | c :: cs, v :: vs => match d0.lookup c with
    | none => .error .keyError
    | some dt => match expandValues d0 cs vs with
      | .error e => .error e
      | .ok rest => if dt.all (fun i => !isVec i) then .ok (v :: rest) else match v with
        | .vec l => .ok (l.map .val ++ rest)
        | _ => .error .typeError

/-- `_do_db_insert`, sql:518-526. Without values `expand_vector_cols` returns two results, which cannot be unpacked as three. -/
def doInsert (table : Text) (columns : List Text) (values : List (Cell Y)) (dts : Dts) : Except PyErr (Text × (Text → Option (Cell Y))) :=
  if values.isEmpty then .error .valueError
  else match expandNames dts columns [] dts with
    | .error e => .error e
    | .ok (cs, ds) => match expandValues dts columns values with
      | .error e => .error e
      | .ok vs => match checkArgs ([.str table, .list (cs.map .str), .dict (ds.map (fun e => (.str e.1, optItem e.2)))] : List (Item (Cell Y))) with
        | .error e => .error e
        | .ok _ => .ok (dbInsert table cs vs)

end Osp.Stmt
