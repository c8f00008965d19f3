import Verif.Stmt.Model
/-!
# What SQL statements mean (C89)

A small relational semantics: tables are lists of rows, a row is a function from column names to values. Nothing in this file models /repo.
-/
namespace Osp.Stmt
open Osp.Sql

variable {Y : Type}

/-- A row. Specification; nothing in /repo. -/
abbrev Row (Y : Type) := Text → Cell Y

/-- The tables of a database by name. Specification; nothing in /repo. -/
abbrev Base (Y : Type) := Text → List (Row Y)

/-- All combinations of rows of the tables in FROM (alias, table), as functions from alias and column to the value. Specification; nothing in /repo. -/
def combinations (db : Base Y) : List (Text × Text) → List (Text → Text → Cell Y)
  | [] => [fun _ _ => .null]
  | (a, t) :: rest => (db t).flatMap (fun r => (combinations db rest).map (fun e x c => if x = a then r c else e x c))

instance [DecidableEq Y] (row : Text → Text → Cell Y) (values : Text → Option (Cell Y)) (p : Part) : Decidable (p.holds row values) := by
  cases p <;> unfold Part.holds <;> infer_instance

/-- A SELECT statement: the columns (alias, column), the tables (alias, table), the comparisons. Specification; nothing in /repo. -/
structure Select where
  cols : List (Text × Text)
  tables : List (Text × Text)
  parts : List Part

/-- The text of a SELECT statement. Specification; nothing in /repo. -/
def Select.render (s : Select) : Text :=
  "SELECT ".toList ++ joinWith ", ".toList (s.cols.map (fun x => quoted x.1 ++ '.' :: quoted x.2)) ++ " FROM ".toList ++
    joinWith ", ".toList (s.tables.map (fun x => quoted x.2 ++ " AS ".toList ++ quoted x.1)) ++ " WHERE ".toList ++
    joinWith " AND ".toList (s.parts.map Part.render) ++ [';']

/-- The rows it returns, with the values bound to the parameters. The order is not specified. Specification; nothing in /repo. -/
def Select.eval [DecidableEq Y] (s : Select) (values : Text → Option (Cell Y)) (db : Base Y) : List (List (Cell Y)) :=
  ((combinations db s.tables).filter (fun e => decide (∀ p ∈ s.parts, p.holds e values))).map (fun e => s.cols.map (fun x => e x.1 x.2))

/-- The text of a DELETE statement. Specification; nothing in /repo. -/
def renderDelete (table : Text) (parts : List Part) : Text :=
  "DELETE FROM ".toList ++ quoted table ++ " WHERE ".toList ++ joinWith " AND ".toList (parts.map Part.render) ++ [';']

/-- The rows of the table after a DELETE. Specification; nothing in /repo. -/
def evalDelete [DecidableEq Y] (parts : List Part) (values : Text → Option (Cell Y)) (rows : List (Row Y)) : List (Row Y) :=
  rows.filter (fun r => !decide (∀ p ∈ parts, p.holds (fun _ c => r c) values))

/-- The text of an INSERT statement with one parameter for each column. Specification; nothing in /repo. -/
def renderInsert (table : Text) (cols params : List Text) : Text :=
  "INSERT INTO ".toList ++ quoted table ++ " (".toList ++ joinWith ", ".toList (cols.map quoted) ++ ") VALUES (".toList ++
    joinWith ", ".toList (params.map (fun p => ':' :: p)) ++ ");".toList

/-- The text of an UPDATE statement with the assignments (column, parameter). Specification; nothing in /repo. -/
def renderUpdate (table : Text) (sets : List (Text × Text)) (parts : List Part) : Text :=
  "UPDATE ".toList ++ quoted table ++ " SET ".toList ++ joinWith ", ".toList (sets.map (fun x => quoted x.1 ++ " = ".toList ++ (':' :: x.2))) ++ " WHERE ".toList ++
    joinWith " AND ".toList (parts.map Part.render) ++ [';']

/-! ### conditions -/

mutual
/-- What a condition asks of the columns: a vector is spread over the columns `c___0`, `c___1`, ... Specification; nothing in /repo. -/
def Means (row : Text → Text → Cell Y) : Cond (Cell Y) → Prop
  | .eq t c v dt => match v with
    | .vec l => (∃ i, dt = some i ∧ isVec i = true) ∧ ∀ k y, l[k]? = some y → row t (c ++ "___".toList ++ dec k) = .val y
    | v => row t c = v
  | .join t1 c1 t2 c2 => row t1 c1 = row t2 c2
  | .and cs => MeansAll row cs
/-- Specification; nothing in /repo. -/
def MeansAll (row : Text → Text → Cell Y) : List (Cond (Cell Y)) → Prop
  | [] => True
  | c :: cs => Means row c ∧ MeansAll row cs
end

/-- The value has the type of its column: a vector of the declared size for a vector datatype, a single value for another one. Specification; nothing in /repo. -/
def FitsType (v : Cell Y) (dt : Text) : Prop :=
  (isVec dt = false ∧ ∀ l, v ≠ .vec l) ∨ ∃ e sh l, dt = vecIri e sh ∧ e ∈ ymlNames ∧ sh ≠ [] ∧ v = .vec l ∧ l.length = shapeSize sh

mutual
/-- All values have the types of their columns. Specification; nothing in /repo. -/
def Fits : Cond (Cell Y) → Prop
  | .eq _ _ v dt => ∃ i, dt = some i ∧ FitsType v i
  | .join _ _ _ _ => True
  | .and cs => FitsAll cs
/-- Specification; nothing in /repo. -/
def FitsAll : List (Cond (Cell Y)) → Prop
  | [] => True
  | c :: cs => Fits c ∧ FitsAll cs
end

/-- The condition of a query holds for a combination of rows. Specification; nothing in /repo. -/
def Query.Holds (q : Query Y) (row : Text → Text → Cell Y) : Prop := match q.cond with
  | none => True
  | some c => c.holds row

/-! ### the tables of the triple store in the database -/

/-- A row of the table of the CUDS objects. Specification; nothing in /repo. -/
def cudsRow (r : Nat × Nat) : Row Y := fun c => if c = "cuds_idx".toList then .idx r.1 else if c = "uid".toList then .uid r.2 else .null
/-- A row of the table of the entities. Specification; nothing in /repo. -/
def entRow (r : Nat × (Nat × Text)) : Row Y := fun c =>
  if c = "entity_idx".toList then .idx r.1 else if c = "ns_idx".toList then .idx r.2.1 else if c = "name".toList then .txt r.2.2 else .null
/-- A row of the table of the types. Specification; nothing in /repo. -/
def typeRow (r : Nat × Nat) : Row Y := fun c => if c = "s".toList then .idx r.1 else if c = "o".toList then .idx r.2 else .null
/-- A row of the table of the relationships. Specification; nothing in /repo. -/
def relRow (r : Nat × Nat × Nat) : Row Y := fun c => if c = "s".toList then .idx r.1 else if c = "p".toList then .idx r.2.1 else if c = "o".toList then .idx r.2.2 else .null
/-- The column of an element of a vector, counted from `k`. Specification; nothing in /repo. -/
def elemCol (c : Text) : Nat → List Y → Cell Y
  | _, [] => .null
  | k, y :: l => if c = "o___".toList ++ dec k then .val y else elemCol c (k + 1) l
/-- A row of a data table: one column `o`, or the columns `o___0`, `o___1`, ... Specification; nothing in /repo. -/
def dataRow (r : Nat × Nat × Dat Y) : Row Y := fun c => if c = "s".toList then .idx r.1 else if c = "p".toList then .idx r.2.1 else match r.2.2 with
  | .one y => if c = "o".toList then .val y else .null
  | .many l => elemCol c 0 l

/-- A datum has the given datatype. Specification; nothing in /repo. -/
def Dat.Fits (v : Dat Y) (dt : Text) : Prop := match v with
  | .one _ => isVec dt = false
  | .many l => ∃ e sh, dt = vecIri e sh ∧ e ∈ ymlNames ∧ sh ≠ [] ∧ l.length = shapeSize sh

/-- The tables of the database hold the rows of the triple store; in a data table all values have its datatype. Specification; nothing in /repo. -/
structure Encodes (db : Base Y) (D : Tables.Db Text (Dat Y)) : Prop where
  cuds : db "OSP_V1_CUDS".toList = D.cuds.map cudsRow
  ents : db "OSP_V1_ENTITIES".toList = D.ents.map entRow
  types : db "OSP_V1_TYPES".toList = D.types.map typeRow
  rels : db "OSP_V1_RELATIONS".toList = D.rels.map relRow
  data : ∀ d ∈ D.dts, ∀ t, dataTableName d = .ok t → db t = (D.data d).map dataRow
  typed : ∀ d ∈ D.dts, ∀ r ∈ D.data d, r.2.2.Fits d

/-- A row of the table of the namespaces. Specification; nothing in /repo. -/
def nsRow (r : Nat × Text) : Row Y := fun c => if c = "ns_idx".toList then .idx r.1 else if c = "namespace".toList then .txt r.2 else .null

/-- The row an INSERT adds: every column has the value bound to its parameter, a column that is not named has the value the database generates, or null.
Specification; nothing in /repo. -/
def insertedRow (cols params : List Text) (values : Text → Option (Cell Y)) (generated : List (Text × Cell Y)) : Row Y := fun c =>
  match (cols.zip params).lookup c with
  | some p => (values p).getD .null
  | none => (generated.lookup c).getD .null

/-- The columns of a datum. Specification; nothing in /repo. -/
def Dat.cells : Dat Y → List (Cell Y)
  | .one y => [.val y]
  | .many l => l.map .val

/-- A selected row as sqlite returns it. Specification; nothing in /repo. -/
def rowCells (r : Tables.Row (Dat Y)) : List (Cell Y) :=
  [.uid r.u, .idx r.n, .txt r.name] ++ (r.ou.map (Cell.uid (Y := Y))).toList ++ (match r.ov with | none => [] | some v => v.cells)

end Osp.Stmt
