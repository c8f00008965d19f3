import Verif.Setup.Model
/-!
# What the tables of the database have to look like (C91)

Specification: tables as a reader of the documentation of the schema would list them; no function of the model that creates tables is used.
-/
namespace Osp.Setup
open Osp.Sql

/-- The type of the column of a value. The declaration `REAL` of texts is what the code does (C36). Specification; nothing in /repo. -/
inductive Elem : Text → Affinity → Prop
  | bool : Elem "BOOL".toList .numeric
  | int : Elem "INT".toList .integer
  | float : Elem "FLOAT".toList .real
  | string : Elem "STRING".toList .real
  | uuid : Elem "UUID".toList .text

/-- The columns of the values of a datatype: one column `o`, or `o___0`, `o___1`, … for the elements of a vector. Specification; nothing in /repo. -/
inductive Supp : Text → List (Text × Option Affinity) → Prop
  | integer : Supp "http://www.w3.org/2001/XMLSchema#integer".toList [("o".toList, some .integer)]
  | boolean : Supp "http://www.w3.org/2001/XMLSchema#boolean".toList [("o".toList, some .numeric)]
  | float : Supp "http://www.w3.org/2001/XMLSchema#float".toList [("o".toList, some .real)]
  | string : Supp "http://www.w3.org/2001/XMLSchema#string".toList [("o".toList, some .real)]
  | limited (t : Text) : ';' ∉ t → Supp ("http://www.osp-core.com/cuba#_datatypes/STRING-".toList ++ t) [("o".toList, some .text)]
  | vector {e : Text} {a : Affinity} {sh : List Nat} : Elem e a → sh ≠ [] → Supp (vecIri e sh) ((List.range (shapeSize sh)).map (fun k => ("o___".toList ++ dec k, some a)))

/-- The tables that are always there, each with the columns of its indexes. Specification; nothing in /repo. -/
def fixedTables : List (Table × List (List Text)) := [
  (⟨"OSP_V1_NAMESPACES".toList, [("ns_idx".toList, some .integer), ("namespace".toList, some .real)], ["ns_idx".toList], []⟩, [["namespace".toList]]),
  (⟨"OSP_V1_CUDS".toList, [("cuds_idx".toList, some .integer), ("uid".toList, some .text)], ["cuds_idx".toList], []⟩, [["uid".toList]]),
  (⟨"OSP_V1_ENTITIES".toList, [("entity_idx".toList, some .integer), ("ns_idx".toList, some .integer), ("name".toList, some .real)], ["entity_idx".toList],
    [("ns_idx".toList, ("OSP_V1_NAMESPACES".toList, "ns_idx".toList))]⟩, [["ns_idx".toList, "name".toList]]),
  (⟨"OSP_V1_TYPES".toList, [("s".toList, some .integer), ("o".toList, some .integer)], ["s".toList, "o".toList],
    [("s".toList, ("OSP_V1_CUDS".toList, "cuds_idx".toList)), ("o".toList, ("OSP_V1_ENTITIES".toList, "entity_idx".toList))]⟩, [["s".toList], ["o".toList]]),
  (⟨"OSP_V1_RELATIONS".toList, [("s".toList, some .integer), ("p".toList, some .integer), ("o".toList, some .integer)], ["s".toList, "p".toList, "o".toList],
    [("s".toList, ("OSP_V1_CUDS".toList, "cuds_idx".toList)), ("p".toList, ("OSP_V1_ENTITIES".toList, "entity_idx".toList)), ("o".toList, ("OSP_V1_CUDS".toList, "cuds_idx".toList))]⟩,
    [["s".toList, "p".toList], ["p".toList, "o".toList]])]

/-- The table of the values of one datatype. Specification; nothing in /repo. -/
def valueTable (name : Text) (cols : List (Text × Option Affinity)) : Table :=
  ⟨name, ("s".toList, some .integer) :: ("p".toList, some .integer) :: cols, [],
    [("s".toList, ("OSP_V1_CUDS".toList, "cuds_idx".toList)), ("p".toList, ("OSP_V1_ENTITIES".toList, "entity_idx".toList))]⟩

/-- The standard datatypes. Specification; nothing in /repo. -/
def standardTypes : List Text := ["http://www.w3.org/2001/XMLSchema#integer".toList, "http://www.w3.org/2001/XMLSchema#boolean".toList,
  "http://www.w3.org/2001/XMLSchema#float".toList, "http://www.w3.org/2001/XMLSchema#string".toList]

/-- The tables a session needs, with the columns of their indexes: `custom` are the datatypes of the ontology. Specification; nothing in /repo. -/
inductive Required (custom : List Text) : Table → List (List Text) → Prop
  | fixed {t : Table} {i : List (List Text)} : (t, i) ∈ fixedTables → Required custom t i
  | value {dt name : Text} {cols : List (Text × Option Affinity)} : dt ∈ custom ∨ dt ∈ standardTypes → Supp dt cols → dataTableName dt = .ok name →
      Required custom (valueTable name cols) [["s".toList, "p".toList]]

end Osp.Setup
