import Verif.Text
/-!
# Model of datatypes and SQL helpers

`osp/core/ontology/datatypes.py` and `osp/core/session/db/sql_util.py`. Datatype IRIs, table and column names are texts.
-/
namespace Osp.Sql

/-- IRI of the namespace `cuba`, osp/core/ontology/cuba.py. cuba.py 6. -/
def cubaIri : Text := "http://www.osp-core.com/cuba#".toList
/-- rdflib, used at sql_util.py 178-227. -/
def xsdIri : Text := "http://www.w3.org/2001/XMLSchema#".toList
/-- rdflib, used at sql_util.py 178-227. -/
def owlIri : Text := "http://www.w3.org/2002/07/owl#".toList
/-- rdflib, used at sql_util.py 178-227. -/
def rdfIri : Text := "http://www.w3.org/1999/02/22-rdf-syntax-ns#".toList
/-- rdflib, used at sql_util.py 178-227. -/
def rdfsIri : Text := "http://www.w3.org/2000/01/rdf-schema#".toList
/-- cuba.py 19-26 and datatypes.py 219-262, `_datatypes/`. -/
def dtPart : Text := "_datatypes/".toList

/-- `VEC_PREFIX`, sql_util.py:12. -/
def vecPrefix : Text := cubaIri ++ "_datatypes/VECTOR-".toList

/-! ### arrays -/

/-- A numpy array as the nested list `tolist()` returns. numpy; used at datatypes.py 97-136. Nothing in /repo. -/
inductive Nested (V : Type) where
  | leaf (v : V)
  | list (l : List (Nested V))

/-- `x.reshape((-1,)).tolist()`, `from_vector`, datatypes.py:114-123: the elements in row-major order. -/
def Nested.flat {V : Type} : Nested V → List V
  | .leaf v => [v]
  | .list l => go l
where
  go : List (Nested V) → List V
    | [] => []
    | x :: xs => x.flat ++ go xs

/-- Cut a list into `n` pieces of length `k`. numpy; nothing in /repo. -/
def chunks {V : Type} (k : Nat) : Nat → List V → List (List V)
  | 0, _ => []
  | n + 1, l => l.take k :: chunks k n (l.drop k)

/-- Number of elements of an array, `reduce(mul, shape)`. sql_util.py 399-419. -/
def shapeSize (sh : List Nat) : Nat := sh.foldr (· * ·) 1

/-- Rows of an array with the right number of elements. numpy `reshape`, used at datatypes.py 97-114. -/
def build {V : Type} [Inhabited V] : List Nat → List V → Nested V
  | [], l => .leaf (l.headD default)
  | n :: sh, l => .list ((chunks (shapeSize sh) n l).map (build sh))

/-- `x.reshape(shape)` for the elements `l` of `x`; ValueError if the sizes differ. Negative dimensions do not occur in the model.
`to_vector`, datatypes.py:94-111, for a value that numpy accepts as array of the declared element type. -/
def reshape {V : Type} [Inhabited V] (sh : List Nat) (l : List V) : Except PyErr (Nested V) :=
  if l.length = shapeSize sh then .ok (build sh l) else .error .valueError

/-! ### vector datatypes -/

/-- Keys of `YML_DATATYPES`, datatypes.py:168-174. -/
def ymlNames : List Text := ["BOOL".toList, "INT".toList, "FLOAT".toList, "STRING".toList, "UUID".toList]

/-- `_parse_vector_args`, datatypes.py:198-220 (the element type as YAML name, which `YML_DATATYPES` maps injectively). -/
def parseVectorArgs (args : List Text) : Except PyErr (Text × List Nat) :=
  match args with
  | [] => .error .indexError
  | a :: rest =>
    let (dt, shape) := if a ∈ ymlNames then (a, rest) else ("FLOAT".toList, a :: rest)
    match shape.mapM (fun t => (pyInt t).bind (fun i => if 0 ≤ i then some i.toNat else none)) with
    | none => .error .valueError
    | some ns => .ok (dt, ns)

/-- `get_rdflib_datatype` for vectors with `_add_vector_datatype`, datatypes.py:176-195 and :245-263: the IRI. -/
def vecIri (dt : Text) (shape : List Nat) : Text := vecPrefix ++ dt ++ '-' :: joinWith ['-'] (shape.map dec)

/-- The arguments in the IRI of a vector datatype, datatypes.py:161-162 and sql_util.py:414-415. -/
def parseVecIri (iri : Text) : Except PyErr (Text × List Nat) := parseVectorArgs (splitOn '-' (iri.drop vecPrefix.length))

/-- sql_util.py 399-419, datatypes.py 138-172. -/
def isVec (iri : Text) : Bool := vecPrefix.isPrefixOf iri

/-! ### expanding and contracting columns -/

/-- Values of a column. sql_util.py 271-321. -/
inductive Val (V : Type) where
  | sc (v : V)
  | vec (a : Nested V)

/-- Suffix of the k-th column of a vector, sql_util.py:417 and :438. -/
def vecSuffix (k : Nat) : Text := "___".toList ++ dec k

/-- `get_expanded_cols`, sql_util.py:399-418: columns and element datatype. An empty shape cannot be reduced. -/
def expandedCols (column : Text) (iri : Text) : Except PyErr (List Text × Text) :=
  if !isVec iri then .ok ([column], iri)
  else match parseVecIri iri with
    | .error e => .error e
    | .ok (dt, shape) => if shape = [] then .error .typeError else .ok ((List.range (shapeSize shape)).map (fun k => column ++ vecSuffix k), dt)

/-- A Python dictionary from columns to datatypes (None is possible). sql_util.py 271-321. -/
abbrev DTs := Text → Option (Option Text)

/-- Python itself; models nothing in /repo. -/
def DTs.set (d : DTs) (c : Text) (x : Option Text) : DTs := fun k => if k = c then some x else d k

/-- `expand_vector_cols`, sql_util.py:271-320; `values = none`: only columns and datatypes are expanded. -/
def expandCols {V : Type} (d0 : DTs) : List (Text × Val V) → List (Text × V) × DTs → Except PyErr (List (Text × V) × DTs)
  | [], acc => .ok acc
  | (c, v) :: rest, (out, d) =>
    match d0 c with
    | none => .error .keyError
    | some dt =>
      if dt.all (fun i => !isVec i) then
        match v with
        | .sc v => expandCols d0 rest (out ++ [(c, v)], d.set c dt)
        | .vec _ => .error .typeError
      else match dt with
        | none => .error .typeError
        | some i => match expandedCols c i, v with
          | .error e, _ => .error e
          | _, .sc _ => .error .attributeError
          | .ok (cols, edt), .vec a =>
            let d := cols.foldl (fun d k => d.set k (some edt)) d
            expandCols d0 rest (out ++ cols.zip a.flat, d.set c (some i))

/-- `handle_vector_item`, sql_util.py:421-445. -/
def handleItem {V : Type} (column : Text) (value : V) (d : DTs) (temp : List V) (old : Option Text) : Except PyErr (List V × Option Text × Bool) :=
  if endsWith column (vecSuffix temp.length) then
    match d (column.take (column.length - (vecSuffix temp.length).length)) with
    | none => .error .keyError
    | some dt => .ok (temp ++ [value], dt, true)
  else .ok (temp, old, false)

/-- `convert_to(temp_vec, vector_datatype)`, datatypes.py:12-30, for a list. Datatypes other than vectors are taken to refuse a list (`str` would print it). -/
def convertVec {V : Type} [Inhabited V] (temp : List V) (dt : Option Text) : Except PyErr (Val V) :=
  match dt with
  | none => .error .typeError
  | some i => if isVec i then match parseVecIri i with
      | .error e => .error e
      | .ok (_, sh) => match reshape sh temp with
        | .error e => .error e
        | .ok a => .ok (.vec a)
    else .error .typeError

/-- The loop over the columns of a row in `contract_vector_values`, sql_util.py:340-371. A column comes with the datatypes of its table. -/
def contractLoop {V : Type} [Inhabited V] : List ((DTs × Text) × V) → List (Val V) → List V → Option Text → Except PyErr (List (Val V))
  | [], out, temp, dt => if temp = [] then .ok out else do return out ++ [← convertVec temp dt]
  | ((d, c), v) :: rest, out, temp, dt => do
    let (temp, dt, isElem) ← handleItem c v d temp dt
    if isElem then contractLoop rest out temp dt
    else
      let (out, temp) ← (if temp = [] then .ok (out, temp) else do return (out ++ [← convertVec temp dt], []) : Except PyErr (List (Val V) × List V))
      let (temp, dt, isElem) ← handleItem c v d temp dt
      if isElem then contractLoop rest out temp dt else contractLoop rest (out ++ [.sc v]) temp dt

/-- `convert_values` for one value, sql_util.py:448-464; `cv` is `convert_to`. -/
def convertCell {V : Type} (cv : Option Text → V → Except PyErr V) (x : (DTs × Text) × V) : Except PyErr ((DTs × Text) × V) :=
  match x.1.1 x.1.2 with
  | none => .error .keyError
  | some dt => match cv dt x.2 with
    | .error e => .error e
    | .ok v => .ok (x.1, v)

/-- `contract_vector_values` for one row, sql_util.py:323-371. -/
def contractRow {V : Type} [Inhabited V] (cv : Option Text → V → Except PyErr V) (cols : List ((DTs × Text) × V)) : Except PyErr (List (Val V)) := do
  let cols ← cols.mapM (convertCell cv)
  contractLoop cols [] [] none

/-! ### tables for datatypes -/

/-- `DATA_TABLE_PREFIX`, sql_wrapper_session.py:28. -/
def tablePrefix : Text := "DATA_V1_".toList

/-- `get_data_table_name`, sql_util.py:202-226. -/
def dataTableName (dt : Text) : Except PyErr Text :=
  if xsdIri.isPrefixOf dt then .ok (tablePrefix ++ "XSD_".toList ++ dt.drop xsdIri.length)
  else if owlIri.isPrefixOf dt then .ok (tablePrefix ++ "OWL_".toList ++ dt.drop owlIri.length)
  else if rdfIri.isPrefixOf dt then .ok (tablePrefix ++ "RDF_".toList ++ dt.drop rdfIri.length)
  else if rdfsIri.isPrefixOf dt then .ok (tablePrefix ++ "RDFS_".toList ++ dt.drop rdfsIri.length)
  else if (cubaIri ++ dtPart).isPrefixOf dt then .ok (tablePrefix ++ dt.drop (cubaIri ++ dtPart).length)
  else .error .notImplementedError

/-- `determine_datatype`, sql_util.py:178-199. `get ns name` is `getattr(ns, name)` for the rdflib namespaces: none if that raises or is not an IRI (rdflib namespaces
are strings, so the names of the methods of `str` are not looked up as IRIs, and some namespaces are closed). -/
def determineDatatype (get : Text → Text → Option Text) (table : Text) : Option Text :=
  if (tablePrefix ++ "OWL_".toList).isPrefixOf table then get owlIri (table.drop (tablePrefix ++ "OWL_".toList).length)
  else if (tablePrefix ++ "RDFS_".toList).isPrefixOf table then get rdfsIri (table.drop (tablePrefix ++ "RDFS_".toList).length)
  else if (tablePrefix ++ "RDF_".toList).isPrefixOf table then get rdfIri (table.drop (tablePrefix ++ "RDF_".toList).length)
  else if (tablePrefix ++ "XSD_".toList).isPrefixOf table then get xsdIri (table.drop (tablePrefix ++ "XSD_".toList).length)
  else get cubaIri (dtPart ++ table.drop tablePrefix.length)

/-! ### conditions and the character check -/

/-- Conditions, sql_util.py:76-175. The set of an AndCondition is the list in which Python iterates it. -/
inductive Cond (V : Type) where
  | eq (table column : Text) (value : V) (datatype : Option Text)
  | join (table1 column1 table2 column2 : Text)
  | and (cs : List (Cond V))

/-- Arguments of `check_characters`. sql_util.py 229-268. -/
inductive Item (V : Type) where
  | str (t : Text)
  | list (l : List (Item V))
  | dict (kv : List (Item V × Item V))
  | cond (c : Cond V)
  | none
  | other

/-- The forbidden characters, sql_util.py:239-240. -/
def forbidden : List Char := [';', Char.ofNat 0, '\r', Char.ofNat 8, '\t', Char.ofNat 26, '\n', '\r', '"', '\'', '`', '\\', '%']

/-- sql_util.py 229-268, None is skipped. -/
def optItem {V : Type} : Option Text → Item V
  | .none => .none
  | .some t => .str t

/-- The entries an item adds to the work list, sql_util.py:253-266. -/
def Item.children {V : Type} : Item V → List (Item V)
  | .list l => l
  | .dict kv => kv.map Prod.fst ++ kv.map Prod.snd
  | .cond (.and cs) => cs.map .cond
  | .cond (.eq t c _ d) => [.str t, .str c, optItem d]
  | .cond (.join t1 c1 t2 c2) => [.str t1, .str c1, .str t2, .str c2]
  | _ => []

/-- The `while` loop of `check_characters` for one character, sql_util.py:244-268; the last entry is popped first, here the list is kept reversed. -/
def checkLoop {V : Type} (c : Char) : Nat → List (Item V) → Except PyErr (List (Item V))
  | 0, l => .ok l
  | _ + 1, [] => .ok []
  | n + 1, x :: l => match x with
    | .str t => if c ∈ t then .error .valueError else checkLoop c n l
    | .other => .error .valueError
    | .none => checkLoop c n l
    | x => checkLoop c n (x.children.reverse ++ l)

/-- The loop over the forbidden characters: the work list is shared, so after the first character it is empty. sql_util.py 229-268. -/
def checkChars {V : Type} (fuel : Nat) : List Char → List (Item V) → Except PyErr Unit
  | [], _ => .ok ()
  | c :: cs, l => match checkLoop c fuel l with
    | .error e => .error e
    | .ok l => checkChars fuel cs l

end Osp.Sql
