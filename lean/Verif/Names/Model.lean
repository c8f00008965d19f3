import Verif.Text
/-!
# Model of namespaces and entity lookup (C53, C54)

`osp/core/ontology/namespace_registry.py` (cited as reg:), `namespace.py` (ns:), `yml/case_insensitivity.py` (ci:), `entity.py` (ent:), `cuba.py` (cuba:), `osp/core/namespaces.py` (top:).

Names and IRIs are lists of characters; upper and lower case are those of ASCII. The graph is seen through the triples these functions look at: types of entities, English
and other labels, and which namespaces refer to their entities by label; each list is in the order in which rdflib enumerates it, which the theorems leave arbitrary.
`inverse` of a relationship (`Verif/Onto`) is a parameter.
-/
namespace Osp.Names

/-- The three types of entities, reg:139-141. -/
inductive Kind where
  | attribute | relationship | class_
  deriving DecidableEq

/-- An entity: ent:15-32. -/
structure Entity where
  kind : Kind
  nsIri : Text
  name : Text
  suffix : Text
  deriving DecidableEq

/-- `iri`, ent:64-67. -/
def Entity.iri (e : Entity) : Text := e.nsIri ++ e.suffix

/-- The registry and the parts of its graph that matter here. namespace_registry.py 18-25. -/
structure Reg where
  /-- `_graph.namespace_manager.namespaces()`: prefix and IRI -/
  binds : List (Text × Text)
  /-- `_namespaces` -/
  table : List (Text × Text)
  /-- the triples with predicate rdf:type; `none` is any other type -/
  types : List (Text × Option Kind)
  /-- the triples with predicate skos:prefLabel: subject, text and language -/
  labels : List (Text × Text × Text)
  /-- the namespaces with `_reference_by_label` -/
  byLabel : List Text

/-- `text.lower()` (ASCII). Python itself; models nothing in /repo. -/
def lower (t : Text) : Text := t.map Char.toLower
/-- `text.upper()` (ASCII). Python itself; models nothing in /repo. -/
def upper (t : Text) : Text := t.map Char.toUpper

/-- `update_namespaces`, reg:106-117: later entries replace earlier ones with the same key. The dictionary is kept as a list in which the first entry counts. -/
def Reg.update (R : Reg) : Reg := { R with table := (R.binds.map (fun b => (lower b.1, b.2))).reverse }

/-- `_namespaces[name]`. namespace_registry.py 89-106, the lookup. -/
def Reg.find (R : Reg) (name : Text) : Option Text := (R.table.find? (fun b => b.1 = name)).map (·.2)

/-- A namespace object, ns:17-31. -/
structure Ns where
  name : Text
  iri : Text
  byLabel : Bool
  deriving DecidableEq

/-- `OntologyNamespace(...)`, ns:17-31, reg:196-209. -/
def Reg.mkNs (R : Reg) (name iri : Text) : Ns := ⟨name, iri, decide (iri ∈ R.byLabel)⟩

/-- `_get`, reg:87-104. -/
def Reg.get (R : Reg) (name : Text) : Except PyErr Ns := match R.find (lower name) with
  | some iri => .ok (R.mkNs (lower name) iri)
  | none => .error .keyError

/-- `name in registry`, reg:59-69. -/
def Reg.has (R : Reg) (name : Text) : Bool := (R.find (lower name)).isSome

/-- `_get_namespace_name_and_iri`, reg:175-194. -/
def Reg.resolve (R : Reg) (iri : Text) : Text × Text :=
  match R.binds.find? (fun b => b.2.isPrefixOf iri && !b.1.isEmpty) with
  | some b => b
  | none =>
    let ns := if '#' ∈ iri then (splitOn '#' iri)[0]?.getD [] ++ ['#'] else joinWith ['/'] (splitOn '/' iri).dropLast ++ ['/']
    (ns, ns)

/-- `namespace_from_iri`, reg:119-135. -/
def Reg.nsFromIri (R : Reg) (iri : Text) : Except PyErr Ns :=
  let (n, ns) := R.resolve iri
  if (R.find n).isSome then R.get n else .ok (R.mkNs n ns)

/-- `_get_entity_name`, reg:211-225; an entity without label has no attribute `toPython`. -/
def Reg.entityName (R : Reg) (iri ns : Text) : Except PyErr Text :=
  if ns ∈ R.byLabel then
    match R.labels.find? (fun l => l.1 = iri) with
    | some l => .ok l.2.1
    | none => .error .attributeError
  else .ok (iri.drop ns.length)

/-- The name of the entity: given, or found. namespace_registry.py 137-175, `entity_name`. -/
def Reg.nameOr (R : Reg) (iri ns : Text) : Option Text → Except PyErr Text
  | some n => .ok n
  | none => R.entityName iri ns

/-- `from_iri`, reg:137-173, with `raise_error`: the first triple with an allowed type decides. -/
def Reg.fromIri (R : Reg) (allow : Kind → Bool) (iri : Text) (name : Option Text) : Except PyErr Entity :=
  let (_, ns) := R.resolve iri
  match R.nameOr iri ns name with
  | .error e => .error e
  | .ok n =>
    match R.types.findSome? (fun t => if t.1 = iri then t.2.filter allow else none) with
    | some k => .ok ⟨k, ns, n, iri.drop ns.length⟩
    | none => .error .keyError

/-- Every type is allowed. namespace_registry.py 137-175, `allow_types`. -/
def all : Kind → Bool := fun _ => true

/-- `_namespace_name`, ent:34-38. -/
def Reg.nsName (R : Reg) (e : Entity) : Text := (R.resolve e.iri).1

/-- `str(entity)`, ent:40-42. -/
def Reg.str (R : Reg) (e : Entity) : Text := R.nsName e ++ ['.'] ++ e.name

/-- `entity.namespace`, ent:75-78. -/
def Reg.entityNs (R : Reg) (e : Entity) : Except PyErr Ns := R.nsFromIri e.nsIri

/-! ### the cuba namespace and alternative names -/

/-- cuba:8-13. -/
def cubaEntities : List Text := ["activeRelationship".toList, "Entity".toList, "File".toList, "Nothing".toList, "passiveRelationship".toList, "path".toList, "Wrapper".toList,
  "attribute".toList, "relationship".toList, "Class".toList]

/-- cuba:15-18. -/
def cubaHidden : List Text := ["_default".toList, "_default_attribute".toList, "_default_value".toList, "_default_rel".toList, "_length".toList, "_shape".toList, "_dtype".toList,
  "_reference_by_label".toList]

/-- `name in rdflib_cuba`, cuba:40-46. -/
def inCuba (n : Text) : Bool := decide (n ∈ cubaEntities) || decide (n ∈ cubaHidden) || "_datatypes/STRING-".toList.isPrefixOf n || "_datatypes/VECTOR-".toList.isPrefixOf n

/-- The loop ci:23-26. -/
def snakeTail : Text → Text
  | [] => []
  | x :: t => (if x.isUpper then ['_', x] else [x]) ++ snakeTail t

/-- The loop ci:35-41. -/
def camelTail : Bool → Text → Text
  | _, [] => []
  | up, x :: t => if x = '_' then camelTail true t else (if up then x.toUpper else x.toLower) :: camelTail false t

/-- `get_case_insensitive_alternative`, ci:6-55. -/
def alt (isCuba : Bool) : Text → Except PyErr (Option Text)
  | [] => .error .indexError
  | c :: t =>
    if !isCuba && (c :: t).any Char.isLower && (c :: t).any Char.isUpper then .ok (some (upper (c.toUpper :: snakeTail t)))
    else if !isCuba then .ok (some (upper (c :: t)))
    else if '_' ∈ t ∨ (c :: t).all Char.isUpper then
      let name := camelTail false t
      if inCuba (c.toUpper :: name) then .ok (some (c.toUpper :: name))
      else if inCuba (c.toUpper.toLower :: name) then .ok (some (c.toUpper.toLower :: name))
      else .ok none
    else if c.isUpper then (if inCuba (c.toLower :: t) then .ok (some (c.toLower :: t)) else .ok none)
    else if c.isLower then (if inCuba (c.toUpper :: t) then .ok (some (c.toUpper :: t)) else .ok none)
    else .ok none

/-! ### lookup in a namespace -/

/-- "INVERSE_OF_". relationship.py 89-110. -/
def invPrefix : Text := "INVERSE_OF_".toList

/-- `_get(name, _case_sensitive=True, _force_by_iri=suffix)`, ns:146-197, as `__getitem__` calls it. An empty suffix counts as not given: in a namespace by label this is an
endless recursion (RecursionError). A name that starts with INVERSE_OF_ gives the same lookup again. -/
def forced (R : Reg) (N : Ns) (name suffix : Text) : Except PyErr Entity :=
  if N.byLabel ∧ suffix = [] then .error .runtimeError
  else R.fromIri all (N.iri ++ suffix) (some name)

/-- Stops at the first exception. Modelling device: a loop that stops at the first exception. Python itself; models nothing in /repo. -/
def collect (f : Text → Except PyErr Entity) : List Text → Except PyErr (List Entity)
  | [] => .ok []
  | x :: xs => match f x with
    | .error e => .error e
    | .ok a => match collect f xs with
      | .error e => .error e
      | .ok as => .ok (a :: as)

/-- `namespace[label]`, ns:98-124. -/
def item (R : Reg) (N : Ns) (label lang : Text) : Except PyErr (List Entity) :=
  match collect (fun s => forced R N (if N.byLabel then label else s.drop N.iri.length) (s.drop N.iri.length))
      ((R.labels.filter (fun l => decide (l.2 = (label, lang)) && N.iri.isPrefixOf l.1)).map (·.1)) with
  | .error e => .error e
  | .ok [] => .error .keyError
  | .ok (a :: as) => .ok (a :: as)

/-- Lookup with the exact name, `_do_get(name, _case_sensitive=True, False)`, ns:172-197. -/
def exact (R : Reg) (N : Ns) (name : Text) : Except PyErr Entity :=
  if N.byLabel then
    match item R N name "en".toList with
    | .error e => .error e
    | .ok [] => .error .indexError
    | .ok (a :: _) => .ok a
  else R.fromIri all (N.iri ++ name) (some name)

/-- The second attempt of `_get`, ns:163-170. -/
def orInverse (inverse : Entity → Except PyErr Entity) (look : Text → Except PyErr Entity) (name : Text) : Except PyErr Entity :=
  match look name with
  | .error .keyError => if invPrefix.isPrefixOf name then (match look (name.drop 11) with
      | .error e => .error e
      | .ok e => inverse e) else .error .keyError
  | r => r

/-- `_get_case_insensitive`, ns:199-233. -/
def getCI (R : Reg) (inverse : Entity → Except PyErr Entity) (N : Ns) (name : Text) : Except PyErr Entity :=
  match alt (N.name = "cuba".toList) name with
  | .error e => .error e
  | .ok none => .error .keyError
  | .ok (some a) => orInverse inverse (exact R N) a

/-- `_do_get(name, False, False)`, ns:172-197. -/
def doGet (R : Reg) (inverse : Entity → Except PyErr Entity) (N : Ns) (name : Text) : Except PyErr Entity :=
  match exact R N name with
  | .error .keyError => if N.byLabel then .error .keyError else getCI R inverse N name
  | r => r

/-- `_get(name)`, ns:146-170. -/
def get (R : Reg) (inverse : Entity → Except PyErr Entity) (N : Ns) (name : Text) : Except PyErr Entity := orInverse inverse (doGet R inverse N) name

/-- `namespace.name`, ns:80-96. -/
def attr (R : Reg) (inverse : Entity → Except PyErr Entity) (N : Ns) (name : Text) : Except PyErr Entity := match get R inverse N name with
  | .error .keyError => .error .attributeError
  | r => r

/-- `namespace.get(name, fallback)`, ns:126-144. -/
def getOr (R : Reg) (inverse : Entity → Except PyErr Entity) (N : Ns) (name : Text) (fallback : Option Entity) : Except PyErr (Option Entity) := match get R inverse N name with
  | .error .keyError => .ok fallback
  | .error e => .error e
  | .ok e => .ok (some e)

/-- `name in namespace`, ns:251-260. -/
def contains (R : Reg) (inverse : Entity → Except PyErr Entity) (N : Ns) (name : Text) : Except PyErr Bool := match get R inverse N name with
  | .error e => .error e
  | .ok _ => .ok true

/-- `iter(namespace)`, ns:235-249, for the entities of one type; `suffixes` are those of the subjects of that type. An empty suffix is taken for no suffix, and `str + None`
raises `TypeError` (a namespace by label looks for all labels then, which is not modelled). -/
def iterate (R : Reg) (N : Ns) : List Text → Except PyErr (List Entity)
  | [] => .ok []
  | s :: ss =>
    if s = [] then .error .typeError
    else match R.fromIri all (N.iri ++ s) none with
      | .error e => .error e
      | .ok a => match iterate R N ss with
        | .error e => .error e
        | .ok as => .ok (a :: as)

/-- The subjects `__iter__` visits: of attributes, then relationships, then classes. namespace.py 231-244. -/
def members (R : Reg) (N : Ns) : List Text :=
  [Kind.attribute, .relationship, .class_].flatMap (fun k => ((R.types.filter (fun t => decide (t.2 = some k) && N.iri.isPrefixOf t.1)).map (fun t => t.1.drop N.iri.length)))

/-- `get_entity("namespace.name")`, top:28-38: two parts exactly. -/
def getEntity (R : Reg) (inverse : Entity → Except PyErr Entity) (full : Text) : Except PyErr Entity := match splitOn '.' full with
  | [ns, n] => match R.get ns with
    | .error e => .error e
    | .ok N => get R inverse N n
  | _ => .error .valueError

end Osp.Names
