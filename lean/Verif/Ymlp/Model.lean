import Verif.Yaml.Ontology
import Verif.Yaml.Datatype
import Verif.Names.Model
/-!
# Model of the parser of YAML ontologies (C67 - C70)

`osp/core/ontology/yml/yml_parser.py`, cited as par:. The document is seen through `Doc`, which `view` takes out of the YAML document: names and references that YAML does not read as texts are not modelled.
The graph is a list of triples, in whatever order rdflib enumerates them, with the namespaces bound in it (among them owl, par:46). If parsing fails, the triples added before are not modelled.
-/
namespace Osp.Ymlp
open Osp.Yaml (Yaml Entries get)
open Osp.Names (lower)

/-- Terms: IRIs, English texts, the literals true and 1, other literals, blank nodes. rdflib, as used by the cited callers; models nothing in /repo itself. Nothing in /repo. -/
inductive Node where
  | iri (t : Text)
  | label (t : Text)
  | yes
  | one
  | value (v : Yaml)
  | blank (n : Nat)

/-- Predicates. yml_parser.py 98-540: the predicates of the triples added. -/
inductive Pred where
  | isDefinedBy | prefLabel | type | subClassOf | subPropertyOf | inverseOf | range | cardinality | onProperty
  | default | defaultAttribute | defaultValue | defaultRel | referenceByLabel
  | other (t : Text)
  deriving DecidableEq

/-- rdflib, as used by the cited callers; models nothing in /repo itself. Nothing in /repo. -/
structure Triple where
  s : Node
  p : Pred
  o : Node

/-- The types the parser uses. yml_parser.py 291-322, 386-422. -/
inductive Owl where
  | class_ | objectProperty | datatypeProperty | functionalProperty | restriction | datatype
  deriving DecidableEq

/-- rdflib, as used by the cited callers; models nothing in /repo itself. Nothing in /repo. -/
def Owl.iri : Owl → Text
  | .class_ => "http://www.w3.org/2002/07/owl#Class".toList
  | .objectProperty => "http://www.w3.org/2002/07/owl#ObjectProperty".toList
  | .datatypeProperty => "http://www.w3.org/2002/07/owl#DatatypeProperty".toList
  | .functionalProperty => "http://www.w3.org/2002/07/owl#FunctionalProperty".toList
  | .restriction => "http://www.w3.org/2002/07/owl#Restriction".toList
  | .datatype => "http://www.w3.org/2000/01/rdf-schema#Datatype".toList

/-- The graph: triples, bound namespaces, and the number of the next blank node. rdflib; nothing in /repo. -/
structure Gr where
  triples : List Triple
  binds : List (Text × Text)
  next : Nat

/-- `graph.add`. rdflib; nothing in /repo. -/
def Gr.add (g : Gr) (t : Triple) : Gr := { g with triples := g.triples ++ [t] }

/-- An entity of the document. yml_parser.py 98-540: what is read of an entity. Modelling device. -/
structure Entity where
  name : Text
  raw : Yaml
  description : Option Text
  /-- the entries of `subclass_of`; `none` for a class expression that is no text -/
  supers : List (Option Text)
  inverse : Option Text
  /-- whether `default_rel` is there, and its truth value -/
  defaultRel : Option Bool
  datatype : Option Text
  attributes : Option (List (Text × Yaml))

/-- yml_parser.py 72-123: what is read of a document. Modelling device. -/
structure Doc where
  namespace_ : Text
  defaultRel : Option Text
  entities : List Entity

/-! ### taking the document apart -/

/-- `isinstance(x, str)`, par:281, 318. -/
def asText : Yaml → Option Text
  | .str t => some t
  | _ => none

/-- Truth value, par:509. -/
def truth : Yaml → Bool
  | .null => false
  | .bool b => b
  | .int i => i != 0
  | .float t => t != "0.0".toList && t != "-0.0".toList
  | .str t => !t.isEmpty
  | .list l => !l.isEmpty
  | .dict l => !l.isEmpty
  | .other => true

/-- All entries of a list, if they can all be read. Modelling device. -/
def allOf {α β : Type} (f : α → Option β) : List α → Option (List β)
  | [] => some []
  | x :: l => match f x, allOf f l with
    | some y, some ys => some (y :: ys)
    | _, _ => none

/-- A key that must be a text if it is there. Modelling device. -/
def textAt (l : Entries) (k : String) : Option (Option Text) :=
  match get l k.toList with
  | none => some none
  | some (.str t) => some (some t)
  | some _ => none

/-- The attributes of an entity, par:366-376. -/
def attributesAt (l : Entries) : Option (Option (List (Text × Yaml))) :=
  match get l "attributes".toList with
  | none => some none
  | some (.dict d) => (allOf (fun e : Yaml × Yaml => (asText e.1).map (fun n => (n, e.2))) d).map some
  | some _ => none

/-- An entry of the ontology. Modelling device. -/
def viewEntity (e : Yaml × Yaml) : Option Entity :=
  match e.1, e.2 with
  | .str name, .dict l => match textAt l "description", get l "subclass_of".toList, textAt l "inverse", textAt l "datatype", attributesAt l with
    | some d, some (.list sup), some i, some t, some a => some ⟨name, .dict l, d, sup.map asText, i, (get l "default_rel".toList).map truth, t, a⟩
    | _, _, _, _, _ => none
  | _, _ => none

/-- The parts of the document, par:81-82. -/
def view : Yaml → Option Doc
  | .dict l => match textAt l "namespace", textAt l "default_rel", get l "ontology".toList with
    | some (some n), some d, some (.dict o) => (allOf viewEntity o).map (fun es => ⟨n, d, es⟩)
    | _, _, _ => none
  | _ => none

/-! ### references -/

/-- How a step can fail: an exception, or a loop that has not ended after the given number of turns. Modelling device. -/
inductive Fail where
  | raised (e : PyErr)
  | unfinished
  deriving DecidableEq

/-- Modelling device. -/
abbrev Run := Except Fail

/-- Python itself; models nothing in /repo. -/
def raise {α : Type} (e : PyErr) : Run α := .error (.raised e)

/-- `self._namespace`, par:81. -/
def Doc.own (D : Doc) : Text := lower D.namespace_

/-- `self._ontology_doc[name]`. Python itself; models nothing in /repo. -/
def Doc.find (D : Doc) (n : Text) : Option Entity := D.entities.find? (fun e => e.name == n)

/-- `split_name`, par:125-142. -/
def splitName (t : Text) : Run (Text × Text) :=
  match splitOn '.' t with
  | [a, b] => .ok (lower a, b)
  | _ => raise .valueError

/-- Python itself; models nothing in /repo. -/
def Node.isIri (i : Text) : Node → Bool
  | .iri t => t == i
  | _ => false

/-- Python itself; models nothing in /repo. -/
def Node.isLabel (i : Text) : Node → Bool
  | .label t => t == i
  | _ => false

/-- Python itself; models nothing in /repo. -/
def Node.isYes : Node → Bool
  | .yes => true
  | _ => false

/-- The IRI of a namespace, par:189-195. -/
def nsIri (g : Gr) (ns : Text) : Text :=
  match g.binds.find? (fun b => b.1 == ns) with
  | some b => b.2
  | none => "http://www.osp-core.com/".toList ++ ns ++ "#".toList

/-- `(iri, None, None) in graph`, par:218. -/
def hasSubject (g : Gr) (i : Text) : Bool := g.triples.any (fun t => t.s.isIri i)

/-- `(ns_iri, _reference_by_label, True) in graph`, par:202. -/
def byLabel (g : Gr) (i : Text) : Bool := g.triples.any (fun t => t.s.isIri i && t.p == .referenceByLabel && t.o.isYes)

/-- par:204-208: the first entity of the namespace with this English label. -/
def labelled (g : Gr) (ns name : Text) : List Triple → Option Text
  | [] => none
  | t :: l => match t.s with
    | .iri s => if t.p == .prefLabel && t.o.isLabel name && ns.isPrefixOf s then some s else labelled g ns name l
    | _ => labelled g ns name l

/-- The IRI that is tried for a name, par:200-210. -/
def candidate (g : Gr) (ns name : Text) : Text :=
  if byLabel g ns then (labelled g ns name g.triples).getD (ns ++ name) else ns ++ name

/-- par:213-219: the entity is in the document, or the IRI in the graph. -/
def known (D : Doc) (g : Gr) (ns name : Text) : Bool :=
  if ns = D.own then (D.find name).isSome else hasSubject g (candidate g (nsIri g ns) name)

/-- `_get_iri`, par:167-227, and `_get_iri_case_insensitive`, par:229-270. -/
def getIri (D : Doc) (g : Gr) (ns name : Text) : Run Text :=
  let ns := lower (if ns.isEmpty then D.own else ns)
  if name.isEmpty then .ok (nsIri g ns)
  else if known D g ns name then .ok (candidate g (nsIri g ns) name)
  else match Names.alt (ns == "cuba".toList) name with
    | .error e => raise e
    | .ok none => raise .attributeError
    | .ok (some a) => if known D g ns a then .ok (candidate g (nsIri g ns) a) else raise .attributeError

/-- `self._get_iri(*self.split_name(ref))`. yml_parser.py 272-289, 424-540. -/
def refers (D : Doc) (g : Gr) (ref : Text) : Run Text := do
  let (ns, name) ← splitName ref
  getIri D g ns name

/-! ### entities -/

/-- The types that count, par:310-312. -/
def kindTypes : List Owl := [.class_, .objectProperty, .datatypeProperty, .functionalProperty]

/-- `(iri, rdf:type, k) in graph`. rdflib; nothing in /repo. -/
def hasType (g : Gr) (i : Text) (k : Owl) : Bool := g.triples.any (fun t => t.s.isIri i && t.p == .type && t.o.isIri k.iri)

/-- `[split_name(x) for x in superclasses if isinstance(x, str)]`, par:316-318. -/
def splitAll : List (Option Text) → Run (List (Text × Text))
  | [] => .ok []
  | none :: l => splitAll l
  | some r :: l => do
    let x ← splitName r
    let xs ← splitAll l
    .ok (x :: xs)

/-- The loop of `_add_type_triple`, par:301-318: the queue (its end first) and the types found so far. -/
def walk (D : Doc) (g : Gr) : Nat → List (Text × Text) → List Owl → Run (List Owl)
  | _, [], acc => .ok acc
  | 0, _ :: _, _ => .error .unfinished
  | n + 1, (ns, name) :: q, acc => do
    let i ← getIri D g ns name
    let acc := acc ++ kindTypes.filter (hasType g i)
    if ns = D.own then
      match D.find name with
      | none => raise .keyError
      | some e => do
        let rs ← splitAll e.supers
        walk D g n (rs.reverse ++ q) acc
    else walk D g n q acc

/-- Adds a list of triples. Modelling device. -/
def addAll (g : Gr) (ts : List Triple) : Gr := { g with triples := g.triples ++ ts }

/-- `_add_type_triple`, par:291-322. -/
def addTypes (D : Doc) (fuel : Nat) (g : Gr) (name iri : Text) : Run Gr := do
  let types ← walk D g fuel [(D.own, name)] []
  if types.isEmpty then raise .valueError
  else .ok (addAll g (types.map (fun k => ⟨.iri iri, .type, .iri k.iri⟩)))

/-- The loop over the superclasses, par:163-164, with `_add_superclass`, par:272-289. -/
def addSupers (D : Doc) (iri : Text) : List (Option Text) → Gr → Run Gr
  | [], g => .ok g
  | none :: l, g => addSupers D iri l g
  | some r :: l, g => do
    let s ← refers D g r
    addSupers D iri l (g.add ⟨.iri iri, if hasType g iri .class_ then .subClassOf else .subPropertyOf, .iri s⟩)

/-- `_load_entity`, par:144-165. -/
def loadEntity (D : Doc) (fuel : Nat) (g : Gr) (e : Entity) : Run Gr := do
  let iri ← getIri D g [] e.name
  let g := match e.description with
    | some d => g.add ⟨.iri iri, .isDefinedBy, .label d⟩
    | none => g
  let g := g.add ⟨.iri iri, .prefLabel, .label e.name⟩
  let g ← addTypes D fuel g e.name iri
  addSupers D iri e.supers g

/-- The three kinds of entities. yml_parser.py 291-322. -/
inductive Kind where
  | class_ | relationship | attribute
  deriving DecidableEq

/-- yml_parser.py 291-322. -/
def Kind.owl : Kind → Owl
  | .class_ => .class_
  | .relationship => .objectProperty
  | .attribute => .datatypeProperty

/-- yml_parser.py 535-573. -/
def Kind.format : Kind → Text
  | .class_ => "class_def".toList
  | .relationship => "relationship_def".toList
  | .attribute => "attribute_def".toList

/-- What the parser gets from outside: which characters are digits, the recursion limit, and which entities the namespace registry has (by namespace, then name). Modelling device. -/
structure Env where
  dig : Char → Bool
  limit : Nat
  reg : Text → Option (Text → Bool)

/-- `_validate_entity`, par:535-573. -/
def validateEntity (E : Env) (D : Doc) (g : Gr) (e : Entity) : Run Kind := do
  let iri ← getIri D g [] e.name
  match [Kind.class_, .relationship, .attribute].filter (fun k => hasType g iri k.owl) with
  | [k] => match Yaml.validate (Yaml.formats E.dig) E.limit e.raw (.named k.format) with
    | .ok () => .ok k
    | .error x => raise x
  | _ => raise .runtimeError

/-- The first loop of `_parse_ontology`, par:103-107. -/
def loadAll (E : Env) (D : Doc) (fuel : Nat) : List Entity → Gr → Run (Gr × List Kind)
  | [], g => .ok (g, [])
  | e :: es, g => do
    let g ← loadEntity D fuel g e
    let k ← validateEntity E D g e
    let (g, ks) ← loadAll E D fuel es g
    .ok (g, k :: ks)

/-- `_assert_default_relationship_occurrence`, par:452-467. -/
def checkOccurrence (D : Doc) : Run Unit :=
  if 1 < (if D.defaultRel.isSome then 1 else 0) + (D.entities.filter (fun e => e.defaultRel.isSome)).length then raise .valueError else .ok ()

/-- `_check_default_rel_definition_on_ontology`, par:469-497. -/
def defaultRelOfDoc (E : Env) (D : Doc) (g : Gr) : Run Gr :=
  match D.defaultRel with
  | none => .ok g
  | some r => match splitOn '.' r with
    | [ns, name] => match E.reg ns with
      | none => raise .valueError
      | some has => if has name then do
          let i ← getIri D g ns name
          let o ← getIri D g [] []
          .ok (g.add ⟨.iri o, .defaultRel, .iri i⟩)
        else raise .valueError
    | _ => raise .valueError

/-- `_set_inverse`, par:424-450. -/
def setInverse (D : Doc) (g : Gr) (e : Entity) : Run Gr :=
  match e.inverse with
  | none => .ok g
  | some r => do
    let i ← refers D g r
    let iri ← getIri D g [] e.name
    .ok (g.add ⟨.iri iri, .inverseOf, .iri i⟩)

/-- `_check_default_rel_flag_on_entity`, par:499-513. -/
def defaultRelOfEntity (D : Doc) (g : Gr) (e : Entity) : Run Gr :=
  if e.defaultRel = some true then do
    let iri ← getIri D g [] e.name
    let o ← getIri D g [] []
    .ok (g.add ⟨.iri o, .defaultRel, .iri iri⟩)
  else .ok g

/-- `_set_datatype`, par:515-533, with the triple added by datatypes.py:231-233, 254-256. A datatype without IRI is refused by the graph. -/
def setDatatype (D : Doc) (g : Gr) (e : Entity) : Run Gr :=
  match e.datatype with
  | none => .ok g
  | some d => do
    let iri ← getIri D g [] e.name
    match Yaml.getRdflib d with
    | .error x => raise x
    | .ok none => raise .assertionError
    | .ok (some i) =>
      let g := if Yaml.dtPrefix.isPrefixOf i then g.add ⟨.iri i, .type, .iri Owl.datatype.iri⟩ else g
      .ok (g.add ⟨.iri iri, .range, .iri i⟩)

/-- The second loop, par:111-118. -/
def secondLoop (D : Doc) : List (Entity × Kind) → Gr → Run Gr
  | [], g => .ok g
  | (e, .relationship) :: l, g => do
    let g ← setInverse D g e
    let g ← defaultRelOfEntity D g e
    secondLoop D l g
  | (e, .attribute) :: l, g => do
    let g ← setDatatype D g e
    secondLoop D l g
  | (_, .class_) :: l, g => secondLoop D l g

/-- The triples of a restriction and of a default value, par:394-422. -/
def attributeTriples (cls attr : Text) (dflt : Yaml) (b : Nat) : List Triple :=
  [⟨.iri cls, .subClassOf, .blank b⟩, ⟨.blank b, .type, .iri Owl.restriction.iri⟩, ⟨.blank b, .cardinality, .one⟩, ⟨.blank b, .onProperty, .iri attr⟩] ++
  (match dflt with
    | .null => []
    | v => [⟨.iri cls, .default, .blank (b + 1)⟩, ⟨.blank (b + 1), .defaultAttribute, .iri attr⟩, ⟨.blank (b + 1), .defaultValue, .value v⟩])

/-- `_add_attribute`, par:386-422. -/
def addAttribute (g : Gr) (cls attr : Text) (dflt : Yaml) : Gr :=
  { addAll g (attributeTriples cls attr dflt g.next) with next := g.next + 2 }

/-- The loop of `_add_attributes`, par:374-384. -/
def addEach (D : Doc) (cls : Text) : List (Text × Yaml) → Gr → Run Gr
  | [], g => .ok g
  | (r, v) :: l, g => do
    let i ← refers D g r
    if hasType g i .datatypeProperty then addEach D cls l (addAttribute g cls i v)
    else raise .valueError

/-- `_add_attributes`, par:355-384. -/
def addAttributes (D : Doc) (g : Gr) (e : Entity) : Run Gr := do
  let iri ← getIri D g [] e.name
  match e.attributes with
  | none => .ok g
  | some l => addEach D iri l g

/-- The third loop, par:120-122. -/
def thirdLoop (D : Doc) : List (Entity × Kind) → Gr → Run Gr
  | [], g => .ok g
  | (e, .class_) :: l, g => do
    let g ← addAttributes D g e
    thirdLoop D l g
  | (_, _) :: l, g => thirdLoop D l g

/-- `graph.bind(self._namespace, self._get_iri())`, par:102. -/
def bindOwn (D : Doc) (g : Gr) : Gr :=
  if g.binds.any (fun b => b.1 == D.own) then g else { g with binds := g.binds ++ [(D.own, nsIri g D.own)] }

/-- `_parse_ontology`, par:98-122. -/
def parseOntology (E : Env) (fuel : Nat) (D : Doc) (g : Gr) : Run Gr := do
  let g := bindOwn D g
  let (g, kinds) ← loadAll E D fuel D.entities g
  checkOccurrence D
  let g ← defaultRelOfDoc E D g
  let g ← secondLoop D (D.entities.zip kinds) g
  thirdLoop D (D.entities.zip kinds) g

/-- `parse`, par:72-85; `none` if a name or a reference in the document is no text. -/
def parse (E : Env) (fuel : Nat) (doc : Yaml) (g : Gr) : Option (Run Gr) :=
  match Yaml.validateDoc E.dig E.limit doc with
  | .error e => some (raise e)
  | .ok () => (view doc).map (fun D => parseOntology E fuel D g)

end Osp.Ymlp
