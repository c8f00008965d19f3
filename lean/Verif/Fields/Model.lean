import Verif.Ymlp.Model
import Verif.Onto.Model
/-!
# Model of the attributes of a class, read from the ontology graph (C93)

`osp/core/ontology/oclass.py`, cited as oc:. The graph is that of Verif.Ymlp, the computation of the superclasses and the merge of the statements are those of Verif.Onto. Entities are
their IRIs (two entities are equal iff their IRIs are, C88). Not modelled: literals as superclasses, attributes that are also classes or relationships.
-/
namespace Osp.Fields
open Osp.Ymlp
open Osp.Onto (AttrInfo Attr Kwargs OG)

/-- owl:Thing. The constant at oc:10. -/
def owlThing : Text := "http://www.w3.org/2002/07/owl#Thing".toList
/-- owl:Nothing. The constant at oc:10. -/
def owlNothing : Text := "http://www.w3.org/2002/07/owl#Nothing".toList
/-- owl:NamedIndividual. The constant at oc:11. -/
def owlNamedIndividual : Text := "http://www.w3.org/2002/07/owl#NamedIndividual".toList
/-- owl:topDataProperty. The constant at oc:67. -/
def topData : Text := "http://www.w3.org/2002/07/owl#topDataProperty".toList
/-- owl:bottomDataProperty. The constant at oc:67. -/
def bottomData : Text := "http://www.w3.org/2002/07/owl#bottomDataProperty".toList
/-- rdfs:domain. The constant at oc:69. -/
def domain : Pred := .other "http://www.w3.org/2000/01/rdf-schema#domain".toList
/-- owl:someValuesFrom. The constant at oc:102. -/
def someValues : Pred := .other "http://www.w3.org/2002/07/owl#someValuesFrom".toList
/-- owl:allValuesFrom. The constant at oc:104. -/
def allValues : Pred := .other "http://www.w3.org/2002/07/owl#allValuesFrom".toList

/-- A term that can be the subject of a triple: an IRI or a blank node. rdflib; nothing in /repo. -/
def asNode : Node → Option (Onto.Node Text)
  | .iri t => some (.iri t)
  | .blank n => some (.bnode n)
  | _ => none

/-- `graph.triples((s, p, None))`, the objects. rdflib; nothing in /repo. -/
def objects (g : Gr) (s : Onto.Node Text) (p : Pred) : List Node :=
  g.triples.filterMap (fun t => if asNode t.s = some s ∧ t.p = p then some t.o else none)

/-- `graph.value(s, p)`: the first object. rdflib; nothing in /repo. -/
def valueOf (g : Gr) (s : Onto.Node Text) (p : Pred) : Option Node := (objects g s p).head?

/-- `(s, p, IRI) in graph`. rdflib; nothing in /repo. -/
def hasIri (g : Gr) (s : Onto.Node Text) (p : Pred) (i : Text) : Bool := (objects g s p).any (fun o => o.isIri i)

/-- Some subject has the type: `(None, RDF.type, IRI) in graph`. rdflib; nothing in /repo. -/
def someTyped (g : Gr) (i : Text) : Bool := g.triples.any (fun t => t.p == .type && t.o.isIri i)

/-- Whether a term is true: IRIs and blank nodes are texts that are not empty, a literal is as true as its value. rdflib; nothing in /repo. -/
def truthy : Node → Bool
  | .iri t => !t.isEmpty
  | .label t => !t.isEmpty
  | .yes => true
  | .one => true
  | .value v => truth v
  | .blank _ => true

/-- `_get_default`, oc:109-125. -/
def getDefault (g : Gr) (a c : Text) : Option Node :=
  match ((objects g (.iri c) .default).filterMap asNode).find? (fun b => hasIri g b .defaultAttribute a) with
  | some b => valueOf g b .defaultValue
  | none => none

/-- The dictionary entry. Python itself; models nothing in /repo. -/
def put (l : List (Text × AttrInfo Node)) (a : Text) (v : AttrInfo Node) : List (Text × AttrInfo Node) :=
  match l with
  | [] => [(a, v)]
  | (b, w) :: l => if b = a then (b, v) :: l else (b, w) :: put l a v

/-- The subjects of (a, rdfs:domain, class), oc:69-70. -/
def domainOf (g : Gr) (c : Text) : List (Onto.Node Text) :=
  g.triples.filterMap (fun t => if t.p = domain ∧ t.o.isIri c = true then asNode t.s else none)

/-- Case 1: the attributes whose domain is the class, oc:68-77. -/
def byDomain (g : Gr) (c : Text) : List (Onto.Node Text) → List (Text × AttrInfo Node) → List (Text × AttrInfo Node)
  | [], out => out
  | .bnode _ :: l, out => byDomain g c l out
  | .iri a :: l, out =>
    if hasIri g (.iri a) .type Owl.datatypeProperty.iri = true ∧ a ≠ topData ∧ a ≠ bottomData then byDomain g c l (put out a ⟨getDefault g a c, false, none⟩)
    else byDomain g c l out

/-- `_get_datatype_for_restriction`, oc:97-107: the datatype. -/
def restrictionDatatype (g : Gr) (r : Onto.Node Text) : Option Node := Onto.pyOr truthy (valueOf g r someValues) (valueOf g r allValues)

/-- What is stated by a restriction, oc:88-91. -/
def restrictionInfo (g : Gr) (c a : Text) (r : Onto.Node Text) : AttrInfo Node :=
  ⟨getDefault g a c, Onto.restrictionObligatory (valueOf g r someValues).isSome (getDefault g a c), restrictionDatatype g r⟩

/-- Case 2: restrictions, oc:79-91. A restriction without owl:onProperty asks for (None, rdf:type, owl:DatatypeProperty), which any attribute satisfies, and then for the entity with the IRI
None, which raises TypeError. -/
def byRestriction (g : Gr) (c : Text) : List (Onto.Node Text) → List (Text × AttrInfo Node) → Except PyErr (List (Text × AttrInfo Node))
  | [], out => .ok out
  | o :: l, out =>
    if hasIri g o .type Owl.restriction.iri then
      match valueOf g o .onProperty with
      | none => if someTyped g Owl.datatypeProperty.iri then .error .typeError else byRestriction g c l out
      | some (.iri a) => if hasIri g (.iri a) .type Owl.datatypeProperty.iri then byRestriction g c l (put out a (restrictionInfo g c a o)) else byRestriction g c l out
      | some _ => byRestriction g c l out
    else byRestriction g c l out

/-- `_get_attributes`, oc:55-95; `own_attributes`, oc:47-53. -/
def own (g : Gr) (c : Text) : Except PyErr (List (Text × AttrInfo Node)) :=
  byRestriction g c ((objects g (.iri c) .subClassOf).filterMap asNode) (byDomain g c (domainOf g c) [])

/-- The types `from_iri` looks for, namespace_registry.py:138-140. -/
def allowed : List Owl := [.datatypeProperty, .objectProperty, .class_]

/-- `from_iri(iri, raise_error=False)` finds an entity, namespace_registry.py:137-173. -/
def knownIri (g : Gr) (i : Text) : Bool := allowed.any (fun k => hasIri g (.iri i) .type k.iri)

/-- The part of the graph that the computation of the superclasses reads, entity.py:173-261, oclass.py:10-11, 205-209. -/
def og (g : Gr) : OG Text where
  sub := g.triples.filterMap (fun t => if t.p = .subClassOf then (asNode t.s).bind (fun s => (asNode t.o).map (fun o => (s, o))) else none)
  typed := g.triples.filterMap (fun t => if t.p = .type ∧ t.o.isIri Owl.class_.iri = true then asNode t.s else none)
  top := .iri owlThing
  bottom := .iri owlNothing
  blacklist := [.iri owlNothing, .iri owlThing, .iri owlNamedIndividual]
  known n := match n with
    | .iri i => knownIri g i
    | .bnode _ => false

/-- The IRIs among the nodes: entities have IRIs. Modelling device. -/
def iris (l : List (Onto.Node Text)) : List Text := l.filterMap (fun n => match n with | .iri t => some t | .bnode _ => none)

/-- The statements of several classes, the first exception ends it: the outer loop of `attributes`, oc:39-40. -/
def ownAll (g : Gr) : List Text → Except PyErr (List (List (Text × AttrInfo Node)))
  | [] => .ok []
  | c :: cs => match own g c with
    | .error e => .error e
    | .ok l => match ownAll g cs with
      | .error e => .error e
      | .ok ls => .ok (l :: ls)

/-- `attributes`, oc:32-45. `order` is the order in which the set of superclasses is iterated, `pick` the order in which the frontier is popped. `none` means that the number of turns did not suffice. -/
def attributes (g : Gr) (order : List Text → List Text) (pick : List (Onto.Node Text) → Nat) (fuel : Nat) (c : Text) : Option (Except PyErr (List (Text × AttrInfo Node))) :=
  (Onto.closure (og g) false pick fuel (.iri c)).map (fun l => match ownAll g (order (iris l)) with
    | .error e => .error e
    | .ok ls => .ok (Onto.attributes truthy id ls))

/-- `_get_attributes_values` as called by `__call__`, oc:151-195, 217-252; `name` is the argument name of an attribute, attribute.py:31-38. The checks for cuba:Wrapper and cuba:Nothing
are not modelled here (C07, C14). -/
def callClass (g : Gr) (order : List Text → List Text) (pick : List (Onto.Node Text) → Nat) (fuel : Nat) (name : Text → Text) (c : Text) (kw : Kwargs Node) :
    Option (Except PyErr (List (Attr Text × Node))) :=
  (attributes g order pick fuel c).map (fun r => match r with
    | .error e => .error e
    | .ok as => Onto.attributesValues false (as.map (fun p => (⟨p.1, name p.1⟩, p.2))) kw)

end Osp.Fields
