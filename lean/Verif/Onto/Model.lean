import Verif.Common
/-!
# Model of the ontology layer
`osp/core/ontology/entity.py` (superclasses, subclasses), `relationship.py` (inverse), `attribute.py` (datatype), `oclass.py` (constructor arguments).
-/
namespace Osp.Onto

variable {I : Type} [DecidableEq I]

/-- RDF nodes of an ontology graph: IRIs and blank nodes. rdflib, as used by the cited callers; models nothing in /repo itself. Nothing in /repo. -/
inductive Node (I : Type) where
  | iri (n : I) | bnode (n : Nat)
  deriving DecidableEq, Repr

/-- entity.py 227-261, `isinstance(o, rdflib.BNode)`. -/
def Node.isBNode : (Node I) → Bool
  | .bnode _ => true
  | _ => false

/-- The part of the ontology graph one kind of entity (class, relationship or attribute) uses. What entity.py 158-261 reads. Modelling simplification: one kind of entity at a time. -/
structure OG (I : Type) where
  /-- triples (s, rdfs:subClassOf, o) resp. (s, rdfs:subPropertyOf, o) -/
  sub : List ((Node I) × (Node I))
  /-- subjects of (s, rdf:type, owl:Class), (s, rdf:type, owl:ObjectProperty) resp. (s, rdf:type, owl:DataProperty); the last does not exist in
  OWL (it is owl:DatatypeProperty), so this list is empty for attributes: entity.py:220-224 -/
  typed : List (Node I)
  /-- owl:Thing, owl:topObjectProperty, owl:topDataProperty -/
  top : Node I
  /-- owl:Nothing, owl:bottomObjectProperty, owl:bottomDataProperty -/
  bottom : Node I
  /-- the BLACKLIST constants of oclass.py:10, relationship.py:11, attribute.py:11 -/
  blacklist : List (Node I)
  /-- whether `from_iri(o, raise_error=False)` finds an entity, namespace_registry.py:137-173 -/
  known : (Node I) → Bool

/-- The nodes the triple pattern of `_directly_connected` yields, entity.py:196-225 and :240-248: with the special cases. -/
def OG.connected (g : OG I) (inverse : Bool) (n : Node I) : List (Node I) :=
  if inverse then
    if n = g.top then g.typed else (g.sub.filter (fun t => t.2 = n)).map (·.1)
  else
    if n = g.bottom then g.typed else (g.sub.filter (fun t => t.1 = n)).map (·.2)

/-- `o` is yielded as an entity, entity.py:256-260. -/
def OG.yields (g : OG I) (o : Node I) : Bool := decide (o ∉ g.blacklist) && g.known o

/-- State of `_transitive_hull`: `_visited`, `_frontier` and what was yielded. entity.py 173-194. -/
structure Hull (I : Type) where
  visited : List (Node I)
  frontier : List (Node I)
  out : List (Node I)

/-- The loop of `_directly_connected` inside the hull, entity.py:248-261. -/
def Hull.expand (g : OG I) : List (Node I) → (Hull I) → (Hull I)
  | [], h => h
  | o :: os, h =>
    if o ∈ h.visited then Hull.expand g os h
    else if o.isBNode then Hull.expand g os h
    else Hull.expand g os { visited := o :: h.visited, frontier := o :: h.frontier, out := if g.yields o then h.out ++ [o] else h.out }

/-- The while loop of `_transitive_hull`, entity.py:185-194. `pick` decides which element `frontier.pop()` returns. -/
def hullLoop (g : OG I) (inverse : Bool) (pick : List (Node I) → Nat) : Nat → (Hull I) → Option (List (Node I))
  | 0, _ => none
  | fuel + 1, h =>
    match h.frontier with
    | [] => some h.out
    | f :: fs =>
      let i := pick (f :: fs) % (f :: fs).length
      let current := (f :: fs).getD i f
      hullLoop g inverse pick fuel (Hull.expand g (g.connected inverse current) { h with frontier := (f :: fs).eraseIdx i })

/-- `_transitive_hull`, entity.py:173-194. -/
def hull (g : OG I) (inverse : Bool) (pick : List (Node I) → Nat) (fuel : Nat) (n : Node I) : Option (List (Node I)) :=
  hullLoop g inverse pick fuel ⟨[n], [n], []⟩

/-- `superclasses` (inverse = false) and `subclasses` (inverse = true) as the elements added to the set: oclass.py:230-240, relationship.py:71-87,
attribute.py:94-102. -/
def closure (g : OG I) (inverse : Bool) (pick : List (Node I) → Nat) (fuel : Nat) (n : Node I) : Option (List (Node I)) :=
  (hull g inverse pick fuel n).map (n :: ·)

/-- `direct_superclasses` / `direct_subclasses`: `_directly_connected` without visited set, entity.py:227-261. -/
def direct (g : OG I) (inverse : Bool) (n : Node I) : List (Node I) :=
  (g.connected inverse n).filter (fun o => !o.isBNode && g.yields o)

/-- `a.is_subclass_of(b)`, entity.py:145-155. -/
def isSubclassOf (g : OG I) (pick : List (Node I) → Nat) (fuel : Nat) (a b : Node I) : Option Bool :=
  (closure g true pick fuel b).map (fun l => decide (a ∈ l))

/-- `b.is_superclass_of(a)`, entity.py:134-143. -/
def isSuperclassOf (g : OG I) (pick : List (Node I) → Nat) (fuel : Nat) (b a : Node I) : Option Bool :=
  (closure g false pick fuel a).map (fun l => decide (b ∈ l))

/-! ### inverse relationships -/

/-- Relationship graph: the hierarchy and the owl:inverseOf triples. relationship.py 33-110. -/
structure RG (I : Type) where
  og : OG I
  inv : List ((Node I) × (Node I))

/-- The look up part of `inverse`, relationship.py:41-48. -/
def RG.lookup (g : RG I) (r : Node I) : Option (Node I) :=
  match (g.inv.filter (fun t => t.1 = r && !t.2.isBNode)).head? with
  | some t => some t.2
  | none => match (g.inv.filter (fun t => t.2 = r && !t.1.isBNode)).head? with
    | some t => some t.1
    | none => none

/-- Add without duplicates. Python itself; models nothing in /repo. -/
def addSet {α : Type} [DecidableEq α] (l : List α) (x : α) : List α := if x ∈ l then l else l ++ [x]

/-- The first three `graph.add` of `_add_inverse`, relationship.py:95-103 (the label triple is not modelled). `known` holds for the new relationship
because of its type triple. -/
def RG.addNew (g : RG I) (r o : Node I) : RG I :=
  { og := { g.og with typed := addSet g.og.typed o, known := fun n => n = o || g.og.known n }
    inv := addSet g.inv (r, o) }

/-- The loop over `self.direct_superclasses`, relationship.py:104-107; `rec` is the property `inverse`. -/
def addSupers (rec : (RG I) → (Node I) → Option ((Node I) × (RG I))) (o : Node I) : List (Node I) → (RG I) → Option (RG I)
  | [], g => some g
  | s :: ss, g => match rec g s with
    | none => none
    | some (si, g') => addSupers rec o ss { g' with og := { g'.og with sub := addSet g'.og.sub (o, si) } }

/-- `OntologyRelationship.inverse` with `_add_inverse`, relationship.py:33-49 and :89-108. `mk r` is the IRI namespace + "INVERSE_OF_" + name. -/
def RG.inverse (mk : (Node I) → (Node I)) : Nat → (RG I) → (Node I) → Option ((Node I) × (RG I))
  | 0, _, _ => none
  | fuel + 1, g, r =>
    match g.lookup r with
    | some i => some (i, g)
    | none =>
      let o := mk r
      let g1 := g.addNew r o
      match addSupers (RG.inverse mk fuel) o (direct g1.og false r) g1 with
      | none => none
      | some g2 => some (o, g2)

/-! ### attribute datatype -/

/-- `OntologyAttribute.datatype`, attribute.py:40-64. `supers` are the superclasses, `ranges` the rdfs:range triples, `literal` is rdfs:Literal. -/
def datatype (ranges : List ((Node I) × (Node I))) (literal : Node I) (supers : List (Node I)) : Except PyErr (Option (Node I)) :=
  let ds := supers.foldl (fun acc s => ((ranges.filter (fun t => t.1 = s && t.2 ≠ literal)).map (·.2)).foldl addSet acc) []
  match ds with
  | [d] => .ok (some d)
  | [] => .ok none
  | _ => .error .runtimeError

/-! ### constructor arguments -/

/-- What a class says about an attribute: default value, obligatory, datatype (the last is used nowhere in the constructor). `V` are the terms of the graph. oclass.py 55-95. -/
structure AttrInfo (V : Type) where
  default : Option V
  obligatory : Bool
  datatype : Option V
  deriving DecidableEq, Repr

/-- Python `x or y` on defaults and datatypes: None and falsy terms are skipped (a literal is falsy iff its value is). Python itself; models nothing in /repo. Used at oclass.py 32-45. -/
def pyOr {V : Type} (tr : V → Bool) (x y : Option V) : Option V :=
  match x with
  | some v => if tr v then some v else y
  | none => y

/-- `attributes[attr] = (x[0] or v[0], x[1] or v[1], x[2] or v[2])`, oclass.py:41-43. -/
def mergeAttr {A V : Type} [DecidableEq A] (tr : V → Bool) (acc : List (A × AttrInfo V)) (a : A) (v : AttrInfo V) : List (A × AttrInfo V) :=
  match acc with
  | [] => [(a, { default := pyOr tr none v.default, obligatory := false || v.obligatory, datatype := pyOr tr none v.datatype })]
  | (a', x) :: acc =>
    if a' = a then (a', { default := pyOr tr x.default v.default, obligatory := x.obligatory || v.obligatory, datatype := pyOr tr x.datatype v.datatype }) :: acc
    else (a', x) :: mergeAttr tr acc a v

/-- `OntologyClass.attributes`, oclass.py:32-44; `own c` are the attributes the class `c` itself defines. -/
def attributes {C A V : Type} [DecidableEq A] (tr : V → Bool) (own : C → List (A × AttrInfo V)) (supers : List C) : List (A × AttrInfo V) :=
  supers.foldl (fun acc c => (own c).foldl (fun acc av => mergeAttr tr acc av.1 av.2) acc) []

/-- The restriction's `obligatory` flag, oclass.py:97-107 and :89-92: `(r, owl.cardinality) != 0` compares a tuple with 0 and is always true. -/
def restrictionObligatory {V : Type} (hasSomeValuesFrom : Bool) (default : Option V) : Bool :=
  default.isNone && (hasSomeValuesFrom || true || true)

/-- Python strings as lists of characters. Python itself; models nothing in /repo. -/
abbrev Name := List Char

/-- `str.lower()`, for ASCII letters (other alphabets: identity in this model). Python itself; models nothing in /repo. -/
def Name.lower (n : Name) : Name := n.map Char.toLower

/-- Keyword arguments: name to value. oclass.py 151-195. -/
abbrev Kwargs (V : Type) := List (Name × V)

/-- `del kwargs[n]`. Python itself; models nothing in /repo. -/
def Kwargs.erase {V : Type} (k : Kwargs V) (n : Name) : Kwargs V := k.filter (fun e => e.1 ≠ n)

/-- An attribute: its identity and its argname. Two attributes of different namespaces may have the same argname. attribute.py 17-49. -/
structure Attr (A : Type) where
  id : A
  argname : Name
  deriving DecidableEq, Repr

/-- The loop of `_get_attributes_values`, oclass.py:167-189. -/
def attrLoop {A V : Type} (force : Bool) : List (Attr A × AttrInfo V) → Kwargs V → List (Attr A × V) → Except PyErr (List (Attr A × V) × Kwargs V)
  | [], kw, out => .ok (out, kw)
  | (a, i) :: as, kw, out =>
    match kw.lookup a.argname with
    | some v => attrLoop force as (kw.erase a.argname) (out ++ [(a, v)])
    | none =>
      match kw.lookup a.argname.lower with
      | some v => attrLoop force as (kw.erase a.argname.lower) (out ++ [(a, v)])
      | none =>
        if !force && i.obligatory then .error .typeError
        else match i.default with
          | some d => attrLoop force as kw (out ++ [(a, d)])
          | none => attrLoop force as kw out

/-- `_get_attributes_values`, oclass.py:151-195. -/
def attributesValues {A V : Type} (force : Bool) (attrs : List (Attr A × AttrInfo V)) (kwargs : Kwargs V) : Except PyErr (List (Attr A × V)) :=
  match attrLoop force attrs kwargs [] with
  | .error e => .error e
  | .ok (out, kw) => if !force && !kw.isEmpty then .error .typeError else .ok out

/-- `get_attribute_by_argname`, oclass.py:127-149. -/
def attributeByArgname {A : Type} (attrs : List (Attr A)) (name : Name) : Option (Attr A) :=
  attrs.find? (fun a => a.argname == name || a.argname.lower == name)

end Osp.Onto
