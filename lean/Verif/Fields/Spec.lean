import Verif.Fields.Model
import Verif.Ymlp.Spec
import Mathlib.Logic.Relation
/-!
# Specification for C93: the attributes that a YAML ontology gives to its classes
-/
namespace Osp.Fields
open Osp.Ymlp
open Osp.Yaml (Yaml)
open Osp.Onto (AttrInfo)

/-- The subject of a triple as a term. Specification. -/
def toNode : Onto.Node Text → Node
  | .iri t => .iri t
  | .bnode n => .blank n

/-- The node is a restriction on the attribute `a`. Specification. -/
def Restricts (g : Gr) (o : Onto.Node Text) (a : Text) : Prop :=
  Has g (toNode o) .type (.iri Owl.restriction.iri) ∧ valueOf g o .onProperty = some (.iri a) ∧ Has g (.iri a) .type (.iri Owl.datatypeProperty.iri)

/-- The class is the domain of the attribute `a`. Specification. -/
def InDomain (g : Gr) (c a : Text) : Prop :=
  Has g (.iri a) domain (.iri c) ∧ Has g (.iri a) .type (.iri Owl.datatypeProperty.iri) ∧ a ≠ topData ∧ a ≠ bottomData

/-- A restriction of the class that does not say what it is about. Specification. -/
def Dangling (g : Gr) (c : Text) : Prop :=
  ∃ o, Has g (.iri c) .subClassOf (toNode o) ∧ Has g (toNode o) .type (.iri Owl.restriction.iri) ∧ ∀ p, ¬ Has g (toNode o) .onProperty p

/-- The IRI belongs to an entity of the document. Specification. -/
def OfDoc (D : Doc) (g : Gr) (c : Text) : Prop := ∃ e ∈ D.entities, c = iriOf D g e

/-- The entities of the document do not occur in the graph. Specification. -/
def Unseen (D : Doc) (g : Gr) : Prop := ∀ c, OfDoc D g c → ∀ t ∈ g.triples, t.s ≠ .iri c ∧ t.o ≠ .iri c

/-- In the graph, restrictions are blank nodes and say which property they are about, as OWL demands. Specification. -/
structure Tidy (g : Gr) : Prop where
  blank : ∀ i, ¬ Has g (.iri i) .type (.iri Owl.restriction.iri)
  property : ∀ o, Has g o .type (.iri Owl.restriction.iri) → ∃ p, Has g o .onProperty p

/-- `d` is a direct superclass of `c`: as the document says, or as the graph said before. Specification. -/
def Sub (D : Doc) (g : Gr) (c d : Text) : Prop :=
  (∃ e ∈ D.entities, c = iriOf D g e ∧ IsKind D g e .class_ ∧ ∃ r, Super e r ∧ refers D g r = .ok d) ∨ Has g (.iri c) .subClassOf (.iri d)

/-- Superclasses over any number of steps. Specification. -/
def Above (D : Doc) (g : Gr) : Text → Text → Prop := Relation.ReflTransGen (Sub D g)

/-- The classes whose statements count for `c`: itself, and the superclasses that are entities (of the document or of the graph) and not among the three classes of OWL. Specification. -/
def Contributes (D : Doc) (g : Gr) (c d : Text) : Prop :=
  d = c ∨ (Above D g c d ∧ d ≠ owlNothing ∧ d ≠ owlThing ∧ d ≠ owlNamedIndividual ∧
    (OfDoc D g d ∨ Has g (.iri d) .type (.iri Owl.class_.iri) ∨ Has g (.iri d) .type (.iri Owl.objectProperty.iri) ∨ Has g (.iri d) .type (.iri Owl.datatypeProperty.iri)))

/-- A class that is not in the document states this of the attribute, in the graph before. Specification. -/
def Before (D : Doc) (g : Gr) (c a : Text) (x : AttrInfo Node) : Prop := ¬ OfDoc D g c ∧ ∃ l, own g c = .ok l ∧ (a, x) ∈ l

/-- The class gives the attribute: the document lists it there, or the graph did before. Specification. -/
def Gives (D : Doc) (g : Gr) (c a : Text) : Prop := (∃ v, Declares D g ⟨c, a, v⟩) ∨ ∃ x, Before D g c a x

/-- The class asks for a value of the attribute: it is listed without default. Specification. -/
def Demands (D : Doc) (g : Gr) (c a : Text) : Prop :=
  ((∃ v, Declares D g ⟨c, a, v⟩) ∧ ∀ v, Declares D g ⟨c, a, v⟩ → v = .null) ∨ ∃ x, Before D g c a x ∧ x.obligatory = true

/-- The class offers this default for the attribute. Specification. -/
def Offers (D : Doc) (g : Gr) (c a : Text) (d : Node) : Prop :=
  (∃ v, Declares D g ⟨c, a, v⟩ ∧ v ≠ .null ∧ d = .value v) ∨ ∃ x, Before D g c a x ∧ x.default = some d

end Osp.Fields
