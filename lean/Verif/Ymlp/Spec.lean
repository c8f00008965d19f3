import Verif.Ymlp.Model
/-!
# Specification for C67 - C70: which triples a YAML ontology stands for
-/
namespace Osp.Ymlp
open Osp.Yaml (Yaml)
open Osp.Names (lower)

/-- Names without the characters that structure IRIs. -/
def Plain (t : Text) : Prop := '#' ∉ t ∧ '/' ∉ t

/-- Namespace and name in a reference. -/
def Splits (ref : Text) (ns name : Text) : Prop := ∃ a, ref = a ++ '.' :: name ∧ '.' ∉ a ∧ '.' ∉ name ∧ ns = lower a

/-- The references of an entity to superclasses. -/
def Super (e : Entity) (ref : Text) : Prop := some ref ∈ e.supers

/-- All references in the document. -/
inductive InDoc (D : Doc) : Text → Prop where
  | super {e : Entity} {r : Text} : e ∈ D.entities → Super e r → InDoc D r
  | inverse {e : Entity} {r : Text} : e ∈ D.entities → e.inverse = some r → InDoc D r
  | attribute {e : Entity} {l : List (Text × Yaml)} {r : Text} {v : Yaml} : e ∈ D.entities → e.attributes = some l → (r, v) ∈ l → InDoc D r
  | default {r : Text} : D.defaultRel = some r → InDoc D r

/-- The document is one that a YAML file can give: distinct, nonempty, plain names; references are `namespace.name` with plain parts. -/
structure Proper (D : Doc) : Prop where
  distinct : (D.entities.map (·.name)).Nodup
  names : ∀ e ∈ D.entities, e.name ≠ [] ∧ Plain e.name
  refs : ∀ r, InDoc D r → ∃ a b, r = a ++ '.' :: b ∧ '.' ∉ a ∧ '.' ∉ b ∧ Plain a ∧ Plain b ∧ a ≠ [] ∧ b ≠ []
  own : D.own ≠ [] ∧ Plain D.own

/-- The IRI of the document's namespace. -/
def base (D : Doc) (g : Gr) : Text := nsIri g D.own

/-- The IRI of an entity of the document. -/
def iriOf (D : Doc) (g : Gr) (e : Entity) : Text := base D g ++ e.name

/-- The graph has the triple. -/
def Has (g : Gr) (s : Node) (p : Pred) (o : Node) : Prop := (⟨s, p, o⟩ : Triple) ∈ g.triples

/-- The graph is ready for the document: its namespace is not one of those whose entities are referred to by label, the IRIs of other namespaces cannot be mixed up with the document's and with those of
datatypes, and blank nodes with numbers from `next` on are new. -/
structure Ready (D : Doc) (g : Gr) : Prop where
  notByLabel : ¬ Has g (.iri (base D g)) .referenceByLabel .yes
  apart : ∀ ns, Plain ns → ns ≠ D.own → ∀ n m, Plain n → Plain m → nsIri g ns ++ n ≠ base D g ++ m ∧ ¬ nsIri g ns <+: base D g ++ m ∧ ∀ u, nsIri g ns ++ n ≠ Yaml.dtPrefix ++ u
  ownApart : ∀ m u, Plain m → base D g ++ m ≠ Yaml.dtPrefix ++ u
  fresh : ∀ t ∈ g.triples, ∀ k, (t.s = .blank k ∨ t.o = .blank k) → k < g.next

/-- One step up: from an entity of the document to one of its superclasses, as namespace and name. -/
inductive Up (D : Doc) : Text × Text → Text × Text → Prop where
  | step {e : Entity} {r ns n : Text} : e ∈ D.entities → Super e r → Splits r ns n → Up D (D.own, e.name) (ns, n)

/-- Reflexive and transitive. -/
inductive Anc (D : Doc) : Text × Text → Text × Text → Prop where
  | refl {x : Text × Text} : Anc D x x
  | step {x y z : Text × Text} : Up D x y → Anc D y z → Anc D x z

/-- The types an entity inherits. -/
def inherited : List Owl := [.class_, .objectProperty, .datatypeProperty, .functionalProperty]

/-- The type of some ancestor of the entity, in the graph before parsing. -/
def Inherits (D : Doc) (g : Gr) (e : Entity) (k : Owl) : Prop :=
  k ∈ inherited ∧ ∃ q, Anc D (D.own, e.name) q ∧ ∃ i, getIri D g q.1 q.2 = .ok i ∧ Has g (.iri i) .type (.iri k.iri)

/-- The kind of an entity of the document. -/
def IsKind (D : Doc) (g : Gr) (e : Entity) (k : Kind) : Prop := ∀ k', Inherits D g e k'.owl ↔ k' = k

/-- The triples without blank nodes that the document stands for. -/
inductive Says (D : Doc) (g : Gr) : Triple → Prop where
  | label {e : Entity} : e ∈ D.entities → Says D g ⟨.iri (iriOf D g e), .prefLabel, .label e.name⟩
  | description {e : Entity} {d : Text} : e ∈ D.entities → e.description = some d → Says D g ⟨.iri (iriOf D g e), .isDefinedBy, .label d⟩
  | type {e : Entity} {k : Owl} : e ∈ D.entities → Inherits D g e k → Says D g ⟨.iri (iriOf D g e), .type, .iri k.iri⟩
  | subClass {e : Entity} {r i : Text} : e ∈ D.entities → IsKind D g e .class_ → Super e r → refers D g r = .ok i → Says D g ⟨.iri (iriOf D g e), .subClassOf, .iri i⟩
  | subProperty {e : Entity} {k : Kind} {r i : Text} : e ∈ D.entities → IsKind D g e k → k ≠ .class_ → Super e r → refers D g r = .ok i → Says D g ⟨.iri (iriOf D g e), .subPropertyOf, .iri i⟩
  | inverse {e : Entity} {r i : Text} : e ∈ D.entities → IsKind D g e .relationship → e.inverse = some r → refers D g r = .ok i → Says D g ⟨.iri (iriOf D g e), .inverseOf, .iri i⟩
  | range {e : Entity} {d i : Text} : e ∈ D.entities → IsKind D g e .attribute → e.datatype = some d → Yaml.getRdflib d = .ok (some i) → Says D g ⟨.iri (iriOf D g e), .range, .iri i⟩
  | datatype {e : Entity} {d i : Text} : e ∈ D.entities → IsKind D g e .attribute → e.datatype = some d → Yaml.getRdflib d = .ok (some i) → Yaml.dtPrefix <+: i →
      Says D g ⟨.iri i, .type, .iri Owl.datatype.iri⟩
  | defaultHere {e : Entity} : e ∈ D.entities → IsKind D g e .relationship → e.defaultRel = some true → Says D g ⟨.iri (base D g), .defaultRel, .iri (iriOf D g e)⟩
  | defaultThere {r i : Text} : D.defaultRel = some r → refers D g r = .ok i → Says D g ⟨.iri (base D g), .defaultRel, .iri i⟩

/-- A class of the document has this attribute, with this default. -/
structure Attr where
  cls : Text
  attr : Text
  dflt : Yaml

/-- The attributes the document gives to its classes. -/
def Declares (D : Doc) (g : Gr) (a : Attr) : Prop :=
  ∃ e ∈ D.entities, IsKind D g e .class_ ∧ a.cls = iriOf D g e ∧ ∃ l r, e.attributes = some l ∧ (r, a.dflt) ∈ l ∧ refers D g r = .ok a.attr

/-- The attributes in one entry of the document, in the order in which they are written there. -/
def entry (D : Doc) (g : Gr) (e : Entity) (rv : Text × Yaml) : Option Attr :=
  match refers D g rv.1 with
  | .ok i => some ⟨iriOf D g e, i, rv.2⟩
  | .error _ => none

open Classical in
/-- All declarations of attributes, one for each time it is written. -/
noncomputable def declared (D : Doc) (g : Gr) : List Attr :=
  D.entities.flatMap (fun e => if IsKind D g e .class_ then (e.attributes.getD []).filterMap (entry D g e) else [])

/-- The restrictions made for the attributes, with the numbers of their blank nodes: one for each declaration, with blank nodes that are new and its own (`b` for the restriction, `b + 1` for the default). -/
structure Made (D : Doc) (g : Gr) (made : List (Attr × Nat)) : Prop where
  which : made.map (·.1) = declared D g
  new : ∀ m ∈ made, g.next ≤ m.2
  own : made.Pairwise (fun m m' => m.2 + 1 < m'.2)

/-- The triples that say that instances of a class have exactly one value of an attribute, and which one if none is given. -/
inductive AttrSays (a : Attr) (b : Nat) : Triple → Prop where
  | restriction : AttrSays a b ⟨.iri a.cls, .subClassOf, .blank b⟩
  | type : AttrSays a b ⟨.blank b, .type, .iri Owl.restriction.iri⟩
  | cardinality : AttrSays a b ⟨.blank b, .cardinality, .one⟩
  | property : AttrSays a b ⟨.blank b, .onProperty, .iri a.attr⟩
  | default : a.dflt ≠ .null → AttrSays a b ⟨.iri a.cls, .default, .blank (b + 1)⟩
  | defaultOf : a.dflt ≠ .null → AttrSays a b ⟨.blank (b + 1), .defaultAttribute, .iri a.attr⟩
  | defaultIs : a.dflt ≠ .null → AttrSays a b ⟨.blank (b + 1), .defaultValue, .value a.dflt⟩

/-- The IRI is an attribute: in the graph before, or in the document. -/
def IsAttribute (D : Doc) (g : Gr) (i : Text) : Prop :=
  Has g (.iri i) .type (.iri Owl.datatypeProperty.iri) ∨ ∃ e ∈ D.entities, i = iriOf D g e ∧ Inherits D g e .datatypeProperty

/-- The relation to superclasses has no cycle within the document. -/
def Acyclic (D : Doc) : Prop := ∀ e ∈ D.entities, ¬ ∃ q, Up D (D.own, e.name) q ∧ Anc D q (D.own, e.name)

/-- The conditions under which the document can be parsed. -/
structure Fine (E : Env) (D : Doc) (g : Gr) : Prop where
  /-- superclasses exist, and those in the document are spelled as there -/
  supers : ∀ e ∈ D.entities, ∀ r, Super e r → (∃ i, refers D g r = .ok i) ∧ ∀ n, Splits r D.own n → ∃ e' ∈ D.entities, e'.name = n
  acyclic : Acyclic D
  /-- each entity has exactly one kind, and only keys for that kind -/
  kinds : ∀ e ∈ D.entities, ∃ k, IsKind D g e k ∧ Yaml.validate (Yaml.formats E.dig) E.limit e.raw (.named k.format) = .ok ()
  /-- at most one default relationship -/
  single : (if D.defaultRel.isSome then 1 else 0) + (D.entities.filter (fun e => e.defaultRel.isSome)).length ≤ 1
  /-- the default relationship of the document exists and is installed -/
  default : ∀ r, D.defaultRel = some r → (∃ i, refers D g r = .ok i) ∧ ∃ a b has, r = a ++ '.' :: b ∧ '.' ∉ a ∧ '.' ∉ b ∧ E.reg a = some has ∧ has b = true
  inverses : ∀ e ∈ D.entities, IsKind D g e .relationship → ∀ r, e.inverse = some r → ∃ i, refers D g r = .ok i
  datatypes : ∀ e ∈ D.entities, IsKind D g e .attribute → ∀ d, e.datatype = some d → ∃ i, Yaml.getRdflib d = .ok (some i)
  attributes : ∀ e ∈ D.entities, IsKind D g e .class_ → ∀ l, e.attributes = some l → ∀ r v, (r, v) ∈ l → ∃ i, refers D g r = .ok i ∧ IsAttribute D g i

end Osp.Ymlp
