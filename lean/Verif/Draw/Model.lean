import Verif.Common
/-!
# Model of the drawing of an ontology
`tools/ontology2dot.py`. The ontology is given by what it answers: the kind of an entity, its namespace, its direct superclasses, its inverse. The
relationships have their inverses already (an inverse that is created during the drawing, relationship.py 46, is in Verif/Onto). Node labels (texts,
attributes, colours of the kinds) and graphviz are left out; entities are identified with `str(entity)`.
-/
namespace Osp.Draw

/-- An entity of the ontology, identified by its text, entity.py 36-38. Modelling device. -/
abbrev Ent := Nat

/-- A namespace. Modelling device. -/
abbrev Ns := Nat

/-- The kinds of entities, ontology2dot.py 91-96. -/
inductive Kind where
  | cls
  | rel
  | attr
  deriving DecidableEq, Repr

/-- What the ontology answers: kind, namespace, `direct_superclasses`, `inverse`, and whether the name starts with `INVERSE_OF`. Modelling device for the
queries in ontology2dot.py 78-151; they are modelled in Verif/Onto. -/
structure Ontology where
  kind : Ent → Kind
  ns : Ent → Ns
  supers : Ent → List Ent
  inverse : Ent → Ent
  automatic : Ent → Bool

/-- A statement of the dot file: a node, inside the cluster of a namespace or not, filled with a colour or not; an `is_a` edge; an `inverse` edge.
The calls in ontology2dot.py 100, 115-119, 128-137, 147-151. -/
inductive Stmt where
  | node (cluster : Option Ns) (e : Ent) (filled : Bool)
  | isA (e f : Ent)
  | inverse (e f : Ent)
  deriving DecidableEq, Repr

/-- The fields of the drawing: `_visited`, the statements in the order of the calls, the keys of `_subgraphs` in the order of their creation.
ontology2dot.py 37-41. -/
structure St where
  visited : List Ent := []
  out : List Stmt := []
  clusters : List Ns := []
  deriving DecidableEq, Repr

/-- The parameters: `_namespaces` and `_group`, ontology2dot.py 32-40. -/
structure Par where
  requested : List Ns
  group : Bool

/-- `_get_subgraph`: the graph for the nodes of a namespace, ontology2dot.py 49-61. -/
def getSubgraph (P : Par) (n : Ns) (st : St) : Option Ns × St :=
  if !P.group then (none, st)
  else if n ∈ st.clusters then (some n, st)
  else (some n, { st with clusters := st.clusters ++ [n] })

/-- Is the cluster of a namespace labelled (or else drawn without a frame)? ontology2dot.py 55-61. -/
def labelled (P : Par) (n : Ns) : Bool := n ∈ P.requested

/-- The node of an entity: the same for the three kinds but for the colour, ontology2dot.py 102-119, 121-132, 139-151. -/
def addNode (O : Ontology) (P : Par) (e : Ent) (st : St) : St :=
  let (c, st) := getSubgraph P (O.ns e) st
  { st with out := st.out ++ [.node c e (O.ns e ∈ P.requested)] }

/-- The inverse of a relationship, ontology2dot.py 133-137. -/
def addInverse (O : Ontology) (rec : Ent → St → Option St) (e : Ent) (st : St) : Option St :=
  if O.kind e = .rel && !O.automatic (O.inverse e) && !(st.visited.contains (O.inverse e)) then
    match rec (O.inverse e) st with
    | none => none
    | some st => some { st with out := st.out ++ [.inverse e (O.inverse e)] }
  else some st

/-- The loop over the direct superclasses, ontology2dot.py 98-100. -/
def addSupers (rec : Ent → St → Option St) (e : Ent) : List Ent → St → Option St
  | [], st => some st
  | f :: fs, st => match rec f st with
    | none => none
    | some st => addSupers rec e fs { st with out := st.out ++ [.isA e f] }

/-- `_add_entity`, ontology2dot.py 81-100 (fuel: the depth of the recursion). -/
def addEntity (O : Ontology) (P : Par) : Nat → Ent → St → Option St
  | 0, _, _ => none
  | fuel + 1, e, st =>
    if e ∈ st.visited then some st
    else
      match addInverse O (addEntity O P fuel) e (addNode O P e { st with visited := st.visited ++ [e] }) with
      | none => none
      | some st => addSupers (addEntity O P fuel) e (O.supers e) st

/-- The loops over the namespaces and their entities, ontology2dot.py 65-66, 72-79. -/
def addAll (O : Ontology) (P : Par) (fuel : Nat) : List Ent → St → Option St
  | [], st => some st
  | e :: es, st => match addEntity O P fuel e st with
    | none => none
    | some st => addAll O P fuel es st

/-- `render` without writing the file; `_subgraphs` are added at the end: the drawing of the namespaces with the given entities, ontology2dot.py 63-71. -/
def render (O : Ontology) (P : Par) (fuel : Nat) (entities : Ns → List Ent) : Option St :=
  addAll O P fuel (P.requested.flatMap entities) {}

end Osp.Draw
