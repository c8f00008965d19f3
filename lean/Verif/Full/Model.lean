import Verif.Persist.First
import Verif.Names.Model
import Verif.Iri.Props
/-!
# The RDF graph of a session

`osp/core/utils/general.py` (cited as gen:), `osp/core/utils/simple_search.py` (cited as ss:), `osp/core/session/wrapper_session.py` (cited as ws:),
`osp/core/session/session.py` (cited as s:), `osp/core/cuds.py` (cited as c:), `osp/core/session/db/triplestore_wrapper_session.py` (cited as ts:).

What is modelled: the export of the graph of a session together with the ontology, with and without the triples of custom datatypes, the import of a graph, and how a session on a
SQL database loads everything below the wrapper before the export.

Simplifications. An rdflib graph is a list of triples, read as a set. The traversal follows all triples whose object is a CUDS object (every relationship is a
subrelationship of `cuba.relationship`). The order of the children is any order (`Env.order` of `Verif/Persist`). No object is expired when the export begins; an object that
was loaded in between is loaded again with the same triples, so no neighbour expires in between either (`again`). Python's recursion limit is not
modelled: the recursion has fuel, and the theorems say that some fuel is enough. Reading and writing the tables does not fail (`Verif/Tables`).
-/
namespace Osp.Full

/-- A term of an rdflib graph with its text. rdflib, as used by the cited callers; nothing in /repo. -/
inductive Term where
  | iri (t : Text)
  | bnode (t : Text)
  | lit (t : Text) (datatype : Option Text)
  deriving DecidableEq

/-- `str(x)`. rdflib; nothing in /repo. -/
def Term.str : Term → Text
  | .iri t => t
  | .bnode t => t
  | .lit t _ => t

/-- A triple of rdflib. Nothing in /repo. -/
structure Triple where
  s : Term
  p : Term
  o : Term
  deriving DecidableEq

/-- A graph of rdflib. Nothing in /repo. -/
abbrev Graph := List Triple

/-- `NAMESPACE_IRI`, cuba.py 6. -/
def cubaIri : Text := "http://www.osp-core.com/cuba#".toList

/-- `rdf:type`. rdflib; nothing in /repo. -/
def rdfType : Term := .iri "http://www.w3.org/1999/02/22-rdf-syntax-ns#type".toList

/-- `rdfs:Datatype`. rdflib; nothing in /repo. -/
def rdfsDatatype : Term := .iri "http://www.w3.org/2000/01/rdf-schema#Datatype".toList

/-- `rdfs:range`. rdflib; nothing in /repo. -/
def rdfsRange : Term := .iri "http://www.w3.org/2000/01/rdf-schema#range".toList

/-- `x in rdflib_cuba`, cuba.py 39-45: of an IRI the namespace is cut off, any other text is looked up as it is. -/
def inCuba : Term → Bool
  | .iri t => if cubaIri.isPrefixOf t then Names.inCuba (t.drop cubaIri.length) else false
  | .bnode t => Names.inCuba t
  | .lit t _ => Names.inCuba t

/-- `get_custom_datatypes`, gen:113-128, over the graph of the namespace registry. -/
def customDatatypes (onto : Graph) : List Term :=
  ((onto.filter (fun x => decide (x.p = rdfType ∧ x.o = rdfsDatatype))).filter (fun x => inCuba x.s)).map Triple.s

/-- `get_custom_datatype_triples`, gen:131-148. -/
def customTriples (onto : Graph) : Graph :=
  (customDatatypes onto).flatMap (fun d => ⟨d, rdfType, rdfsDatatype⟩ :: onto.filter (fun x => decide (x.p = rdfsRange ∧ x.o = d)))

/-- What is given as session: nothing, a session with what its `_get_full_graph` does, or something else. gen:57-86. -/
inductive Arg where
  | absent
  | session (full : Except PyErr Graph)
  | other

/-- `get_rdf_graph`, gen:57-86; `core` is the graph of the core session, whose `_get_full_graph` is its graph (core_session.py 24-26). -/
def getRdfGraph (onto core : Graph) (a : Arg) (skip : Bool) : Except PyErr Graph :=
  let full : Except PyErr Graph := match a with
    | .absent => .ok core
    | .session f => f
    | .other => .error .typeError
  match full with
  | .error e => .error e
  | .ok g =>
    let result := g ++ onto
    if skip then .ok (result.filter (fun x => decide (x ∉ customTriples onto))) else .ok result

/-- The registry of a session and its graph, s:15-19. -/
structure Ses where
  reg : List Nat
  g : Graph

/-- `_rdf_import`, s:140-151. -/
def rdfImport (graph : Graph) (s : Ses) : Ses := { s with g := graph.filter (fun x => Iri.cudsPrefix.isPrefixOf x.s.str) }

/-- `load` of one uid in a core session, s:52-66. -/
def load (u : Nat) (s : Ses) : Option Nat := if u ∈ s.reg then some u else none

/-! ### everything below the wrapper -/

open Persist (Env)
open Tables (Obj St Uid)

variable {D V : Type} [DecidableEq D] [DecidableEq V]

/-- The uids in the relationships of an object, `_get` without arguments, c:640-650 and 720-734. -/
def links (g : List (Tables.Triple D V)) (u : Uid) : List Uid :=
  (g.filter (fun x => decide (x.s = u))).filterMap (fun x => match x.o with
    | .cuds v => some v
    | _ => none)

/-- The loop over the children, ss:33-47 with the generators c:332-375, c:736-759 and ws:88-111: a child that was not registered when the loop began is
loaded from the database when its turn comes, and `None` has no uid. `down` is the recursive call. -/
def walk (E : Env D V) (down : List Uid → Uid → Persist.Ses D V → St D V → Except PyErr (List Uid × List Uid) × Persist.Ses D V × St D V) (missing : List Uid) :
    List Uid → List Uid → List Uid → Persist.Ses D V → St D V → Except PyErr (List Uid × List Uid) × Persist.Ses D V × St D V
  | [], out, vis, s, st => (.ok (out, vis), s, st)
  | u :: us, out, vis, s, st =>
    match (if u ∈ missing then Persist.loadByIri E u s st else (.ok (some u), s, st)) with
    | (.error e, s, st) => (.error e, s, st)
    | (.ok none, s, st) => (.error .attributeError, s, st)
    | (.ok (some v), s, st) =>
      if v ∈ vis then walk E down missing us out vis s st
      else match down vis v s st with
        | (.error e, s, st) => (.error e, s, st)
        | (.ok (o, vis), s, st) => walk E down missing us (out ++ o) vis s st

/-- `find_cuds_object(lambda x: True, root, cuba.relationship, True)`, ss:4-48: the found objects and the visited ones. With fuel; out of fuel is the runtime error. -/
def find (E : Env D V) : Nat → List Uid → Uid → Persist.Ses D V → St D V → Except PyErr (List Uid × List Uid) × Persist.Ses D V × St D V
  | 0, _, _, s, st => (.error .runtimeError, s, st)
  | n + 1, vis, u, s, st =>
    let us := E.order (links s.g u)
    walk E (find E n) (us.filter (fun v => decide (v ∉ s.reg))) us [u] (u :: vis) s st

/-- `_get_full_graph` of a session with a backend, ws:160-170. -/
def fullGraph (E : Env D V) (n : Nat) (s : Persist.Ses D V) (st : St D V) : Except PyErr (List (Tables.Triple D V)) × Persist.Ses D V × St D V :=
  match find E n [] s.root s st with
  | (.error e, s, st) => (.error e, s, st)
  | (.ok _, s, st) => (.ok s.g, s, st)

end Osp.Full
