import Verif.Search.Model
/-!
# Model of `serialize` and `deserialize` for CUDS objects

osp/core/utils/general.py 178-246, osp/core/session/transport/transport_utils.py 185-223, 284-342, osp/core/utils/wrapper_development.py 188-232,
for core sessions. A document is the JSON-LD text of the triples of one object. JSON and JSON-LD are rdflib's and Python's: a document is
represented by the triples in the order in which rdflib enumerates them when the document is read. That order is arbitrary (`enum`). Literals
survive writing and reading (vectors: C52).
-/
namespace Osp.Export
open Osp.Cuds Osp.Search

/-- A JSON-LD document of one object, transport_utils.py 284-300: its triples in some order. Modelling simplification, see above. -/
abbrev Doc := List Triple

/-- `g.add(...)` for several triples, wrapper_development.py 225-227 and transport_utils.py 295-299. -/
def addAll (g : Graph) (ts : List Triple) : Graph := ts.foldl Graph.add g

/-- The objects of triples that can be subjects in a session graph (`o_set` of `get_triples`, cuds.py 127-130; other objects are no subjects). -/
def targetOf (t : Triple) : Option Uid := match t.o with
  | .cuds x => some x
  | _ => none

/-- `Cuds.get_triples(include_neighbor_types=True)`, cuds.py 125-133. -/
def tripleList (g : Graph) (u : Uid) : List Triple :=
  g.triples (some u) none none ++
    (dedup ((g.triples (some u) none none).filterMap targetOf)).flatMap (fun x => g.triples (some x) (some .type) none)

/-- `_serializable`, transport_utils.py 284-300. `enum` is the order in which the document is read later. -/
def document (enum : Graph → Doc) (g : Graph) (u : Uid) : Doc := enum (addAll [] (tripleList g u))

/-- `general.serialize`, general.py 178-205, `json_dumps` aside: `find_cuds_object` without a criterion, then `serializable` of the list
(transport_utils.py 226-259). `none`: out of fuel. -/
def serialize (O : Onto) (enum : Graph → Doc) (s : Sess) (fuel : Nat) (rel : Option Rel) (depth : Option Nat) (root : Uid) : Option (List Doc) :=
  (findAll (children O s rel) (fun _ => true) fuel depth root []).map fun (found, _) => found.map (document enum s.g)

/-- `next(s for s, p, _ in g if p != rdflib.RDF.type)`, otherwise `next(s for s, p, _ in g)`, transport_utils.py 319-322. -/
def thisSubject (d : Doc) : Option Uid := ((d.find? (fun t => t.p ≠ .type)).or d.head?).map (·.s)

/-- The loop over the relationships with `fix_neighbors=True`, wrapper_development.py 215-218. -/
def unlink (O : Onto) (u : Uid) : List Rel → Sess → Out Unit
  | [], s => ⟨.ok (), s⟩
  | r :: rs, s => match remove O s u [] (some r) none with
    | ⟨.ok _, s'⟩ => unlink O u rs s'
    | ⟨.error e, s'⟩ => ⟨.error e, s'⟩

/-- `create_from_triples`, wrapper_development.py 188-232, in a core session (which does nothing on `_notify_read` and `_notify_update`).
The object is created by `Cuds(attributes={}, oclass=None, ...)` (cuds.py 40-82, session.py 36-50). `rels`: the relationships in the order
in which the set is enumerated. -/
def createFromTriples (O : Onto) (s : Sess) (own nb : List Triple) (fix : Bool) (rels : List Rel) : Out (Option Uid) :=
  match own with
  | [] => ⟨.ok none, s⟩
  | t :: _ =>
    if t.s ∈ s.reg then
      match (if fix then unlink O t.s rels s else ⟨.ok (), s⟩ : Out Unit) with
      | ⟨.error e, s'⟩ => ⟨.error e, s'⟩
      | ⟨.ok _, s'⟩ => ⟨.ok (some t.s), { s' with g := addAll (s'.g.remove (some t.s) none none) (own ++ nb) }⟩
    else if t.s = 0 then ⟨.error .valueError, s⟩
    else ⟨.ok (some t.s), { g := addAll s.g (own ++ nb), reg := s.reg ++ [t.s], root := s.root.or (some t.s) }⟩

/-- `_to_cuds_object`, transport_utils.py 303-342. The empty document does not get here: `deserialize` returns the empty list for it
(transport_utils.py 205-212), modelled as no object. -/
def toCudsObject (O : Onto) (s : Sess) (d : Doc) : Out (Option Uid) :=
  match thisSubject d with
  | none => ⟨.ok none, s⟩
  | some u => createFromTriples O s (d.filter (fun t => t.s = u)) (d.filter (fun t => t.s ≠ u)) false []

/-- The list comprehension of `deserialize`, transport_utils.py 211-212: it stops at the first exception, and what was imported stays. -/
def importDocs (O : Onto) : List Doc → Sess → Out (List (Option Uid))
  | [], s => ⟨.ok [], s⟩
  | d :: ds, s => match toCudsObject O s d with
    | ⟨.error e, s'⟩ => ⟨.error e, s'⟩
    | ⟨.ok r, s'⟩ => match importDocs O ds s' with
      | ⟨.error e, s''⟩ => ⟨.error e, s''⟩
      | ⟨.ok rs, s''⟩ => ⟨.ok (r :: rs), s''⟩

/-- `general.deserialize`, general.py 207-246, for a list of documents and `only_return_first_element=True`: `deserialized[0]`. -/
def deserialize (O : Onto) (ds : List Doc) (s : Sess) : Out (Option Uid) :=
  match importDocs O ds s with
  | ⟨.error e, s'⟩ => ⟨.error e, s'⟩
  | ⟨.ok [], s'⟩ => ⟨.error .indexError, s'⟩
  | ⟨.ok (r :: _), s'⟩ => ⟨.ok r, s'⟩

end Osp.Export
