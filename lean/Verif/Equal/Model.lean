import Verif.Search.Props
import Verif.Text
/-!
# Model of equality and hashing
`Cuds.__eq__`/`__hash__` (cuds.py), `OntologyEntity.__eq__`/`__hash__` (ontology/entity.py), `OntologyNamespace.__eq__`/`__hash__`/`get_default_rel` (ontology/namespace.py), and
`Registry.get_subtree` (session/registry.py) with the sets of objects it really uses.
-/
namespace Osp.Equal
open Osp.Cuds

/-- The graphs that exist, by an arbitrary number (`cuds_object._graph`, cuds.py:51-53: that of a session, or the private graph of a clone or a deleted object). -/
abbrev World := Nat → Graph

/-- A Python object of class `Cuds`, cuds.py:40-82: its identity (`id(x)`), its graph and its uid. Its classes are those its graph says at the moment one asks. -/
structure Handle where
  oid : Nat
  gid : Nat
  uid : Uid
  deriving DecidableEq, Repr

/-- `x.oclass`, cuds.py:99-115. -/
def Handle.oclass (W : World) (x : Handle) : Option Cls := Cuds.oclass (W x.gid) x.uid

/-- An entity, entity.py:17-28: the IRI of its namespace, the rest of its IRI, its name, and which class (OntologyClass, OntologyRelationship, OntologyAttribute) it is of; `reg` is the
identity of its registry. -/
structure Entity where
  nsIri : Text
  suffix : Text
  name : Text
  kind : Nat
  reg : Nat
  deriving DecidableEq, Repr

/-- `entity.iri`, entity.py:61-64. -/
def Entity.iri (e : Entity) : Text := e.nsIri ++ e.suffix

/-- A namespace, namespace.py:16-30. -/
structure Ns where
  name : Text
  iri : Text
  reg : Nat
  deriving DecidableEq, Repr

/-- What one may compare with; `other` is any other Python object, with the attributes `_name` and `_iri` it may have. Modelling device. -/
inductive Any where
  | cuds (x : Handle)
  | entity (e : Entity)
  | ns (n : Ns)
  | other (name iri : Option Text)

/-- `Cuds.__eq__`, cuds.py:870-882. -/
def cudsEq (W : World) (x : Handle) : Any → Bool
  | .cuds y => decide (y.oclass W = x.oclass W) && decide (x.uid = y.uid)
  | _ => false

/-- `OntologyEntity.__eq__`, entity.py:45-54. -/
def entityEq (e : Entity) : Any → Bool
  | .entity f => decide (e.iri = f.iri)
  | _ => false

/-- `other._name`: a `Cuds` has no such attribute (cuds.py:793-822), an entity (entity.py:27) and a namespace have. -/
def Any.name : Any → Option Text
  | .cuds _ => none
  | .entity e => some e.name
  | .ns n => some n.name
  | .other n _ => n

/-- `other._iri`: of the classes here only namespaces have it. Namespace.py:27. -/
def Any.iri : Any → Option Text
  | .ns n => some n.iri
  | .other _ i => i
  | _ => none

/-- `other._namespace_registry`, for an object that has `_name` and `_iri`: that of a namespace; objects of other classes are taken not to have it. Namespace.py:26. -/
def Any.reg : Any → Option Nat
  | .ns n => some n.reg
  | _ => none

/-- `OntologyNamespace.__eq__`, namespace.py:48-58. -/
def nsEq (n : Ns) (o : Any) : Except PyErr Bool :=
  match o.name with
  | none => .error .attributeError
  | some m => if n.name = m then match o.iri with
      | none => .error .attributeError
      | some i => if n.iri = i then match o.reg with
          | none => .error .attributeError
          | some r => .ok (decide (n.reg = r))
        else .ok false
    else .ok false

/-- `str(namespace)`, namespace.py:32-38. -/
def Ns.str (n : Ns) : Text := n.name ++ " (".toList ++ n.iri ++ ")".toList

/-- `==` of Python on these objects: the method of the left one, none of which returns NotImplemented. Cuds.py:870-882, entity.py:45-54, namespace.py:48-58; for another object on the left
nothing in /repo decides, it is taken to be unequal. -/
def pyEq (W : World) : Any → Any → Except PyErr Bool
  | .cuds x, o => .ok (cudsEq W x o)
  | .entity e, o => .ok (entityEq e o)
  | .ns n, o => nsEq n o
  | .other _ _, _ => .ok false

/-- The hash function of Python on uids and on strings, arbitrary (nothing in /repo). -/
structure Hashes where
  uid : Uid → Nat
  text : Text → Nat
  other : Nat

/-- `hash(x)`: cuds.py:860-868, entity.py:263-265, namespace.py:60-62. -/
def pyHash (h : Hashes) : Any → Nat
  | .cuds x => h.uid x.uid
  | .entity e => h.text e.iri
  | .ns n => h.text n.str
  | .other _ _ => h.other

/-- `x in S` for a Python set of objects: an element with the same hash that is the same object or equal (Python itself; the sets of registry.py:76-85, 119-121). -/
def inSet (W : World) (h : Hashes) (S : List Handle) (x : Handle) : Bool :=
  S.any (fun y => decide (pyHash h (.cuds y) = pyHash h (.cuds x)) && (decide (y.oid = x.oid) || cudsEq W y (.cuds x)))

/-- `S.add(x)`. Python itself; as in registry.py:80-84. -/
def insert (W : World) (h : Hashes) (S : List Handle) (x : Handle) : List Handle := if inSet W h S x then S else S ++ [x]

/-- `S | T`. Python itself; as in registry.py:81-84. -/
def union (W : World) (h : Hashes) (S T : List Handle) : List Handle := T.foldl (insert W h) S

/-- The loop over the children in `get_subtree`, registry.py:80-84, with the sets of objects the code uses. -/
def subtreeLoopH (W : World) (h : Hashes) (rec : Handle → List Handle → Option (List Handle)) (skip : List Handle) : List Handle → List Handle → Option (List Handle)
  | [], subtree => some subtree
  | c :: cs, subtree =>
    if inSet W h (union W h skip subtree) c then subtreeLoopH W h rec skip cs subtree
    else match rec c (union W h skip subtree) with
      | none => none
      | some t => subtreeLoopH W h rec skip cs (union W h subtree t)

/-- `Registry.get_subtree`, registry.py:59-85; `kids x` are the objects `root.iter(rel=rel)` yields. -/
def getSubtreeH (W : World) (h : Hashes) (kids : Handle → List Handle) : Nat → Handle → List Handle → Option (List Handle)
  | 0, _, _ => none
  | fuel + 1, root, skip => subtreeLoopH W h (getSubtreeH W h kids fuel) skip (kids root) [root]

/-- The loop of `get_default_rel`, namespace.py:76-80; `r` is `self._default_rel` so far. The result is paired with the cache afterwards. -/
def defaultLoop {E : Type} (fromIri : Text → Except PyErr E) : List Text → Option E → Except PyErr (Option E) × Option (Option E)
  | [], r => (.ok r, some r)
  | o :: os, r => match fromIri o with
    | .error e => (.error e, some r)
    | .ok x => defaultLoop fromIri os (some x)

/-- `get_default_rel`, namespace.py:73-81: `cache = none` is the initial `-1`; `os` are the objects of the triples with the default relationship, in the order the graph yields them. -/
def getDefaultRel {E : Type} (fromIri : Text → Except PyErr E) (os : List Text) (cache : Option (Option E)) : Except PyErr (Option E) × Option (Option E) :=
  match cache with
  | some r => (.ok r, some r)
  | none => defaultLoop fromIri os none

end Osp.Equal
