import Verif.Common
/-!
# Model of the CUDS API on one session
`osp/core/cuds.py`, `osp/core/neighbor_dict.py`, `osp/core/session/session.py`, `osp/core/session/core_session.py`.

* A session's data is its RDF graph (a set of triples; here a list without duplicates), its registry (the uids of the
  registered objects) and its root.
* A CUDS object handle is its uid. All handles passed to the API are handles of objects stored in the session, so
  `cuds_object._graph is session.graph` (session.py:48). Handles of deleted objects (which own a private graph,
  session.py:105) are outside this model.
* `_notify_read`/`_notify_update`/`_notify_delete` are no-ops here (core_session.py:13-22). Sessions with buffers are
  modelled in `Verif.Session`.
* The ontology is a parameter `Onto`; `relationship.inverse` is a function (its lazy creation is modelled in `Verif.Ontology`).
-/
namespace Osp.Cuds

/-- Uids (`uuid.UUID`, cuds.py 85-87) as numbers. Modelling simplification. -/
abbrev Uid := Nat
/-- Relationships (ontology/relationship.py 13-30) as numbers. Modelling simplification. -/
abbrev Rel := Nat
/-- Ontology classes (ontology/oclass.py 14-29) as numbers. Modelling simplification. -/
abbrev Cls := Nat
/-- Attributes (ontology/attribute.py) as numbers. Modelling simplification. -/
abbrev Attr := Nat
/-- Attribute values after conversion (cuds.py 824-848) as numbers. Modelling simplification. -/
abbrev Val := Nat

/-- Predicates of triples: object properties, data properties, `rdf:type`. Predicates used in cuds.py 40-82, 566-589. -/
inductive Pred where
  | rel (r : Rel) | attr (a : Attr) | type
  deriving DecidableEq, Repr

/-- Objects of triples: IRIs of CUDS objects, literals, IRIs of classes. As used in cuds.py 40-82, 566-589. -/
inductive Obj where
  | cuds (u : Uid) | val (v : Val) | cls (c : Cls)
  deriving DecidableEq, Repr

/-- An RDF triple whose subject is the IRI of a CUDS object. cuds.py 125-133. -/
structure Triple where
  s : Uid
  p : Pred
  o : Obj
  deriving DecidableEq, Repr

/-- The graph of a session, session.py 15-19. A set, kept as a list without duplicates. -/
abbrev Graph := List Triple

/-- `rdflib.Graph.add`: graphs are sets. rdflib, as used by the cited callers; models nothing in /repo itself. -/
def Graph.add (g : Graph) (t : Triple) : Graph := if t ∈ g then g else g ++ [t]

/-- Pattern matching of `rdflib.Graph.triples` / `remove`; `none` is a wildcard. rdflib, as used by the cited callers; models nothing in /repo itself. -/
def Triple.matchesPat (t : Triple) (s : Option Uid) (p : Option Pred) (o : Option Obj) : Bool :=
  (s.all (· = t.s)) && (p.all (· = t.p)) && (o.all (· = t.o))

/-- `rdflib.Graph.remove(pattern)`. rdflib, as used by the cited callers; models nothing in /repo itself. -/
def Graph.remove (g : Graph) (s : Option Uid) (p : Option Pred) (o : Option Obj) : Graph :=
  g.filter (fun t => !t.matchesPat s p o)

/-- `rdflib.Graph.triples(pattern)`. rdflib, as used by the cited callers; models nothing in /repo itself. -/
def Graph.triples (g : Graph) (s : Option Uid) (p : Option Pred) (o : Option Obj) : List Triple :=
  g.filter (fun t => t.matchesPat s p o)

/-- `rdflib.Graph.set((s, p, o))`: remove `(s, p, *)`, then add. rdflib, as used by the cited callers; models nothing in /repo itself. -/
def Graph.set (g : Graph) (t : Triple) : Graph := (g.remove (some t.s) (some t.p) none).add t

/-- The parts of the ontology the CUDS API consults. The methods called at cuds.py 100-157, 591-735 and neighbor_dict.py; a parameter, arbitrary up to `Onto.WF`. Modelling simplification. -/
structure Onto where
  /-- `relationship.inverse` -/
  inv : Rel → Rel
  /-- `rel.subclasses` as a membership test: `subRel r r'` iff `r in r'.subclasses` -/
  subRel : Rel → Rel → Bool
  /-- `t.is_subclass_of(oclass)` -/
  subCls : Cls → Cls → Bool
  /-- the attributes of a class (argnames) -/
  attrs : Cls → List Attr
  /-- `attr.convert_to_datatype`, `none` when the conversion raises ValueError -/
  conv : Attr → Val → Option Val
  /-- `cuba.activeRelationship` -/
  active : Rel
  /-- `cuba.relationship` -/
  relationship : Rel

/-- A session: session.py:15-19. -/
structure Sess where
  g : Graph := []
  reg : List Uid := []
  root : Option Uid := none
  deriving DecidableEq, Repr

/-- Result of a method call: an exception leaves the state as it is at that point (no rollback). Modelling device. -/
structure Out (α : Type) where
  res : Except PyErr α
  st : Sess

/-! ### Reading -/

/-- `Cuds.oclasses`, cuds.py:99-107 (classes unknown to the namespace registry are not modelled). -/
def oclasses (g : Graph) (u : Uid) : List Cls :=
  (g.triples (some u) (some .type) none).filterMap fun t => match t.o with
    | .cls c => some c
    | _ => none

/-- `Cuds.oclass`, cuds.py:109-115. -/
def oclass (g : Graph) (u : Uid) : Option Cls := (oclasses g u).head?

/-- Remove duplicates keeping first occurrences (building a Python set / dict). Python itself; models nothing in /repo. -/
def dedup {α : Type} [DecidableEq α] : List α → List α
  | [] => []
  | x :: xs => x :: (dedup xs).filter (· ≠ x)

/-- `self._neighbors.keys()`: `NeighborDictRel._iter`, neighbor_dict.py:145-154. -/
def neighborRels (g : Graph) (u : Uid) : List Rel :=
  dedup ((g.triples (some u) none none).filterMap fun t => match t.p with
    | .rel r => some r
    | _ => none)

/-- `self._neighbors[rel]` iterated: `NeighborDictTarget._iter`, neighbor_dict.py:206-214. Objects of object-property triples are always CUDS
IRIs here (`uid_from_iri` raises on others). -/
def targets (g : Graph) (u : Uid) (r : Rel) : List Uid :=
  (g.triples (some u) (some (.rel r)) none).filterMap fun t => match t.o with
    | .cuds x => some x
    | _ => none

/-! ### Writing neighbours -/

/-- `NeighborDictTarget._setitem`, neighbor_dict.py:185-194. -/
def setTarget (g : Graph) (u : Uid) (r : Rel) (x : Uid) (ocs : List Cls) : Graph :=
  ocs.foldl (fun g c => g.add ⟨x, .type, .cls c⟩) (g.add ⟨u, .rel r, .cuds x⟩)

/-- `NeighborDictTarget._delitem`, neighbor_dict.py:180-183. -/
def delTarget (g : Graph) (u : Uid) (r : Rel) (x : Uid) : Graph :=
  g.remove (some u) (some (.rel r)) (some (.cuds x))

/-- `Cuds._add_direct`, cuds.py:566-579. `self._neighbors[rel] = {uid: oclasses}` goes through `NeighborDictTarget._init`
(neighbor_dict.py:175-178), which removes `(self, rel, *)` first. -/
def addDirect (g : Graph) (u : Uid) (x : Uid) (r : Rel) : Graph :=
  let ocs := oclasses g x
  if r ∉ neighborRels g u then
    setTarget (g.remove (some u) (some (.rel r)) none) u r x ocs
  else if x ∉ targets g u r then setTarget g u r x ocs
  else g

/-- `Cuds._add_inverse`, cuds.py:581-589. -/
def addInverse (O : Onto) (g : Graph) (u : Uid) (x : Uid) (r : Rel) : Graph := addDirect g u x (O.inv r)

/-- `Cuds._remove_direct`, cuds.py:761-770. The second `del` is never executed: `NeighborDictTarget` defines neither `__bool__` nor `__len__`,
so `not self._neighbors[relationship]` is always false (and it would remove nothing). -/
def removeDirect (g : Graph) (u : Uid) (r : Rel) (x : Uid) : Graph := delTarget g u r x

/-- `Cuds._remove_inverse`, cuds.py:772-780. -/
def removeInverse (O : Onto) (g : Graph) (u : Uid) (r : Rel) (x : Uid) : Graph := removeDirect g u (O.inv r) x

/-! ### The public API -/

/-- The loop of `Cuds.add`, cuds.py:192-202, for arguments of the same session. -/
def addLoop (O : Onto) (self : Uid) (r : Rel) : List Uid → Graph → Except PyErr Unit × Graph
  | [], g => (.ok (), g)
  | x :: xs, g =>
    if r ∈ neighborRels g self ∧ x ∈ targets g self r then (.error .valueError, g)
    else addLoop O self r xs (addInverse O (addDirect g self x r) x self r)

/-- `Cuds.add`, cuds.py:158-203, for objects of the same session. `rel = none` with `defaultRel = none` raises TypeError. -/
def add (O : Onto) (s : Sess) (self : Uid) (args : List Uid) (rel defaultRel : Option Rel) : Out Unit :=
  match rel.or defaultRel with
  | none => ⟨.error .typeError, s⟩
  | some r =>
    let (res, g) := addLoop O self r args s.g
    ⟨res, { s with g := g }⟩

/-- A mapping from uids to sets of relationships. Result of `_get(..., return_mapping=True)`, cuds.py 591-735. -/
abbrev Mapping := List (Uid × List Rel)

/-- `mapping[uid].add(rel)`, creating the set if needed (cuds.py:687-689 and :729-731). -/
def Mapping.insert (m : Mapping) (u : Uid) (r : Rel) : Mapping :=
  match m with
  | [] => [(u, [r])]
  | (u', rs) :: m' => if u' = u then (u', if r ∈ rs then rs else rs ++ [r]) :: m' else (u', rs) :: Mapping.insert m' u r

/-- Inner loop of `_get_by_uids`, cuds.py:684-689: returns the found indexes and the extended mapping. -/
def byUidsInner (g : Graph) (self : Uid) (r : Rel) : List (Nat × Uid) → List Nat → Mapping → List Nat × Mapping
  | [], found, m => (found, m)
  | (i, u) :: it, found, m =>
    if u ∈ targets g self r then byUidsInner g self r it (found ++ [i]) (m.insert u r)
    else byUidsInner g self r it found m

/-- Outer loop of `_get_by_uids`, cuds.py:674-692. `notFound` is the dict index → uid. -/
def byUidsLoop (g : Graph) (self : Uid) (uids : List (Nat × Uid)) : List Rel → List (Nat × Uid) → Mapping → List (Nat × Uid) × Mapping
  | [], nf, m => (nf, m)
  | r :: rs, nf, m =>
    let it := if m = [] then nf else uids
    let (found, m') := byUidsInner g self r it [] m
    byUidsLoop g self uids rs (nf.filter fun e => e.1 ∉ found) m'

/-- `enumerate`. Python itself; models nothing in /repo. -/
def enumFrom {α : Type} : Nat → List α → List (Nat × α)
  | _, [] => []
  | n, x :: xs => (n, x) :: enumFrom (n + 1) xs

/-- `_get_by_uids`, cuds.py:652-698 (with the mapping). -/
def getByUids (g : Graph) (self : Uid) (uids : List Uid) (rels : List Rel) : List (Option Uid) × Mapping :=
  let e := enumFrom 0 uids
  let (nf, m) := byUidsLoop g self e rels e []
  (e.map fun (i, u) => if i ∈ nf.map (·.1) then none else some u, m)

/-- The test `oclass is None or any(t.is_subclass_of(oclass) for t in target_classes)`, cuds.py:727-728. -/
def clsTest (O : Onto) (g : Graph) (oc : Option Cls) (u : Uid) : Bool :=
  match oc with
  | none => true
  | some c => (oclasses g u).any (fun t => O.subCls t c)

/-- Inner loop of `_get_by_oclass`, cuds.py:726-731. -/
def byOclassInner (O : Onto) (g : Graph) (oc : Option Cls) (r : Rel) : List Uid → Mapping → Mapping
  | [], m => m
  | u :: us, m => byOclassInner O g oc r us (if clsTest O g oc u then m.insert u r else m)

/-- `_get_by_oclass`, cuds.py:700-734 (with the mapping). -/
def getByOclass (O : Onto) (g : Graph) (self : Uid) (oc : Option Cls) (rels : List Rel) : List Uid × Mapping :=
  let m := rels.foldl (fun m r => byOclassInner O g oc r (targets g self r) m) []
  (m.map (·.1), m)

/-- The relationships `_get` considers, cuds.py:633-637. -/
def considerRels (O : Onto) (g : Graph) (self : Uid) (rel : Option Rel) : List Rel :=
  match rel with
  | none => neighborRels g self
  | some r => (neighborRels g self).filter (fun r' => O.subRel r' r)

/-- `_get`, cuds.py:591-650, with the mapping (the result without it is the first component). Type checks of arguments are by typing. -/
def getRaw (O : Onto) (g : Graph) (self : Uid) (uids : List Uid) (rel : Option Rel) (oc : Option Cls) :
    Except PyErr (List (Option Uid) × Mapping) :=
  if uids ≠ [] ∧ oc.isSome then .error .typeError
  else
    let consider := considerRels O g self rel
    if consider = [] then .ok (uids.map fun _ => none, [])
    else if uids ≠ [] then .ok (getByUids g self uids consider)
    else
      let (us, m) := getByOclass O g self oc consider
      .ok (us.map some, m)

/-- `Session.load`, session.py:52-66: registered objects, `None` for others. -/
def load (s : Sess) (uids : List Uid) : List (Option Uid) := uids.map fun u => if u ∈ s.reg then some u else none

/-- `_load_cuds_objects`, cuds.py:736-759: the non-None uids are loaded in order and put back to their positions. -/
def loadCudsObjects (s : Sess) (uids : List (Option Uid)) : List (Option Uid) :=
  let rec go : List (Option Uid) → List (Option Uid) → List (Option Uid)
    | [], _ => []
    | none :: us, ls => none :: go us ls
    | some _ :: us, l :: ls => l :: go us ls
    | some _ :: _, [] => []
  go uids (load s (uids.filterMap id))

/-- `Cuds.get` / `iter` without `return_rel`, cuds.py:205-244 and :332-375, as the list `get` builds. (For exactly one uid `get` returns the only
element of this list instead of the list.) -/
def get (O : Onto) (s : Sess) (self : Uid) (uids : List Uid) (rel : Option Rel) (oc : Option Cls) :
    Except PyErr (List (Option Uid)) := do
  let (us, _) ← getRaw O s.g self uids rel oc
  .ok (loadCudsObjects s us)

/-- `yield from ((r, m) for m in mapping[r.uid])`, cuds.py:375; `None.uid` raises AttributeError. -/
def relPairs (m : Mapping) : Option Uid → Except PyErr (List (Uid × Rel))
  | none => .error .attributeError
  | some x => match m.find? (fun e => e.1 = x) with
    | none => .error .keyError
    | some (_, rs) => .ok (rs.map fun r => (x, r))

/-- `Cuds.get` / `iter` with `return_rel=True`, cuds.py:364-375: the pairs (object, relationship). -/
def getWithRel (O : Onto) (s : Sess) (self : Uid) (uids : List Uid) (rel : Option Rel) (oc : Option Cls) :
    Except PyErr (List (Uid × Rel)) := do
  let (us, m) ← getRaw O s.g self uids rel oc
  let rec cat : List (Except PyErr (List (Uid × Rel))) → Except PyErr (List (Uid × Rel))
    | [] => .ok []
    | .error e :: _ => .error e
    | .ok l :: ls => match cat ls with
      | .ok l' => .ok (l ++ l')
      | .error e => .error e
  cat ((loadCudsObjects s us).map (relPairs m))

/-- Loop over one neighbor's relationships in `remove`, cuds.py:328-330. A neighbor that is not registered is loaded as `None`, on which
`_remove_inverse` raises AttributeError after the direct link was removed. -/
def removeRels (O : Onto) (reg : List Uid) (self x : Uid) : List Rel → Graph → Except PyErr Unit × Graph
  | [], g => (.ok (), g)
  | r :: rs, g =>
    let g := removeDirect g self r x
    if x ∈ reg then removeRels O reg self x rs (removeInverse O g x r self)
    else (.error .attributeError, g)

/-- Loop over the neighbors in `remove`, cuds.py:326-330. -/
def removeLoop (O : Onto) (reg : List Uid) (self : Uid) : Mapping → Graph → Except PyErr Unit × Graph
  | [], g => (.ok (), g)
  | (x, rs) :: m, g =>
    match removeRels O reg self x rs g with
    | (.ok _, g) => removeLoop O reg self m g
    | (.error e, g) => (.error e, g)

/-- `Cuds.remove`, cuds.py:290-330. -/
def remove (O : Onto) (s : Sess) (self : Uid) (uids : List Uid) (rel : Option Rel) (oc : Option Cls) : Out Unit :=
  match getRaw O s.g self uids rel oc with
  | .error e => ⟨.error e, s⟩
  | .ok (_, m) =>
    if m = [] then ⟨.error .runtimeError, s⟩
    else
      let (res, g) := removeLoop O s.reg self m s.g
      ⟨res, { s with g := g }⟩

/-- `Cuds.__init__` + `Session._store`, cuds.py:40-82 and session.py:36-50. The object's private graph (attributes and type triple) is added to the
session graph. `vals` are the attribute values after conversion, as `OntologyClass._get_attributes_values` returns them. -/
def create (s : Sess) (u : Uid) (c : Cls) (vals : List (Attr × Val)) : Out Unit :=
  if u = 0 then ⟨.error .valueError, s⟩
  else
    let own := vals.map (fun av => (⟨u, .attr av.1, .val av.2⟩ : Triple)) ++ [⟨u, .type, .cls c⟩]
    ⟨.ok (), { g := own.foldl Graph.add s.g,
               reg := if u ∈ s.reg then s.reg else s.reg ++ [u],
               root := s.root.or (some u) }⟩

/-- `Cuds.__setattr__`, cuds.py:824-848 (names not starting with `_`). -/
def setAttr (O : Onto) (s : Sess) (u : Uid) (a : Attr) (v : Val) : Out Unit :=
  match oclass s.g u with
  | none => ⟨.error .attributeError, s⟩
  | some c =>
    if a ∉ O.attrs c then ⟨.error .attributeError, s⟩
    else match O.conv a v with
      | none => ⟨.error .valueError, s⟩
      | some v' => ⟨.ok (), { s with g := s.g.set ⟨u, .attr a, .val v'⟩ }⟩

/-- `Cuds.__getattr__`, cuds.py:793-822 (for objects that are not wrappers): `graph.value` returns some value of the attribute, here the
first. -/
def getAttr (O : Onto) (s : Sess) (u : Uid) (a : Attr) : Except PyErr Val :=
  match oclass s.g u with
  | none => .error .attributeError
  | some c =>
    if a ∉ O.attrs c then .error .attributeError
    else match (s.g.triples (some u) (some (.attr a)) none).head? with
      | some ⟨_, _, .val v⟩ => .ok v
      | _ => .error .attributeError

/-- `Session._delete_cuds_triples`, session.py:96-107. -/
def deleteTriples (s : Sess) (u : Uid) : Sess :=
  { s with g := s.g.remove (some u) none none, reg := s.reg.filter (· ≠ u) }

/-- `Session.delete_cuds_object`, session.py:81-94. -/
def delete (O : Onto) (s : Sess) (u : Uid) : Out Unit :=
  match get O s u [] (some O.relationship) none with
  | .error e => ⟨.error e, s⟩
  | .ok us =>
    if us ≠ [] then
      match remove O s u [] (some O.relationship) none with
      | ⟨.error e, s'⟩ => ⟨.error e, s'⟩
      | ⟨.ok _, s'⟩ => ⟨.ok (), deleteTriples s' u⟩
    else ⟨.ok (), deleteTriples s u⟩

/-! ### Histories -/

/-- The operations of the CUDS API on one session. The methods at cuds.py 40, 158, 290, 824 and session.py 81. Modelling device: histories of calls, nothing in /repo. -/
inductive Op where
  | create (u : Uid) (c : Cls) (vals : List (Attr × Val))
  | add (self : Uid) (args : List Uid) (rel defaultRel : Option Rel)
  | remove (self : Uid) (uids : List Uid) (rel : Option Rel) (oc : Option Cls)
  | setAttr (u : Uid) (a : Attr) (v : Val)
  | delete (u : Uid)

/-- One API call. Modelling device: histories of calls, nothing in /repo. -/
def step (O : Onto) (s : Sess) : Op → Out Unit
  | .create u c vals => create s u c vals
  | .add self args rel d => add O s self args rel d
  | .remove self uids rel oc => remove O s self uids rel oc
  | .setAttr u a v => setAttr O s u a v
  | .delete u => delete O s u

/-- The calls inside the model's scope: the handles passed in belong to objects of the session, objects are created with a fresh uid (as
`uuid.uuid4()` provides; the other case is `create_existing_uid_corrupts`), attribute values are given once per attribute and belong
to the class. Scope of the model. Specification; nothing in /repo. -/
def Op.Ok (O : Onto) (s : Sess) : Op → Prop
  | .create u c vals => u ∉ s.reg ∧ (vals.map (·.1)).Nodup ∧ ∀ av ∈ vals, av.1 ∈ O.attrs c
  | .add self args _ _ => self ∈ s.reg ∧ ∀ x ∈ args, x ∈ s.reg
  | .remove self _ _ _ => self ∈ s.reg
  | .setAttr u _ _ => u ∈ s.reg
  | .delete u => u ∈ s.reg

/-- A history of calls: the results and the final state. Modelling device: histories of calls, nothing in /repo. -/
def run (O : Onto) : Sess → List Op → List (Except PyErr Unit) × Sess
  | s, [] => ([], s)
  | s, op :: ops => let o := step O s op; let (rs, s') := run O o.st ops; (o.res :: rs, s')

/-- All calls of a history are in scope when they are made. Modelling device: histories of calls, nothing in /repo. -/
def AllOk (O : Onto) : Sess → List Op → Prop
  | _, [] => True
  | s, op :: ops => op.Ok O s ∧ AllOk O (step O s op).st ops

/-- States reachable from the empty session by any sequence of calls, including failing ones. Modelling device: histories of calls, nothing in /repo. -/
inductive Reachable (O : Onto) : Sess → Prop
  | init : Reachable O {}
  | step {s : Sess} (h : Reachable O s) (op : Op) (hop : op.Ok O s) : Reachable O (step O s op).st

end Osp.Cuds
