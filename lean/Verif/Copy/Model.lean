import Verif.Store.Model
/-!
# Model of copies of a CUDS object: `copy.deepcopy(obj)`, `pickle.loads(pickle.dumps(obj))`

`osp/core/cuds.py`: `__getstate__` 884-894 and `__setstate__` 896-908 (called `cs:` below), and the methods called on a copy or with a copy as argument.

A copy has no session (`_session` is `None`) and a graph of its own, built from the triples of the object and the types of its neighbours. The
objects it is added to live in a core session, as in `Verif.Store.Model`. Both ways of copying pass the state through `__getstate__` and
`__setstate__`; `copy.deepcopy` looks for a method `__deepcopy__` first, which is a read of the object without effect in a core session.
-/
namespace Osp.Copy
open Osp.Cuds Osp.Store

/-- A copy: its uid and its own graph. cuds.py:896-908 (`_session` is None). -/
structure Copy where
  u : Uid
  g : Graph
  deriving DecidableEq, Repr

/-- `get_triples(include_neighbor_types=True)`, cuds.py:123-132: first the triples of the object, then the types of everything they point to (only the
IRIs of CUDS objects have types in the graph). -/
def getTriples (g : Graph) (u : Uid) : List Triple :=
  let own := g.triples (some u) none none
  own ++ (dedup (own.map (·.o))).flatMap fun o => match o with
    | .cuds x => g.triples (some x) (some .type) none
    | _ => []

/-- `__getstate__` followed by `__setstate__`, cuds.py:884-908: the triples are put into a new graph. -/
def copy (g : Graph) (u : Uid) : Copy := ⟨u, (getTriples g u).foldl Graph.add []⟩

/-- The graph of a copy in the place of a session's graph, for the methods that only read `self._graph`; cuds.py:99-143 and 793-848 (no registry, no root:
nothing reads them). Modelling device. -/
def Copy.sess (c : Copy) : Sess := { g := c.g }

/-- Reading an attribute, `Cuds.__getattr__`, cuds.py:793-822: `if self.session` skips the notification, the value comes from the copy's graph. -/
def Copy.getAttr (O : Onto) (c : Copy) (a : Attr) : Except PyErr Val := Cuds.getAttr O c.sess c.u a

/-- Setting an attribute, `Cuds.__setattr__`, cuds.py:824-848, without a session to notify. -/
def Copy.setAttr (O : Onto) (c : Copy) (a : Attr) (v : Val) : Except PyErr Unit × Copy :=
  let r := Cuds.setAttr O c.sess c.u a v
  (r.res, { c with g := r.st.g })

/-- `copy.get`, `copy.iter`: `_get` checks its arguments, cuds.py:618-619, then `self.session._notify_read` (632) raises AttributeError, since the
session is None. -/
def Copy.get (_c : Copy) (uids : List Uid) (oc : Option Cls) : Except PyErr (List (Option Uid)) :=
  if uids ≠ [] ∧ oc.isSome then .error .typeError else .error .attributeError

/-- `copy.remove`, cuds.py:315-318: calls `_get` first. -/
def Copy.remove (c : Copy) (uids : List Uid) (oc : Option Cls) : Except PyErr Unit :=
  match c.get uids oc with
  | .error e => .error e
  | .ok _ => .ok ()

/-- `copy.add`, cuds.py:181-191: without a relationship TypeError, else `self._session.load` raises AttributeError. -/
def Copy.add (_c : Copy) (rel defaultRel : Option Rel) : Except PyErr Unit :=
  match rel.or defaultRel with
  | none => .error .typeError
  | some _ => .error .attributeError

/-- `copy.update(…)`, cuds.py:269-271: calls `get` first. -/
def Copy.update (c : Copy) (args : List Uid) : Except PyErr Unit :=
  match c.get args none with
  | .error e => .error e
  | .ok _ => .ok ()

/-- `==` between a copy and an object of a session with graph `g`, cuds.py:870-882: same class and same uid. -/
def Copy.eq (c : Copy) (g : Graph) (u : Uid) : Bool := oclass c.g c.u = oclass g u && c.u = u

/-- Does the loop over the children, cuds.py:408-422, meet an object that is not stored yet? -/
def meetsChild (E : Order) (O : Onto) (g : Graph) (u self : Uid) : Bool :=
  (keysOf E g u).any fun r => active O r && (tgtsOf E g u r).any fun x => x ≠ u && x ≠ self

/-- `self._recursive_store(copy, old)`, cuds.py:377-431: the copy itself is stored as any object; at its first child that is not stored yet,
`new_child_getter.get` (cuds.py:417) is called on the copy and raises AttributeError. `old` tells whether an old version was found. -/
def storeCopy (E : Order) (O : Onto) (c : Copy) (s : Sess) (self : Uid) (old : Bool) : Out Uid :=
  let clone := if old then some (cloneGraph s.g c.u) else none
  match createFrom E c.sess s c.u with
  | ⟨.error e, s1⟩ => ⟨.error e, s1⟩
  | ⟨.ok _, s1⟩ =>
    match fixNeighbors E O s1.reg c.u clone s1.g [] with
    | .error e => ⟨.error e, s1⟩
    | .ok (g2, m2) =>
      if meetsChild E O g2 c.u self then ⟨.error .attributeError, { s1 with g := g2 }⟩
      else ⟨.ok c.u, { s1 with g := dropMissing m2 g2 }⟩

/-- `self.add(copy, rel=rel)`, cuds.py:156-203, on an object of a session. -/
def addCopy (E : Order) (O : Onto) (s : Sess) (self : Uid) (c : Copy) (rel defaultRel : Option Rel) : Out Uid :=
  match rel.or defaultRel with
  | none => ⟨.error .typeError, s⟩
  | some r =>
    if r ∈ neighborRels s.g self ∧ c.u ∈ targets s.g self r then ⟨.error .valueError, s⟩
    else match storeCopy E O c s self (c.u ∈ s.reg) with
      | ⟨.ok n', s'⟩ => ⟨.ok n', { s' with g := addInverse O (addDirect s'.g self n' r) n' self r }⟩
      | o => o

/-- `self.update(copy)`, cuds.py:246-288, on an object of a session. -/
def updateCopy (E : Order) (O : Onto) (s : Sess) (self : Uid) (c : Copy) : Out Uid :=
  match get O s self [c.u] (some O.active) none with
  | .error e => ⟨.error e, s⟩
  | .ok (some _ :: _) => storeCopy E O c s self true
  | .ok _ => ⟨.error .valueError, s⟩

end Osp.Copy
