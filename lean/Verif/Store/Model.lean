import Verif.Cuds.Model
/-!
# Model of copying objects between sessions
`osp/core/cuds.py` (`add` with objects of another session, `update`, `_recursive_store`, `_fix_neighbors`, `_fix_new_parents`,
`_fix_old_neighbors`) and `osp/core/utils/wrapper_development.py` (`get_neighbor_diff`, `clone_cuds_object`, `create_recycle`,
`create_from_cuds_object`, `change_oclass`).

The session graph, the registry and the primitive operations are those of `Verif.Cuds.Model`. The source session is only read. Both sessions
are core sessions: the `_notify_*` hooks do nothing.

Python sets and rdflib graphs are iterated in an order nobody controls. That order matters here (`_fix_old_neighbors` zips two iterations), so it is
an explicit parameter `Order`.
-/
namespace Osp.Store
open Osp.Cuds

/-- The order in which relationships and uids are enumerated. Modelling device. -/
structure Order where
  rels : List Rel → List Rel
  uids : List Uid → List Uid

/-- Enumeration yields every element exactly once. Modelling device. -/
structure Order.Ok (E : Order) : Prop where
  rels : ∀ l, (E.rels l).Perm l
  uids : ∀ l, (E.uids l).Perm l

/-- `relationship.is_subclass_of(cuba.activeRelationship)`. cuds.py 377-564. -/
def active (O : Onto) (r : Rel) : Bool := O.subRel r O.active

/-- Iterating over `cuds_object._neighbors`, neighbor_dict.py:145-154. -/
def keysOf (E : Order) (g : Graph) (u : Uid) : List Rel := E.rels (neighborRels g u)

/-- Iterating over `cuds_object._neighbors[rel]`, neighbor_dict.py:206-214. -/
def tgtsOf (E : Order) (g : Graph) (u : Uid) (r : Rel) : List Uid := E.uids (targets g u r)

/-- An object for the functions that only read its neighbours: the graph it lives in (the session's graph, or the private graph of a clone) and
its uid. cuds.py 434-564. Modelling device. -/
structure View where
  g : Graph
  u : Uid

/-- The uids `cuds2._neighbors[relationship].keys()`, or the empty set; wrapper_development.py:64-66. -/
def oldUids (c2 : Option View) (r : Rel) : List Uid :=
  match c2 with
  | none => []
  | some v => if r ∈ neighborRels v.g v.u then targets v.g v.u r else []

/-- `get_neighbor_diff`, wrapper_development.py:27-71. -/
def neighborDiff (E : Order) (O : Onto) (c1 c2 : Option View) (mode : String) : Except PyErr (List (Uid × Rel)) :=
  if mode ∉ ["all", "active", "non-active"] then .error .valueError
  else match c1 with
    | none => .ok []
    | some v => .ok ((keysOf E v.g v.u).flatMap fun r =>
        if (mode = "active" ∧ ¬ active O r) ∨ (mode = "non-active" ∧ active O r) then []
        else (E.uids ((targets v.g v.u r).filter (· ∉ oldUids c2 r))).map fun x => (x, r))

/-- The private graph of `clone_cuds_object(u)`, wrapper_development.py:74-85, by `__getstate__` and `get_triples(include_neighbor_types=True)`,
cuds.py:123-132 and :884-912: the triples of the object and the types of its neighbours. -/
def cloneGraph (g : Graph) (u : Uid) : Graph :=
  g.filter fun t => t.s = u || (t.p = .type && g.any fun t' => t'.s = u && t'.o = .cuds t.s)

/-- The attribute values of an object, `Cuds.get_attributes`, cuds.py:134-143. -/
def attrsOf (g : Graph) (u : Uid) : List (Attr × Val) :=
  (g.triples (some u) none none).filterMap fun t => match t.p, t.o with
    | .attr a, .val v => some (a, v)
    | _, _ => none

/-- `change_oclass` for an object without neighbours, wrapper_development.py:152-185: its triples are replaced by the new type and the attributes.
Simplified: the attribute values read from the source object are accepted and stored unchanged by the class (they were, when the source
object was created; `Verif.Onto.AttrProps` has the resolution of constructor arguments). The loop over the neighbours (166-170) does nothing,
since `create_recycle` has just removed all links of the object. -/
def changeOclass (g : Graph) (u : Uid) (c : Cls) (vals : List (Attr × Val)) : Graph :=
  vals.foldl (fun g av => g.set ⟨u, .attr av.1, .val av.2⟩) ((g.remove (some u) none none).add ⟨u, .type, .cls c⟩)

/-- `create_recycle` with `fix_neighbors=False`, wrapper_development.py:88-123. -/
def createRecycle (E : Order) (s : Sess) (u : Uid) (c : Cls) (vals : List (Attr × Val)) : Out Unit :=
  if u ∈ s.reg then
    let g := (keysOf E s.g u).foldl (fun g r => g.remove (some u) (some (.rel r)) none) s.g
    ⟨.ok (), { s with g := changeOclass g u c vals }⟩
  else create s u c vals

/-- The loop of `create_from_cuds_object` that copies the links, wrapper_development.py:145-148. -/
def copyLinks (E : Order) (src : Graph) (u : Uid) (g : Graph) : Graph :=
  (keysOf E src u).foldl (fun g r =>
    (tgtsOf E src u r).foldl (fun g x => setTarget g u r x (oclasses src x)) (g.remove (some u) (some (.rel r)) none)) g

/-- `create_from_cuds_object`, wrapper_development.py:126-149. (A source object without a class, which makes `oclass` `None`, raises.) -/
def createFrom (E : Order) (src s : Sess) (u : Uid) : Out Unit :=
  match oclass src.g u with
  | none => ⟨.error .typeError, s⟩
  | some c =>
    match createRecycle E s u c (attrsOf src.g u) with
    | ⟨.error e, s'⟩ => ⟨.error e, s'⟩
    | ⟨.ok _, s'⟩ => ⟨.ok (), { s' with g := copyLinks E src.g u s'.g }⟩

/-- The dictionary `missing` of `_recursive_store`, flattened: `(x, u, r)` when `missing[x]` contains `(u, r)`. cuds.py 377-432. -/
abbrev Missing := List (Uid × Uid × Rel)

/-- `_fix_new_parents`, cuds.py:493-527. -/
def fixNewParents (O : Onto) (reg : List Uid) (u : Uid) : List (Uid × Rel) → Graph → Missing → Graph × Missing
  | [], g, m => (g, m)
  | (x, r) :: ds, g, m =>
    if active O r then fixNewParents O reg u ds g m
    else if x ∉ reg then fixNewParents O reg u ds g (m ++ [(x, u, r)])
    else
      let g1 := if O.inv r ∉ neighborRels g x then g.remove (some x) (some (.rel (O.inv r))) none else g
      fixNewParents O reg u ds (setTarget g1 x (O.inv r) u (oclasses g1 u)) m

/-- One iteration of `_fix_old_neighbors`, cuds.py:546-564. `old` is the private graph of the clone. An unregistered neighbour is `None`, on
which `._neighbors` raises AttributeError. -/
def fixOldOne (E : Order) (O : Onto) (reg : List Uid) (u : Uid) (old : Graph) (x : Uid) (r : Rel) (g : Graph) : Except PyErr Graph :=
  if active O r then
    if x ∉ reg then .error .attributeError
    else .ok (if O.inv r ∈ neighborRels g x then removeDirect g x (O.inv r) u else g)
  else
    let g1 := if r ∉ neighborRels g u then g.remove (some u) (some (.rel r)) none else g
    if x ∉ reg then .error .attributeError
    else .ok (((tgtsOf E old u r).zip (keysOf E g1 x)).foldl (fun g p => setTarget g u r p.1 (oclasses old p.1)) g1)

/-- `_fix_old_neighbors`, cuds.py:530-564. -/
def fixOldNeighbors (E : Order) (O : Onto) (reg : List Uid) (u : Uid) (old : Graph) : List (Uid × Rel) → Graph → Except PyErr Graph
  | [], g => .ok g
  | (x, r) :: ds, g =>
    match fixOldOne E O reg u old x r g with
    | .error e => .error e
    | .ok g' => fixOldNeighbors E O reg u old ds g'

/-- `_fix_neighbors`, cuds.py:434-490; `old` is the graph of the clone, if the object existed before. -/
def fixNeighbors (E : Order) (O : Onto) (reg : List Uid) (u : Uid) (old : Option Graph) (g : Graph) (m : Missing) :
    Except PyErr (Graph × Missing) :=
  let oldV := old.map fun h => (⟨h, u⟩ : View)
  match neighborDiff E O (some ⟨g, u⟩) oldV "non-active" with
  | .error e => .error e
  | .ok newDiff =>
    match neighborDiff E O oldV (some ⟨g, u⟩) "all" with
    | .error e => .error e
    | .ok oldDiff =>
      let (g1, m1) := fixNewParents O reg u newDiff g m
      match fixOldNeighbors E O reg u (old.getD []) oldDiff g1 with
      | .error e => .error e
      | .ok g2 => .ok (g2, m1)

/-- The loop variables of `_recursive_store`: the queue of objects to copy (with the flag whether an old version was found), `uids_stored` and
`missing`. cuds.py 377-432. -/
structure Vars where
  queue : List (Uid × Bool)
  stored : List Uid
  missing : Missing

/-- One iteration of the inner loop over the children, cuds.py:415-422. -/
def enqueue (O : Onto) (src s : Sess) (u : Uid) (r : Rel) (x : Uid) (v : Vars) : Except PyErr Vars :=
  if x ∈ v.stored then .ok v
  else match get O src u [x] (some r) none with
    | .error e => .error e
    | .ok (some y :: _) => .ok { v with queue := v.queue ++ [(y, decide (x ∈ s.reg))], stored := v.stored ++ [y] }
    | .ok _ => .error .attributeError

/-- The children of one relationship, cuds.py:414-422. -/
def enqueueAll (O : Onto) (src s : Sess) (u : Uid) (r : Rel) : List Uid → Vars → Except PyErr Vars
  | [], v => .ok v
  | x :: xs, v => match enqueue O src s u r x v with
    | .error e => .error e
    | .ok v' => enqueueAll O src s u r xs v'

/-- The loop over the outgoing relationships, cuds.py:408-422. -/
def children (E : Order) (O : Onto) (src s : Sess) (u : Uid) : List Rel → Vars → Except PyErr Vars
  | [], v => .ok v
  | r :: rs, v =>
    if ¬ active O r then children E O src s u rs v
    else match enqueueAll O src s u r (tgtsOf E s.g u r) v with
      | .error e => .error e
      | .ok v' => children E O src s u rs v'

/-- One iteration of the `while` loop, cuds.py:394-422, for the popped object `u`. -/
def storeOne (E : Order) (O : Onto) (src s : Sess) (u : Uid) (old : Bool) (v : Vars) : Out Vars :=
  let m := v.missing.filter fun e => e.1 ≠ u
  let clone := if old then some (cloneGraph s.g u) else none
  match createFrom E src s u with
  | ⟨.error e, s1⟩ => ⟨.error e, s1⟩
  | ⟨.ok _, s1⟩ =>
    match fixNeighbors E O s1.reg u clone s1.g m with
    | .error e => ⟨.error e, s1⟩
    | .ok (g2, m2) =>
      let s2 := { s1 with g := g2 }
      match children E O src s2 u (keysOf E s2.g u) { v with missing := m2 } with
      | .error e => ⟨.error e, s2⟩
      | .ok v' => ⟨.ok v', s2⟩

/-- The `while` loop of `_recursive_store`, cuds.py:391-422. `none` when the fuel does not suffice. -/
def storeLoop (E : Order) (O : Onto) (src : Sess) : Nat → Sess → Vars → Option (Out Missing)
  | 0, _, _ => none
  | fuel + 1, s, v =>
    match v.queue with
    | [] => some ⟨.ok v.missing, s⟩
    | (u, old) :: q =>
      match storeOne E O src s u old { v with queue := q } with
      | ⟨.error e, s'⟩ => some ⟨.error e, s'⟩
      | ⟨.ok v', s'⟩ => storeLoop E O src fuel s' v'

/-- The deletion of the links to missing objects, cuds.py:425-429. (`not cuds_object._neighbors[rel]` is never true, see
`Cuds.removeDirect`.) -/
def dropMissing (m : Missing) (g : Graph) : Graph := m.foldl (fun g e => delTarget g e.2.1 e.2.2 e.1) g

/-- `_recursive_store`, cuds.py:377-431, called on `self`; `old` tells whether an old version was found. The result is a handle of the copy of
`n`. `none`: the loop does not end within the given number of iterations. -/
def recursiveStore (E : Order) (O : Onto) (fuel : Nat) (src s : Sess) (self n : Uid) (old : Bool) : Option (Out Uid) :=
  match storeLoop E O src fuel s ⟨[(n, old)], [n, self], []⟩ with
  | none => none
  | some ⟨.error e, s'⟩ => some ⟨.error e, s'⟩
  | some ⟨.ok m, s'⟩ => some ⟨.ok n, { s' with g := dropMissing m s'.g }⟩

/-- One argument of `Cuds.add`, cuds.py:192-202, when it belongs to another session. -/
def addOne (E : Order) (O : Onto) (fuel : Nat) (src s : Sess) (self n : Uid) (r : Rel) : Option (Out Uid) :=
  if r ∈ neighborRels s.g self ∧ n ∈ targets s.g self r then some ⟨.error .valueError, s⟩
  else match recursiveStore E O fuel src s self n (n ∈ s.reg) with
    | some ⟨.ok n', s'⟩ => some ⟨.ok n', { s' with g := addInverse O (addDirect s'.g self n' r) n' self r }⟩
    | r => r

/-- The loop of `Cuds.add`, cuds.py:192-203, over arguments of other sessions, each given with its session. (Old versions are looked up by a
generator, that is when the argument's turn comes.) -/
def addLoop (E : Order) (O : Onto) (fuel : Nat) (self : Uid) (r : Rel) : List (Sess × Uid) → Sess → Option (Out (List Uid))
  | [], s => some ⟨.ok [], s⟩
  | (src, n) :: args, s =>
    match addOne E O fuel src s self n r with
    | none => none
    | some ⟨.error e, s'⟩ => some ⟨.error e, s'⟩
    | some ⟨.ok n', s'⟩ =>
      match addLoop E O fuel self r args s' with
      | some ⟨.ok l, s''⟩ => some ⟨.ok (n' :: l), s''⟩
      | some ⟨.error e, s''⟩ => some ⟨.error e, s''⟩
      | none => none

/-- `Cuds.add`, cuds.py:156-203, with objects of other sessions. -/
def addFrom (E : Order) (O : Onto) (fuel : Nat) (s : Sess) (self : Uid) (args : List (Sess × Uid)) (rel defaultRel : Option Rel) :
    Option (Out (List Uid)) :=
  match rel.or defaultRel with
  | none => some ⟨.error .typeError, s⟩
  | some r => addLoop E O fuel self r args s

/-- `Cuds.update`, cuds.py:246-288, with one object of another session. -/
def update (E : Order) (O : Onto) (fuel : Nat) (src s : Sess) (self n : Uid) : Option (Out Uid) :=
  match get O s self [n] (some O.active) none with
  | .error e => some ⟨.error e, s⟩
  | .ok (some _ :: _) => recursiveStore E O fuel src s self n true
  | .ok _ => some ⟨.error .valueError, s⟩

end Osp.Store
