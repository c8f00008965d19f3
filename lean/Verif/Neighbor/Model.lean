import Verif.Cuds.Lemmas
/-!
# Model of the dictionaries of neighbours
`osp/core/neighbor_dict.py`: `cuds._neighbors` maps relationships to dictionaries, and each of these maps the uid of a neighbour to the list
of its ontology classes. Both act on the graph of the CUDS object and notify its session.

* The session is seen through its notifications. `_notify_read` may first bring the graph up to date (an expired object is loaded again from
  the backend): `pending` is what the next reading will do to the graph; afterwards nothing is left to do. `_notify_update` is recorded.
  Sessions whose `_notify_read` raises are not modelled.
* An object that was deleted has no session (`session` is None): nothing is notified.
-/
namespace Osp.Neighbor
open Osp.Cuds

/-- The notifications a session gets, neighbor_dict.py 24-61. -/
inductive Ev where
  | read (u : Uid) | update (u : Uid)
  deriving DecidableEq, Repr

/-- The graph of the object, the refresh that the next reading does, and the notifications so far. Modelling device for `session._notify_read` and
`_notify_update`, neighbor_dict.py 26-60. -/
structure St where
  g : Graph
  pending : Option (Graph → Graph) := none
  log : List Ev := []

/-- The outcome of an operation: no rollback after an exception. Modelling device. -/
structure Res (α : Type) where
  res : Except PyErr α
  st : St

/-- A key given to the dictionary of relationships: a relationship or anything else, neighbor_dict.py 118. -/
inductive RKey where
  | rel (r : Rel) | other
  deriving DecidableEq, Repr

/-- A key given to a dictionary of uids: a uid or anything else, neighbor_dict.py 168. -/
inductive TKey where
  | uid (u : Uid) | other
  deriving DecidableEq, Repr

/-- A value given to a dictionary of uids: a list of ontology classes or anything else, neighbor_dict.py 169-172. -/
inductive TVal where
  | classes (cs : List Cls) | other
  deriving DecidableEq, Repr

/-- A value given to the dictionary of relationships: a Python dict (its keys are distinct) or anything else, in particular another
`NeighborDictTarget`, which is no `dict`. neighbor_dict.py 119. -/
inductive RVal where
  | dict (E : List (TKey × TVal)) | other
  deriving DecidableEq, Repr

/-- `if self.cuds_object.session: session._notify_read(cuds_object)`, neighbor_dict.py 26-27, 35-36, 45-46, 56-57. -/
def notifyRead (sess : Bool) (me : Uid) (st : St) : St :=
  if sess then { g := match st.pending with | none => st.g | some f => f st.g, pending := none, log := st.log ++ [.read me] } else st

/-- `if self.cuds_object.session: session._notify_update(cuds_object)`, neighbor_dict.py 48-49, 59-60. -/
def notifyUpdate (sess : Bool) (me : Uid) (st : St) : St :=
  if sess then { st with log := st.log ++ [.update me] } else st

/-! ### The dictionary of one relationship -/

/-- `NeighborDictTarget._getitem`, neighbor_dict.py 196-204, through `__getitem__`, 31-37. -/
def targetGet (sess : Bool) (me : Uid) (r : Rel) (k : TKey) (st : St) : Res (List Cls) :=
  match k with
  | .other => ⟨.error .valueError, st⟩
  | .uid x =>
    let st := notifyRead sess me st
    if ⟨me, .rel r, .cuds x⟩ ∈ st.g then ⟨.ok (oclasses st.g x), st⟩ else ⟨.error .keyError, st⟩

/-- `NeighborDictTarget._setitem`, neighbor_dict.py 185-194, through `__setitem__`, 39-50. `_check_valid_add` (cuds.py 782-783) always returns True. -/
def targetSet (sess : Bool) (me : Uid) (r : Rel) (k : TKey) (v : TVal) (st : St) : Res Unit :=
  match k with
  | .other => ⟨.error .valueError, st⟩
  | .uid x => match v with
    | .other => ⟨.error .valueError, st⟩
    | .classes cs =>
      let st := notifyRead sess me st
      let st := { st with g := setTarget st.g me r x cs }
      ⟨.ok (), notifyUpdate sess me st⟩

/-- `NeighborDictTarget._delitem`, neighbor_dict.py 180-183, through `__delitem__`, 52-61. -/
def targetDel (sess : Bool) (me : Uid) (r : Rel) (k : TKey) (st : St) : Res Unit :=
  match k with
  | .other => ⟨.error .valueError, st⟩
  | .uid x =>
    let st := notifyRead sess me st
    let st := { st with g := delTarget st.g me r x }
    ⟨.ok (), notifyUpdate sess me st⟩

/-- `NeighborDict.update`, neighbor_dict.py 67-70, for the items of a dict in order. -/
def targetUpdate (sess : Bool) (me : Uid) (r : Rel) : List (TKey × TVal) → St → Res Unit
  | [], st => ⟨.ok (), st⟩
  | (k, v) :: E, st => match targetSet sess me r k v st with
    | ⟨.ok _, st⟩ => targetUpdate sess me r E st
    | ⟨.error e, st⟩ => ⟨.error e, st⟩

/-- `NeighborDictTarget._init`, neighbor_dict.py 175-178. -/
def targetInit (sess : Bool) (me : Uid) (r : Rel) (E : List (TKey × TVal)) (st : St) : Res Unit :=
  targetUpdate sess me r E { st with g := st.g.remove (some me) (some (.rel r)) none }

/-- `NeighborDictTarget._iter`, neighbor_dict.py 206-214, through `__iter__`, 24-28: the uids in order. -/
def targetIter (sess : Bool) (me : Uid) (r : Rel) (st : St) : Res (List Uid) :=
  let st := notifyRead sess me st
  ⟨.ok (targets st.g me r), st⟩

/-- The generator of `NeighborDict.items`, neighbor_dict.py 72-75, over the given keys. -/
def targetItemsOf (sess : Bool) (me : Uid) (r : Rel) : List Uid → St → Res (List (Uid × List Cls))
  | [], st => ⟨.ok [], st⟩
  | x :: xs, st => match targetGet sess me r (.uid x) st with
    | ⟨.error e, st⟩ => ⟨.error e, st⟩
    | ⟨.ok cs, st⟩ => match targetItemsOf sess me r xs st with
      | ⟨.error e, st⟩ => ⟨.error e, st⟩
      | ⟨.ok l, st⟩ => ⟨.ok ((x, cs) :: l), st⟩

/-- `list(d.items())` for a dictionary of uids, neighbor_dict.py 72-75. -/
def targetItems (sess : Bool) (me : Uid) (r : Rel) (st : St) : Res (List (Uid × List Cls)) :=
  match targetIter sess me r st with
  | ⟨.error e, st⟩ => ⟨.error e, st⟩
  | ⟨.ok xs, st⟩ => targetItemsOf sess me r xs st

/-- `list(d.values())` for a dictionary of uids, neighbor_dict.py 81-84. -/
def targetValues (sess : Bool) (me : Uid) (r : Rel) (st : St) : Res (List (List Cls)) :=
  match targetItems sess me r st with
  | ⟨.error e, st⟩ => ⟨.error e, st⟩
  | ⟨.ok l, st⟩ => ⟨.ok (l.map (·.2)), st⟩

/-- `d1 == d2` for two Python dicts: as many items, and each item of the first is an item of the second. Python itself; models nothing in /repo. -/
def dictEq {κ υ : Type} [DecidableEq κ] [DecidableEq υ] (a b : List (κ × υ)) : Bool :=
  a.length == b.length && a.all (fun e => b.lookup e.1 == some e.2)

/-- The items of `dict(self.items())` as keys and values of any type. Modelling device for neighbor_dict.py 63-65. -/
def anyItems (l : List (Uid × List Cls)) : List (TKey × TVal) := l.map fun e => (.uid e.1, .classes e.2)

/-- `NeighborDict.__eq__` of a dictionary of uids, neighbor_dict.py 63-65, with any value (only a dict can be equal). -/
def targetEq (sess : Bool) (me : Uid) (r : Rel) (E : RVal) (st : St) : Res Bool :=
  match targetItems sess me r st with
  | ⟨.error e, st⟩ => ⟨.error e, st⟩
  | ⟨.ok l, st⟩ => match E with
    | .dict E => ⟨.ok (dictEq (anyItems l) E), st⟩
    | .other => ⟨.ok false, st⟩

/-! ### The dictionary of the relationships -/

/-- `NeighborDictRel._getitem`, neighbor_dict.py 133-135, through `__getitem__`, 31-37: the dictionary of that relationship, given by the relationship. -/
def relGet (sess : Bool) (me : Uid) (k : RKey) (st : St) : Res Rel :=
  match k with
  | .other => ⟨.error .valueError, st⟩
  | .rel r => ⟨.ok r, notifyRead sess me st⟩

/-- `NeighborDictRel._setitem`, neighbor_dict.py 128-131, through `__setitem__`, 39-50: the update is not notified when an item is refused. -/
def relSet (sess : Bool) (me : Uid) (k : RKey) (v : RVal) (st : St) : Res Unit :=
  match k with
  | .other => ⟨.error .valueError, st⟩
  | .rel r => match v with
    | .other => ⟨.error .valueError, st⟩
    | .dict E => match targetInit sess me r E (notifyRead sess me st) with
      | ⟨.ok _, st⟩ => ⟨.ok (), notifyUpdate sess me st⟩
      | ⟨.error e, st⟩ => ⟨.error e, st⟩

/-- `NeighborDictRel._delitem`, neighbor_dict.py 124-126, through `__delitem__`, 52-61. -/
def relDel (sess : Bool) (me : Uid) (k : RKey) (st : St) : Res Unit :=
  match k with
  | .other => ⟨.error .valueError, st⟩
  | .rel r =>
    let st := notifyRead sess me st
    let st := { st with g := st.g.remove (some me) (some (.rel r)) none }
    ⟨.ok (), notifyUpdate sess me st⟩

/-- `NeighborDictRel.__bool__`, neighbor_dict.py 137-143. No notification. -/
def relBool (me : Uid) (st : St) : Bool :=
  (st.g.triples (some me) none none).any fun t => match t.p with
    | .rel _ => true
    | _ => false

/-- `NeighborDictRel._iter`, neighbor_dict.py 145-154, through `__iter__`, 24-28, and `keys`, 77-79. -/
def relIter (sess : Bool) (me : Uid) (st : St) : Res (List Rel) :=
  let st := notifyRead sess me st
  ⟨.ok (neighborRels st.g me), st⟩

/-- The comparison of the values of two dicts: `NeighborDictTarget.__eq__` of each relationship of the first. neighbor_dict.py 63-65. The order
of the comparisons is that of the keys; a missing key is a difference without comparison. -/
def relEqOf (sess : Bool) (me : Uid) (E : List (RKey × RVal)) : List Rel → St → Res Bool
  | [], st => ⟨.ok true, st⟩
  | r :: rs, st => match E.lookup (.rel r) with
    | none => ⟨.ok false, st⟩
    | some v => match targetEq sess me r v st with
      | ⟨.error e, st⟩ => ⟨.error e, st⟩
      | ⟨.ok false, st⟩ => ⟨.ok false, st⟩
      | ⟨.ok true, st⟩ => relEqOf sess me E rs st

/-- One reading for each key: `self[k]` in `items`, neighbor_dict.py 72-75. -/
def readEach (sess : Bool) (me : Uid) : List Rel → St → St
  | [], st => st
  | _ :: rs, st => readEach sess me rs (notifyRead sess me st)

/-- `NeighborDict.__eq__` of the dictionary of relationships, neighbor_dict.py 63-65, with a dict: `dict(self.items())` reads once for the iteration
and once for each key; dicts of different size differ. -/
def relEq (sess : Bool) (me : Uid) (E : List (RKey × RVal)) (st : St) : Res Bool :=
  match relIter sess me st with
  | ⟨.error e, st⟩ => ⟨.error e, st⟩
  | ⟨.ok rs, st⟩ =>
    let st := readEach sess me rs st
    if rs.length = E.length then relEqOf sess me E rs st else ⟨.ok false, st⟩

/-! ### The uses in `Cuds` -/

/-- Then go on with the next statement. Modelling device (sequence of statements that may raise). -/
def Res.bind {α β : Type} (o : Res α) (f : α → St → Res β) : Res β :=
  match o with
  | ⟨.ok a, st⟩ => f a st
  | ⟨.error e, st⟩ => ⟨.error e, st⟩

/-- `Cuds._add_direct`, cuds.py 566-579, through the dictionaries. `ocs` are the classes of the object to add; `uid not in self._neighbors[rel]` iterates
over the dictionary, which has no `__contains__`. -/
def addDirect (sess : Bool) (me : Uid) (x : Uid) (ocs : List Cls) (r : Rel) (st : St) : Res Unit :=
  (relIter sess me st).bind fun rs st =>
    if r ∉ rs then relSet sess me (.rel r) (.dict [(.uid x, .classes ocs)]) st
    else (relGet sess me (.rel r) st).bind fun d st =>
      (targetIter sess me d st).bind fun xs st =>
        if x ∉ xs then (relGet sess me (.rel r) st).bind fun d st => targetSet sess me d (.uid x) (.classes ocs) st
        else ⟨.ok (), st⟩

/-- `Cuds._remove_direct`, cuds.py 761-770, through the dictionaries: `not self._neighbors[relationship]` reads once more and is always false, because
`NeighborDictTarget` defines neither `__bool__` nor `__len__`. -/
def removeDirect (sess : Bool) (me : Uid) (r : Rel) (x : Uid) (st : St) : Res Unit :=
  (relGet sess me (.rel r) st).bind fun d st => (targetDel sess me d (.uid x) st).bind fun _ st =>
    (relGet sess me (.rel r) st).bind fun _ st => ⟨.ok (), st⟩

end Osp.Neighbor
