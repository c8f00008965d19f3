import Verif.Search.Model
/-!
# Model of the searching and removing helpers
`utils/simple_search.py` 50-149, the filters of `session/registry.py` 144-212, `remove_cuds_object` and `get_relationships_between`
(`utils/general.py` 249-279), on top of the session and traversal models.
-/
namespace Osp.Utils
open Osp.Cuds Osp.Search

/-- The criterion of `find_cuds_object_by_uid`, simple_search.py 66. -/
def uidCrit (uid : Uid) (x : Uid) : Bool := x = uid

/-- `find_cuds_object_by_uid`, simple_search.py 50-70 (`none`: out of fuel). -/
def findByUid (O : Onto) (s : Sess) (fuel : Nat) (uid root : Uid) (rel : Option Rel) : Option (Option Uid) :=
  (findFirst (children O s rel) (uidCrit uid) fuel root []).map (·.1)

/-- `find_cuds_objects_by_oclass`, simple_search.py 73-92; the criterion is `Cuds.is_a`, cuds.py 146-156. -/
def findByOclass (O : Onto) (s : Sess) (fuel : Nat) (c : Cls) (root : Uid) (rel : Option Rel) : Option (List Uid) :=
  (findAll (children O s rel) (clsTest O s.g (some c)) fuel none root []).map (·.1)

/-- `hasattr(x, attribute) and getattr(x, attribute) == value`, simple_search.py 112-113 and registry.py 183-184. Names that are no attributes of
the ontology (`uid`, methods, …) are not modelled. -/
def attrCrit (O : Onto) (s : Sess) (a : Attr) (v : Val) (x : Uid) : Bool :=
  match getAttr O s x a with
  | .ok w => w = v
  | .error _ => false

/-- `find_cuds_objects_by_attribute`, simple_search.py 95-117. -/
def findByAttribute (O : Onto) (s : Sess) (fuel : Nat) (a : Attr) (v : Val) (root : Uid) (rel : Option Rel) : Option (List Uid) :=
  (findAll (children O s rel) (attrCrit O s a v) fuel none root []).map (·.1)

/-- The criteria of `find_relationships` and of `filter_by_relationships`, simple_search.py 134-143 and registry.py 200-210: `in` on the
relationships of the object, or a loop with `is_superclass_of`. -/
def relCrit (O : Onto) (s : Sess) (r : Rel) (sub : Bool) (x : Uid) : Bool :=
  if sub then (neighborRels s.g x).any (fun r' => O.subRel r' r) else decide (r ∈ neighborRels s.g x)

/-- `find_relationships`, simple_search.py 120-150. -/
def findRelationships (O : Onto) (s : Sess) (fuel : Nat) (r : Rel) (root : Uid) (consider : Option Rel) (sub : Bool) : Option (List Uid) :=
  (findAll (children O s consider) (relCrit O s r sub) fuel none root []).map (·.1)

/-- `Registry.filter`, registry.py 144-163: the keys of the resulting dictionary. -/
def regFilter (s : Sess) (crit : Uid → Bool) : List Uid := s.reg.filter crit

/-- `Registry.filter_by_oclass`, registry.py 165-175: equality of classes. -/
def filterByOclass (s : Sess) (c : Cls) : List Uid := regFilter s fun x => oclass s.g x = some c

/-- `Registry.filter_by_attribute`, registry.py 177-188. -/
def filterByAttribute (O : Onto) (s : Sess) (a : Attr) (v : Val) : List Uid := regFilter s (attrCrit O s a v)

/-- `Registry.filter_by_relationships`, registry.py 190-212. -/
def filterByRelationships (O : Onto) (s : Sess) (r : Rel) (sub : Bool) : List Uid := regFilter s (relCrit O s r sub)

/-- `get_relationships_between`, general.py 265-279; `items()` are the relationships of the subject with their objects, neighbor_dict.py 145-154. -/
def relationshipsBetween (s : Sess) (subj obj : Uid) : List Rel := (neighborRels s.g subj).filter fun r => obj ∈ targets s.g subj r

/-- The loop of `remove_cuds_object`, general.py 261-262: an exception ends it. -/
def removeEach (O : Onto) (u : Uid) : List Uid → Sess → Out Unit
  | [], s => ⟨.ok (), s⟩
  | x :: xs, s => match remove O s u [x] (some O.relationship) none with
    | ⟨.ok _, s'⟩ => removeEach O u xs s'
    | ⟨.error e, s'⟩ => ⟨.error e, s'⟩

/-- `remove_cuds_object`, general.py 249-262. `iter` computes the neighbours before the first of them is removed (cuds.py 364-375). -/
def removeCudsObject (O : Onto) (s : Sess) (u : Uid) : Out Unit := removeEach O u (children O s (some O.relationship) u) s

end Osp.Utils
