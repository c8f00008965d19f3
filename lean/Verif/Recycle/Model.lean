import Verif.Utils.Model
import Verif.Export.Model
/-!
# Model of reusing objects: `create_recycle` and `change_oclass`

`osp/core/utils/wrapper_development.py` 88-123, 152-185 (cited as wd:), for core sessions, with neighbours and with both values of `fix_neighbors`. (The model of
copying between sessions, `Verif.Store.Model`, has the case without neighbours.)

The keyword arguments are seen through `OntologyClass._get_attributes_values` (oclass.py 147-193; modelled in `Verif.Onto`): the values it returns, or the exception it
raises, are arbitrary.
-/
namespace Osp.Recycle
open Osp.Cuds Osp.Utils

/-- The values for the attributes of the new class, or the exception. The result of oclass.py 147-193; arbitrary here. -/
abbrev Values := Except PyErr (List (Attr × Val))

/-- The inner loop over the relationships to a neighbour `x`, wd:168-170: `_neighbors[rel.inverse][uid] = [new_oclass]`. The order of the set is irrelevant: triples are added. -/
def retype (O : Onto) (u x : Uid) (c : Cls) (rels : List Rel) (g : Graph) : Graph :=
  rels.foldl (fun g r => setTarget g x (O.inv r) u [c]) g

/-- The loop over the neighbours, wd:167-170. A neighbour that is not registered is `None`: AttributeError. -/
def retypeLoop (O : Onto) (u : Uid) (c : Cls) : List (Option Uid) → Graph → Except PyErr Unit × Graph
  | [], g => (.ok (), g)
  | none :: _, g => (.error .attributeError, g)
  | some x :: xs, g => retypeLoop O u c xs (retype O u x c (relationshipsBetween { g := g } u x) g)

/-- The loop over the new attribute values, wd:178-182. -/
def storeValues (O : Onto) (u : Uid) : List (Attr × Val) → Graph → Except PyErr Unit × Graph
  | [], g => (.ok (), g)
  | (a, v) :: l, g => match O.conv a v with
    | none => (.error .valueError, g)
    | some w => storeValues O u l (g.set ⟨u, .attr a, .val w⟩)

/-- The part of `change_oclass` that tells the neighbours, wd:166-170. -/
def tellNeighbours (O : Onto) (s : Sess) (u : Uid) (c : Cls) : Except PyErr Unit × Graph :=
  if oclass s.g u = some c then (.ok (), s.g)
  else match get O s u [] (some O.relationship) none with
    | .error e => (.error e, s.g)
    | .ok us => retypeLoop O u c us s.g

/-- `change_oclass`, wd:152-185. -/
def changeOclass (O : Onto) (s : Sess) (u : Uid) (c : Cls) (kw : Values) : Out Unit :=
  match tellNeighbours O s u c with
  | (.error e, g1) => ⟨.error e, { s with g := g1 }⟩
  | (.ok _, g1) => match kw with
    | .error e => ⟨.error e, { s with g := g1 }⟩
    | .ok vals => match storeValues O u vals ((g1.remove (some u) none none).add ⟨u, .type, .cls c⟩) with
      | (r, g2) => ⟨r, { s with g := g2 }⟩

/-- The conversion of all attribute values of a new object, cuds.py 72-76. -/
def convAll (O : Onto) : List (Attr × Val) → Except PyErr (List (Attr × Val))
  | [] => .ok []
  | (a, v) :: l => match O.conv a v with
    | none => .error .valueError
    | some w => match convAll O l with
      | .error e => .error e
      | .ok l' => .ok ((a, w) :: l')

/-- The loop over the relationships of an existing object, wd:115-119; `rels` are the relationships in the order in which the set is enumerated. -/
def clear (O : Onto) (s : Sess) (u : Uid) (fix : Bool) (rels : List Rel) : Out Unit :=
  if fix then Export.unlink O u rels s
  else ⟨.ok (), { s with g := rels.foldl (fun g r => g.remove (some u) (some (.rel r)) none) s.g }⟩

/-- The creation of a new object, wd:121-122, with oclass.py 238-252 and cuds.py 40-82. -/
def createNew (O : Onto) (s : Sess) (u : Uid) (c : Cls) (kw : Values) : Out Unit :=
  match kw with
  | .error e => ⟨.error e, s⟩
  | .ok vals => if u = 0 then ⟨.error .valueError, s⟩
    else match convAll O vals with
      | .error e => ⟨.error e, s⟩
      | .ok vals' => create s u c vals'

/-- `create_recycle`, wd:88-123, in a core session. -/
def createRecycle (O : Onto) (s : Sess) (u : Uid) (c : Cls) (kw : Values) (fix : Bool) (rels : List Rel) : Out Unit :=
  if u ∈ s.reg then
    match clear O s u fix rels with
    | ⟨.error e, s'⟩ => ⟨.error e, s'⟩
    | ⟨.ok _, s'⟩ => changeOclass O s' u c kw
  else createNew O s u c kw

/-- `SimDummySession._check_convert_to_inhabitant` once the person has moved, simdummy_session.py 137-142: the person `p` becomes a citizen, leaves the wrapper `w` and enters the city `c`.
`hp` is `city.hasPart`, `hi` is `city.hasInhabitant`. Simplification: a core session. -/
def moveToCity (O : Onto) (s : Sess) (w p c : Uid) (citizen : Cls) (vals : List (Attr × Val)) (hp hi : Rel) : Out Unit :=
  match changeOclass O s p citizen (.ok vals) with
  | ⟨.error e, s1⟩ => ⟨.error e, s1⟩
  | ⟨.ok _, s1⟩ => match remove O s1 w [p] (some hp) none with
    | ⟨.error e, s2⟩ => ⟨.error e, s2⟩
    | ⟨.ok _, s2⟩ => add O s2 c [p] (some hi) none

end Osp.Recycle
