import Verif.Text
import Verif.Common
/-!
# Model of schema validation (C47, C48)

`osp/core/utils/schema_validation.py` (cited as val:). The CUDS objects are seen through the calls the validator makes: `oclass`, `iter()` and `get(rel=, oclass=)`. The
YAML document is the dictionary it loads; messages are not modelled.
-/
namespace Osp.Schema

/-- The value of the key `cardinality` of a constraint: an integer, a boolean, a text, or anything the operator `in` does not accept (missing, null or a float). Lists and
dictionaries are not modelled. schema_validation.py 117-131. -/
inductive CardVal where
  | int (i : Int)
  | bool (b : Bool)
  | str (t : Text)
  | other
  deriving DecidableEq

/-- The constraints of a neighbour: `None` or a dictionary. schema_validation.py 60-82, 155-179. -/
abbrev Constraints := Option CardVal

/-- The entry of a class: `None` or relationships with the constraints of the neighbours. schema_validation.py 155-179. -/
abbrev Entry := Option (List (Text × List (Text × Constraints)))

/-- `data_model_dict['model']`. schema_validation.py 84-87. -/
abbrev Schema := List (Text × Entry)

/-- The objects: `str(oclass)`, the objects of `iter()` and the number of objects of `get(rel=get_entity(rel), oclass=get_entity(oclass))`, which may raise. schema_validation.py 90-115, 134-152. Modelling simplification. -/
structure World where
  cls : Nat → Text
  children : Nat → List Nat
  count : Nat → Text → Text → Except PyErr Nat

/-- `int(text)`. Python itself; models nothing in /repo. -/
def readInt (t : Text) : Except PyErr Int := match pyInt t with
  | some i => .ok i
  | none => .error .valueError

/-- `_interpret_cardinality_value_from_constraints`, val:117-131; an upper bound of `none` is infinity. -/
def interpret : Constraints → Except PyErr (Int × Option Int)
  | none => .ok (0, none)
  | some (.int i) => .ok (i, some i)
  | some (.bool b) => .ok (if b then 1 else 0, some (if b then 1 else 0))
  | some .other => .error .typeError
  | some (.str t) =>
    if '-' ∈ t then
      match readInt ((splitOn '-' t)[0]?.getD []) with
      | .error e => .error e
      | .ok lo => match readInt ((splitOn '-' t)[1]?.getD []) with
        | .error e => .error e
        | .ok hi => .ok (lo, some hi)
    else if '+' ∈ t then
      match readInt ((splitOn '+' t)[0]?.getD []) with
      | .error e => .error e
      | .ok lo => .ok (lo, none)
    else .ok (0, none)

/-- Outside of the interval, val:103. -/
def outside (n : Nat) (b : Int × Option Int) : Bool := decide ((n : Int) < b.1) || (match b.2 with | none => false | some hi => decide (hi < (n : Int)))

/-- `_check_cuds_object_cardinality`, val:90-114. -/
def check (W : World) (o : Nat) (dest rel : Text) (c : Constraints) : Except PyErr Unit :=
  match W.count o rel dest with
  | .error e => .error e
  | .ok n => match interpret c with
    | .error e => .error e
    | .ok b => if outside n b then .error .cardinalityError else .ok ()

/-- A Python dictionary from class names to objects. schema_validation.py 134-152. -/
abbrev Groups := List (Text × List Nat)

/-- `result[k] = v`. Python itself; models nothing in /repo. -/
def setKey (k : Text) (v : List Nat) : Groups → Groups
  | [] => [(k, v)]
  | g :: gs => if g.1 = k then (k, v) :: gs else g :: setKey k v gs

/-- `result[k].append(o)`. Python itself; models nothing in /repo. -/
def appendKey (k : Text) (o : Nat) : Groups → Groups
  | [] => []
  | g :: gs => if g.1 = k then (k, g.2 ++ [o]) :: gs else g :: appendKey k o gs

/-- `neighbour.oclass in result.keys()`, val:147. The keys are texts, `neighbour.oclass` is an ontology entity, and an entity equals only entities
(`OntologyEntity.__eq__`, osp/core/ontology/entity.py:47-56): the answer is always no. -/
def entityInKeys (_oclass : Text) (_g : Groups) : Bool := false

/-- val:147-150. -/
def record (W : World) (o : Nat) (g : Groups) : Groups := if entityInKeys (W.cls o) g then appendKey (W.cls o) o g else setKey (W.cls o) [o] g

/-- The loop, val:146-151; `f` is the recursive call. -/
def loop (W : World) (f : Nat → Groups → Except PyErr Groups) : List Nat → Groups → Except PyErr Groups
  | [], g => .ok g
  | c :: cs, g => match f c (record W c g) with
    | .error e => .error e
    | .ok g => loop W f cs g

/-- `_traverse_tree_and_group_all_objects_by_oclass`, val:134-152. The first argument bounds the depth of the recursion, as Python does; exceeding it is
`RecursionError`, a `RuntimeError`. -/
def traverse (W : World) : Nat → Nat → Groups → Except PyErr Groups
  | 0, _, _ => .error .runtimeError
  | n + 1, o, g => loop W (traverse W n) (W.children o) g

/-- val:144-145. -/
def groups (W : World) (fuel root : Nat) : Except PyErr Groups := traverse W fuel root [(W.cls root, [root])]

/-- The constraints of an entry. schema_validation.py 60-82. -/
def entryConstraints (e : Entry) : List (Text × Text × Constraints) := match e with
  | none => []
  | some rels => rels.flatMap (fun r => r.2.map (fun n => (r.1, n.1, n.2)))

/-- The loop of `_get_optional_and_mandatory_subtrees`, val:159-171: optional and mandatory classes. -/
def collect : List (Text × Text × Constraints) → List Text × List Text → Except PyErr (List Text × List Text)
  | [], r => .ok r
  | c :: cs, r => match interpret c.2.2 with
    | .error e => .error e
    | .ok b => collect cs (if b.1 = 0 then c.2.1 :: r.1 else r.1, if b.1 > 0 then c.2.1 :: r.2 else r.2)

/-- `_get_optional_and_mandatory_subtrees`, val:155-180. -/
def optionalMandatory (S : Schema) : Except PyErr (List Text × List Text) :=
  match collect (S.flatMap (fun e => entryConstraints e.2)) ([], []) with
  | .error e => .error e
  | .ok r => if r.1.any (fun x => x ∈ r.2) then .error .consistencyError else .ok r

/-- `not relationships`. Python itself; models nothing in /repo. -/
def falsy (e : Entry) : Bool := match e with
  | none => true
  | some rels => rels.isEmpty

/-- val:42-52. -/
def presence (om : List Text × List Text) (g : Groups) : Schema → Except PyErr Unit
  | [] => .ok ()
  | e :: es =>
    if (falsy e.2 || decide (e.1 ∈ om.2) || decide (e.1 ∉ om.1)) && (g.lookup e.1).isNone then .error .consistencyError
    else presence om g es

/-- val:71-78: all constraints of one object. -/
def checkObject (W : World) (o : Nat) : List (Text × Text × Constraints) → Except PyErr Unit
  | [] => .ok ()
  | c :: cs => match check W o c.2.1 c.1 c.2.2 with
    | .error e => .error e
    | .ok _ => checkObject W o cs

/-- val:70-78: the objects of one group. -/
def checkObjects (W : World) (cs : List (Text × Text × Constraints)) : List Nat → Except PyErr Unit
  | [] => .ok ()
  | o :: os => match checkObject W o cs with
    | .error e => .error e
    | .ok _ => checkObjects W cs os

/-- val:56-78: one group; classes that are not in the schema are skipped. -/
def checkGroup (W : World) (S : Schema) (g : Text × List Nat) : Except PyErr Unit := match S.lookup g.1 with
  | none => .ok ()
  | some e => checkObjects W (entryConstraints e) g.2

/-- val:54-78. -/
def checkGroups (W : World) (S : Schema) : Groups → Except PyErr Unit
  | [] => .ok ()
  | g :: gs => match checkGroup W S g with
    | .error e => .error e
    | .ok _ => checkGroups W S gs

/-- `validate_tree_against_schema`, val:20-81. -/
def validate (W : World) (fuel : Nat) (S : Schema) (root : Nat) : Except PyErr Unit :=
  match optionalMandatory S with
  | .error e => .error e
  | .ok om => match groups W fuel root with
    | .error e => .error e
    | .ok g => match presence om g S with
      | .error e => .error e
      | .ok _ => checkGroups W S g

end Osp.Schema
