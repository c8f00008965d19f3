import Verif.Recycle.Model
import Verif.Show.Model
/-!
# Model of the dummy simulation

`osp/wrappers/simdummy/simdummy_session.py` (cited as ss:), `osp/wrappers/simdummy/dummy_syntactic_layer.py` (cited as dl:) and
`osp/core/session/sim_wrapper_session.py` (cited as sw:).

What `SimWrapperSession.run` does for an arbitrary backend is the subject of `Verif.Sess.Consume`; here the backend is the dummy simulation and the content of the session
is modelled.

Simplifications. The session holds all its objects (the dummy engine never sends new ones). Expired objects are loaded when they are read: here loading is an operation of
its own, which may happen at any time; when the wrapper or the city have expired too, the code loads these first, which is a sequence of such operations. The neighbours of
a person who moves are read by `change_oclass` but not reloaded here.
-/
namespace Osp.Sim
open Osp.Cuds Osp.Recycle

/-- The entities of the city ontology that the session uses (`osp/core/ontology/docs/city.ontology.yml`), and the meaning of attribute values. Arbitrary here. -/
structure Terms where
  person : Cls
  citizen : Cls
  city : Cls
  hasPart : Rel
  isPartOf : Rel
  hasInhabitant : Rel
  name : Attr
  age : Attr
  numSteps : Attr
  /-- the text of a name -/
  text : Val → List Char
  /-- the number an attribute value stands for -/
  num : Val → Int
  /-- the attribute value for a number -/
  ofNum : Int → Val

/-- `DummyPerson`, dl:10-29. -/
structure Dummy where
  name : Val
  age : Int
  deriving DecidableEq, Repr

/-- `DummySyntacticLayer`, dl:32-38. -/
structure Engine where
  persons : List Dummy := []
  i : Int := 0
  deriving DecidableEq, Repr

/-- The session: its objects, the engine, `_person_map`, `_ran` (sw:21, ss:28-31) and the uids in the user's buffers. -/
structure Sim where
  s : Sess := {}
  engine : Engine := {}
  map : List (Uid × Nat) := []
  ran : Bool := false
  added : List Uid := []
  updated : List Uid := []
  deleted : List Uid := []
  deriving DecidableEq, Repr

/-- A result and the session after it. Modelling device. -/
abbrev Res := Except PyErr Unit × Sim

/-- `simulate`, dl:64-73. -/
def Engine.simulate (e : Engine) (n : Int) : Engine := { persons := e.persons.map (fun p => { p with age := p.age + n }), i := e.i + n }

/-- `add_person`, dl:40-50. -/
def Engine.addPerson (e : Engine) (p : Dummy) : Engine × Nat := ({ e with persons := e.persons ++ [p] }, e.persons.length)

/-- `get_person`, dl:52-62. -/
def Engine.getPerson (e : Engine) (idx : Nat) : Except PyErr (Bool × Dummy) := match e.persons[idx]? with
  | none => .error .indexError
  | some p => .ok (decide ((idx : Int) < e.i), p)

variable (T : Terms) (O : Onto)

/-- The sorting key, ss:162. -/
def key (s : Sess) (u : Uid) : List Char := match getAttr O s u T.name with
  | .ok v => T.text v
  | .error _ => "0".toList

/-- `x.is_a(oclass)`, cuds.py 146-156. -/
def isA (s : Sess) (u : Uid) (c : Cls) : Bool := match oclass s.g u with
  | none => false
  | some c' => O.subCls c' c

/-- One object of the added buffer, ss:163-171; `root` is the uid of the wrapper. -/
def applyOne (root u : Uid) (m : Sim) : Res :=
  if isA O m.s u T.person then
    match get O m.s u [] (some T.isPartOf) none with
    | .error e => (.error e, m)
    | .ok us => if none ∈ us then (.error .attributeError, m)
      else if some root ∈ us then
        match getAttr O m.s u T.name with
        | .error e => (.error e, m)
        | .ok nm => match getAttr O m.s u T.age with
          | .error e => (.error e, m)
          | .ok a =>
            let r := m.engine.addPerson ⟨nm, T.num a⟩
            (.ok (), { m with engine := r.1, map := m.map ++ [(u, r.2)] })
      else (.ok (), m)
  else (.ok (), m)

/-- The loop over the sorted buffer, ss:163-171. -/
def applyLoop (root : Uid) : List Uid → Sim → Res
  | [], m => (.ok (), m)
  | u :: us, m => match applyOne T O root u m with
    | (.error e, m) => (.error e, m)
    | (.ok _, m) => applyLoop root us m

/-- `_apply_added`, ss:146-171. -/
def applyAdded (root : Uid) (m : Sim) : Res :=
  if m.ran = true ∧ m.added ≠ [] then (.error .runtimeError, m)
  else applyLoop T O root (Show.sortBy (fun a b => Show.textLe (key T O m.s a) (key T O m.s b)) m.added) m

/-- `_apply_updated`, ss:174-187. -/
def applyUpdated (m : Sim) : Res := if m.ran = true ∧ m.updated ≠ [] then (.error .runtimeError, m) else (.ok (), m)

/-- `_apply_deleted`, ss:190-203. -/
def applyDeleted (m : Sim) : Res := if m.ran = true ∧ m.deleted ≠ [] then (.error .runtimeError, m) else (.ok (), m)

/-- The changes go to the engine, sw:30-35. -/
def applyAll (root : Uid) (m : Sim) : Res :=
  if m.ran = false then applyAdded T O root m
  else match applyAdded T O root m with
    | (.error e, m) => (.error e, m)
    | (.ok _, m) => match applyUpdated m with
      | (.error e, m) => (.error e, m)
      | (.ok _, m) => applyDeleted m

/-- `run`, sw:23-39 with ss:38-44. -/
def run (m : Sim) : Res := match m.s.root with
  | none => (.error .runtimeError, m)
  | some w => if w ∉ m.s.reg then (.error .keyError, m)
    else match applyAll T O w m with
      | (.error e, m) => (.error e, m)
      | (.ok _, m) =>
        let m := { m with added := [], updated := [], deleted := [] }
        match getAttr O m.s w T.numSteps with
        | .error e => (.error e, m)
        | .ok n => (.ok (), { m with engine := m.engine.simulate (T.num n), ran := true })

/-- `_check_convert_to_inhabitant`, ss:123-143; `w` is the uid of the wrapper. -/
def convert (w u : Uid) (idx : Nat) (m : Sim) : Res :=
  match get O m.s w [] none (some T.city) with
  | .error e => (.error e, m)
  | .ok [] => (.error .indexError, m)
  | .ok (c :: _) => match m.engine.getPerson idx with
    | .error e => (.error e, m)
    | .ok (there, p) => if there then
        match c with
        | none => (.error .attributeError, m)
        | some c =>
          let r := moveToCity O m.s w u c T.citizen [(T.name, p.name), (T.age, T.ofNum p.age)] T.hasPart T.hasInhabitant
          (r.res, { m with s := r.st })
      else (.ok (), m)

/-- `_load_person`, ss:74-89. -/
def loadPerson (w u : Uid) (idx : Nat) (m : Sim) : Res :=
  if u ∉ m.s.reg then (.error .keyError, m)
  else match m.engine.getPerson idx with
    | .error e => (.error e, m)
    | .ok (_, p) => match setAttr O m.s u T.age (T.ofNum p.age) with
      | ⟨.error e, s⟩ => (.error e, { m with s := s })
      | ⟨.ok _, s⟩ => if isA O s u T.citizen then (.ok (), { m with s := s }) else convert T O w u idx { m with s := s }

/-- `refresh` of one object that is neither the wrapper nor the city, ss:60-72: persons of the simulation are loaded, others stay. -/
def refreshOne (w u : Uid) (m : Sim) : Res := match m.map.lookup u with
  | none => (.ok (), m)
  | some idx => loadPerson T O w u idx m

/-- `refresh` of several objects, one after the other, ss:105-106 and 119-120. -/
def refreshAll (w : Uid) : List Uid → Sim → Res
  | [], m => (.ok (), m)
  | u :: us, m => match refreshOne T O w u m with
    | (.error e, m) => (.error e, m)
    | (.ok _, m) => refreshAll w us m

/-- `_load_wrapper`, ss:109-121. -/
def loadWrapper (w : Uid) (m : Sim) : Res := match get O m.s w [] none (some T.person) with
  | .error e => (.error e, m)
  | .ok us => if none ∈ us then (.error .attributeError, m) else refreshAll T O w (us.filterMap id) m

/-- `_load_city`, ss:91-107. The set of persons is enumerated in the order in which they were registered. -/
def loadCity (w c : Uid) (m : Sim) : Res := match get O m.s c [] (some T.hasInhabitant) none with
  | .error e => (.error e, m)
  | .ok us => if none ∈ us then (.error .attributeError, m)
    else refreshAll T O w ((m.map.map (·.1)).filter (fun u => some u ∉ us)) m

/-- Loading one object, `_load_from_backend`, ss:47-72. -/
def load (u : Uid) (m : Sim) : Res := match m.s.root with
  | none => (.error .runtimeError, m)
  | some w => if w ∉ m.s.reg then (.error .keyError, m)
    else match get O m.s w [] none (some T.city) with
      | .error e => (.error e, m)
      | .ok cities => if u = w then loadWrapper T O w m
        else match cities with
          | [] => refreshOne T O w u m
          | none :: _ => (.error .attributeError, m)
          | some c :: rest => if u = c then (if rest = [] then loadCity T O w c m else (.error .assertionError, m)) else refreshOne T O w u m

/-- What happens to a simulation session: it runs, or an object is loaded. Modelling device. -/
inductive Op where
  | run
  | load (u : Uid)
  deriving DecidableEq, Repr

/-- One operation. Modelling device. -/
def step : Op → Sim → Res
  | .run, m => run T O m
  | .load u, m => load T O u m

/-- A history of operations, with the results. Modelling device. -/
def runAll : List Op → Sim → List (Except PyErr Unit) × Sim
  | [], m => ([], m)
  | op :: ops, m =>
    let r := step T O op m
    let t := runAll ops r.2
    (r.1 :: t.1, t.2)

end Osp.Sim
