import Verif.Onto.Model
import Verif.Value.Model
/-!
# The attributes of CUDS objects by name

`obj.name`, `obj.name = value`, `del obj.name` and `SomeClass(name=value, …)`: how Python's attribute lookup, the members of the class Cuds, the attributes the ontology gives the class of the object,
and, for wrappers, the attributes of the session share one space of names. The values and their conversion are those of `Verif/Value`, the keywords of the constructor those of `Verif/Onto`.
-/
namespace Osp.Access
open Osp.Onto (Name Kwargs AttrInfo)
open Osp.Value (Val Lit Fl)

/-- An attribute of the ontology: its argname, its IRI and its datatype. attribute.py 31-65. -/
abbrev OAttr := Onto.Attr Value.Attr

/-- A class: its attributes in the order of the dictionary `attributes`, with default and obligation (oclass.py 32-58), and whether it is a subclass of cuba.Wrapper or of cuba.Nothing (oclass.py
235-240, cuds.py 813). -/
structure Cls (F : Type) where
  attrs : List (OAttr × AttrInfo (Val F))
  wrapper : Bool
  nothing : Bool

/-- What the graph holds about an object: its classes (`oclasses`, cuds.py 99-107) and the literals of its attributes. -/
structure Body (F : Type) where
  classes : List (Cls F)
  vals : List (Text × Lit F)

/-- What the session is told. cuds.py 808-809, 840-841, 847-848. -/
inductive Note where
  | read | update
  deriving DecidableEq, Repr

/-- An object: what the graph holds about it; the Python attributes the user put on it (the instance dictionary without `_session`, `_graph` and the mangled `__uid`, which the model does not cover);
what its session was told so far. Modelling device for cuds.py 62-82. -/
structure Obj (F P : Type) where
  body : Body F
  plain : List (Name × P)
  log : List Note

/-- The session of the object: which attributes it has itself (`hasattr`), what `_notify_read` does to the object (a refresh may change it, or fail) and whether `_notify_update` raises.
wrapper_session.py 243-264, 294-302; session.py for the core session, which does nothing at all. -/
structure Session (F : Type) where
  has : Name → Bool
  onRead : Body F → Except PyErr Unit × Body F
  onUpdate : Body F → Except PyErr Unit

/-- What `obj.name` can be: a member of the class Cuds, a Python attribute put on the object, the value of an attribute of the ontology, an attribute of the session. Modelling device for cuds.py
793-822. -/
inductive Res (F P : Type) where
  | member (n : Name)
  | plain (p : P)
  | value (v : Val F)
  | sess (n : Name)

/-- The properties of Cuds. cuds.py 84-123. -/
def properties : List Name := ["uid".toList, "iri".toList, "session".toList, "oclasses".toList, "oclass".toList, "_neighbors".toList, "_stored".toList]

/-- The methods of Cuds. cuds.py 125-160, 205, 246, 290, 332, 377-785. Names with two leading underscores are left out. -/
def methods : List Name := ["get_triples".toList, "get_attributes".toList, "is_a".toList, "add".toList, "get".toList, "update".toList, "remove".toList, "iter".toList, "_recursive_store".toList,
  "_fix_neighbors".toList, "_fix_new_parents".toList, "_fix_old_neighbors".toList, "_add_direct".toList, "_add_inverse".toList, "_get".toList, "_get_by_uids".toList, "_get_by_oclass".toList,
  "_load_cuds_objects".toList, "_remove_direct".toList, "_remove_inverse".toList, "_check_valid_add".toList]

/-- `name.startswith("_")`, cuds.py:836. -/
def private? (n : Name) : Bool := n.head? == some '_'

variable {F P : Type}

/-- The except clause of `__getattr__`, cuds.py:811-822. -/
def fallback (S : Session F) (o : Obj F P) (name : Name) : Except PyErr (Res F P) × Obj F P :=
  if o.body.classes.any (·.wrapper) && S.has name then (.ok (.sess name), o) else (.error .attributeError, o)

/-- The attribute a name stands for: `self.oclass.get_attribute_by_argname(name)`, cuds.py:807 and 839. -/
def meant (c : Cls F) (name : Name) : Option OAttr := Onto.attributeByArgname (c.attrs.map (·.1)) name

/-- `__getattr__`, cuds.py:793-822. The attribute is looked up before the session is told, the value after. An AttributeError of any part (no class, no such attribute, no value, or one raised while
the session refreshes) leads to the except clause. -/
def getOnto (S : Session F) (o : Obj F P) (name : Name) : Except PyErr (Res F P) × Obj F P :=
  match o.body.classes.head? with
  | none => fallback S o name
  | some c =>
    let r := S.onRead o.body
    let o' : Obj F P := { o with body := r.2, log := o.log ++ [.read] }
    match r.1 with
    | .error .attributeError => fallback S o' name
    | .error e => (.error e, o')
    | .ok () => match meant c name with
      | none => fallback S o' name
      | some a => match o'.body.vals.find? (fun x => x.1 == a.id.iri) with
        | none => fallback S o' name
        | some (_, l) => (.ok (.value (Value.toPython l)), o')

/-- `obj.name`: Python's lookup (properties of the class, the instance dictionary, other members of the class), then `__getattr__`. Python itself with cuds.py 84-160, 793-822. -/
def get (S : Session F) (o : Obj F P) (name : Name) : Except PyErr (Res F P) × Obj F P :=
  if name ∈ properties then (.ok (.member name), o)
  else match o.plain.lookup name with
    | some p => (.ok (.plain p), o)
    | none => if name ∈ methods then (.ok (.member name), o) else getOnto S o name

/-- What the user assigns: a value for the ontology or any Python object. Modelling device for cuds.py 824. -/
structure New (F P : Type) where
  val : Val F
  obj : P

/-- Setting an attribute of the ontology, cuds.py:839-848. -/
def setOnto (fl : Fl F) (S : Session F) (o : Obj F P) (name : Name) (x : Val F) : Except PyErr Unit × Obj F P :=
  match o.body.classes.head? with
  | none => (.error .attributeError, o)
  | some c =>
    let r := S.onRead o.body
    let o' : Obj F P := { o with body := r.2, log := o.log ++ [.read] }
    match r.1 with
    | .error e => (.error e, o')
    | .ok () => match meant c name with
      | none => (.error .attributeError, o')
      | some a => match Value.convertTo fl a.id.dt x with
        | .error e => (.error e, o')
        | .ok v =>
          let b : Body F := { o'.body with vals := Value.gset o'.body.vals a.id.iri (Value.mkLit fl a.id.dt v) }
          (S.onUpdate b, { o' with body := b, log := o'.log ++ [.update] })

/-- `obj.name = x`: `__setattr__`, cuds.py:824-848. A name with an underscore goes to `object.__setattr__`, which refuses properties. -/
def set (fl : Fl F) (S : Session F) (o : Obj F P) (name : Name) (x : New F P) : Except PyErr Unit × Obj F P :=
  if private? name then
    if name ∈ properties then (.error .attributeError, o)
    else (.ok (), { o with plain := (name, x.obj) :: o.plain.filter (fun e => e.1 != name) })
  else setOnto fl S o name x.val

/-- `del obj.name`: Cuds has no `__delattr__`, so that of object: only the instance dictionary. Python itself; cuds.py 31-905 defines nothing of its own. -/
def del (o : Obj F P) (name : Name) : Except PyErr Unit × Obj F P :=
  if name ∈ properties then (.error .attributeError, o)
  else match o.plain.lookup name with
    | none => (.error .attributeError, o)
    | some _ => (.ok (), { o with plain := o.plain.filter (fun e => e.1 != name) })

/-- The keywords that are parameters of `__call__` itself. oclass.py:215. -/
def parameters : List Name := ["uid".toList, "session".toList, "_force".toList]

/-- `SomeClass(**kwargs)` with a new uid: `__call__`, oclass.py:215-250, and `Cuds.__init__`, cuds.py:70-81. Keywords that are parameters do not reach `kwargs` (what they do is not modelled but for
`session` being given and `_force`); a keyword `self` is a TypeError of Python's. -/
def call (fl : Fl F) (c : Cls F) (sessionGiven force : Bool) (kwargs : Kwargs (Val F)) : Except PyErr (Body F) :=
  if kwargs.any (fun e => e.1 == "self".toList) then .error .typeError
  else if c.wrapper && !sessionGiven then .error .typeError
  else if c.nothing then .error .typeError
  else match Onto.attributesValues force c.attrs (kwargs.filter (fun e => !(parameters.contains e.1))) with
    | .error e => .error e
    | .ok vs => match Value.initAttrs fl (vs.map (fun x => (x.1.id, x.2))) with
      | .error e => .error e
      | .ok g => .ok ⟨[c], g⟩

/-- What a user does with an object. Modelling device for cuds.py 793-848. -/
inductive Op (F P : Type) where
  | get (n : Name)
  | set (n : Name) (x : New F P)
  | del (n : Name)

/-- One step, errors ignored. Modelling device for cuds.py 793-848. -/
def step (fl : Fl F) (S : Session F) (o : Obj F P) : Op F P → Obj F P
  | .get n => (get S o n).2
  | .set n x => (set fl S o n x).2
  | .del n => (del o n).2

/-- A history. Modelling device for cuds.py 793-848. -/
def run (fl : Fl F) (S : Session F) (o : Obj F P) (ops : List (Op F P)) : Obj F P := ops.foldl (step fl S) o

end Osp.Access
