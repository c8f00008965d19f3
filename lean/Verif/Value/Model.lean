import Verif.Yaml.Datatype
import Verif.Iri.Props
import Verif.Sql.Strings
/-!
# Values of attributes: conversion, literals, reading, export and sqlite (C90)

`osp/core/ontology/datatypes.py` (cited as dt:), `attribute.py`, `cuds.py`, `sql_util.py`, `sql_wrapper_session.py`, `sqlite_session.py`. Vectors are the subject of C36 and C52 and
left out here.
-/
namespace Osp.Value
open Osp.Yaml (Basic Conv getPython intStr)

/-- Python's floating point numbers `F`: `str`/`repr`, `float(text)`, `float(int)` (OverflowError if too large), `int(float)` (not for inf and nan), truth. Only the first law is
assumed. Python itself; models nothing in /repo. -/
structure Fl (F : Type) where
  repr : F → Text
  parse : Text → Option F
  ofInt : Int → Option F
  trunc : F → Except PyErr Int
  isZero : F → Bool
  /-- what a REAL column of sqlite gives back; sqlite stores nan as NULL -/
  real : F → Option F
  parse_repr : ∀ f, parse (repr f) = some f

/-- Values with a datatype: what `convert_to` returns for a datatype that is not a vector, dt:128-135. -/
inductive Atom (F : Type) where
  | bool (b : Bool)
  | int (i : Int)
  | float (f : F)
  | str (t : Text)
  | uuid (u : Nat)
  deriving DecidableEq

/-- An rdflib literal: a text (its lexical form) with a datatype and, if rdflib could find one, a Python value. rdflib; models nothing in /repo. -/
structure Lit (F : Type) where
  lex : Text
  dt : Option Text
  val : Option (Atom F)
  deriving DecidableEq

/-- Anything a user may pass as a value. `bytes`: a bytes object and its `str`; `other`: an object of another class (list, dict, date, ...) with its `str` and truth. Python itself; models
nothing in /repo. -/
inductive Val (F : Type) where
  | none
  | atom (a : Atom F)
  | bytes (b : List (Fin 256)) (str : Text)
  | lit (l : Lit F)
  | other (str : Text) (truth : Bool)

variable {F : Type}

/-- The characters of a bytes object. Python itself; models nothing in /repo. -/
def chars (b : List (Fin 256)) : Text := b.map (fun n => Char.ofNat n.val)

/-- The number written by big endian bytes. Python itself; models nothing in /repo. -/
def bigEndian (b : List (Fin 256)) : Nat := b.foldl (fun a n => 256 * a + n.val) 0

/-- `str(x)` of a value with datatype. Python itself; models nothing in /repo. -/
def atomStr (fl : Fl F) : Atom F → Text
  | .bool b => if b then "True".toList else "False".toList
  | .int i => intStr i
  | .float f => fl.repr f
  | .str t => t
  | .uuid u => Iri.uuidStr u

/-- `str(x)`. Python itself; models nothing in /repo. -/
def pyStr (fl : Fl F) : Val F → Text
  | .none => "None".toList
  | .atom a => atomStr fl a
  | .bytes _ s => s
  | .lit l => l.lex
  | .other s _ => s

/-- `bool(x)` of a value with datatype. Python itself; models nothing in /repo. -/
def atomTruth (fl : Fl F) : Atom F → Bool
  | .bool b => b
  | .int i => i != 0
  | .float f => !fl.isZero f
  | .str t => !t.isEmpty
  | .uuid _ => true

/-- `bool(x)`; a literal with a value has its truth (`Literal.__bool__`). Python itself; models nothing in /repo. -/
def pyBool (fl : Fl F) : Val F → Bool
  | .none => false
  | .atom a => atomTruth fl a
  | .bytes b _ => !b.isEmpty
  | .lit l => match l.val with
    | some a => atomTruth fl a
    | none => !l.lex.isEmpty
  | .other _ t => t

/-- `int(text)`. Python itself; models nothing in /repo. -/
def intOfText (t : Text) : Except PyErr Int := match pyInt t with
  | some i => .ok i
  | none => .error .valueError

/-- `int(x)`; a literal is a text. Python itself; models nothing in /repo. -/
def toInt (fl : Fl F) : Val F → Except PyErr Int
  | .atom (.bool b) => .ok (if b then 1 else 0)
  | .atom (.int i) => .ok i
  | .atom (.float f) => fl.trunc f
  | .atom (.str t) => intOfText t
  | .bytes b _ => intOfText (chars b)
  | .lit l => intOfText l.lex
  | _ => .error .typeError

/-- `float(text)`. Python itself; models nothing in /repo. -/
def floatOfText (fl : Fl F) (t : Text) : Except PyErr F := match fl.parse t with
  | some f => .ok f
  | none => .error .valueError

/-- `float(int)`. Python itself; models nothing in /repo. -/
def floatOfInt (fl : Fl F) (i : Int) : Except PyErr F := match fl.ofInt i with
  | some f => .ok f
  | none => .error .overflowError

/-- `float(x)`. Python itself; models nothing in /repo. -/
def toFloat (fl : Fl F) : Val F → Except PyErr F
  | .atom (.bool b) => floatOfInt fl (if b then 1 else 0)
  | .atom (.int i) => floatOfInt fl i
  | .atom (.float f) => .ok f
  | .atom (.str t) => floatOfText fl t
  | .bytes b _ => floatOfText fl (chars b)
  | .lit l => floatOfText fl l.lex
  | _ => .error .typeError

/-- `uuid.UUID(hex=t)`. Python itself; models nothing in /repo. -/
def uuidOfText (t : Text) : Except PyErr Nat := match Iri.parseUuid t with
  | some u => .ok u
  | none => .error .valueError

/-- `uuid.UUID(int=i)`. Python itself; models nothing in /repo. -/
def uuidOfInt (i : Int) : Except PyErr Nat := if 0 ≤ i ∧ i < 2 ^ 128 then .ok i.toNat else .error .valueError

/-- `to_uuid`, dt:52-73. A bool is an int, a literal a str. -/
def toUuid : Val F → Except PyErr Nat
  | .atom (.uuid u) => .ok u
  | .atom (.str t) => uuidOfText t
  | .lit l => uuidOfText l.lex
  | .atom (.int i) => uuidOfInt i
  | .atom (.bool b) => uuidOfInt (if b then 1 else 0)
  | .bytes b _ => if b.length = 16 then .ok (bigEndian b) else .error .valueError
  | _ => .error .valueError

/-- `to_string`, dt:76-94; `maxsize` 0 is no limit. -/
def toStr (fl : Fl F) (maxsize : Int) (x : Val F) : Except PyErr Text := match Yaml.toString maxsize (pyStr fl x) with
  | some t => .ok t
  | none => .error .valueError

/-- The first function of an entry of RDF_DATATYPES, dt:128-135 and 156. -/
def convTo (fl : Fl F) : Conv → Val F → Except PyErr (Atom F)
  | .basic .bool, x => .ok (.bool (pyBool fl x))
  | .basic .int, x => (toInt fl x).map .int
  | .basic .float, x => (toFloat fl x).map .float
  | .basic .string, x => .ok (.str (pyStr fl x))
  | .basic .uuid, x => (toUuid x).map .uuid
  | .maxStr n, x => (toStr fl n x).map .str
  | .vector _ _, _ => .error .notImplementedError

/-- The second function of an entry of RDF_DATATYPES, dt:128-135 and 156. -/
def convFrom (fl : Fl F) : Conv → Val F → Except PyErr (Atom F)
  | .basic .bool, x => .ok (.bool (pyBool fl x))
  | .basic .int, x => (toInt fl x).map .int
  | .basic .float, x => (toFloat fl x).map .float
  | .basic .string, x => .ok (.str (pyStr fl x))
  | .basic .uuid, x => .ok (.str (pyStr fl x))
  | .maxStr _, x => .ok (.str (pyStr fl x))
  | .vector _ _, _ => .error .notImplementedError

/-- `convert_to`, dt:12-30, and `convert_to_datatype`, attribute.py:66-75. -/
def convertTo (fl : Fl F) (dt : Option Text) (x : Val F) : Except PyErr (Atom F) := match getPython dt with
  | .ok c => convTo fl c x
  | .error e => .error e

/-- `convert_from`, dt:33-50, and `convert_to_basic_type`, attribute.py:77-86. -/
def convertFrom (fl : Fl F) (dt : Option Text) (x : Val F) : Except PyErr (Atom F) := match getPython dt with
  | .ok c => convFrom fl c x
  | .error e => .error e

/-- The value rdflib finds for a text with a datatype (`_castLexicalToPython`): an unreadable text has no value, nor has a datatype rdflib does not know. rdflib; models nothing in
/repo. -/
def cast (fl : Fl F) (dt : Option Text) (t : Text) : Option (Atom F) := match dt with
  | none => some (.str t)
  | some d =>
    if d = Basic.string.iri then some (.str t)
    else if d = Basic.bool.iri then some (.bool (t.map Char.toLower == "true".toList || t == "1".toList))
    else if d = Basic.int.iri then (pyInt t).map .int
    else if d = Basic.float.iri then (fl.parse t).map .float
    else none

/-- The lexical form rdflib writes (`_castPythonToLiteral`). rdflib; models nothing in /repo. -/
def lexical (fl : Fl F) : Atom F → Text
  | .bool b => if b then "true".toList else "false".toList
  | a => atomStr fl a

/-- `rdflib.Literal(text, datatype=dt)`: the text is read and, if it has a value, written in the normal form of the value. rdflib; models nothing in /repo. -/
def litOfText (fl : Fl F) (dt : Option Text) (t : Text) : Lit F := match cast fl dt t with
  | some a => ⟨lexical fl a, dt, some a⟩
  | none => ⟨t, dt, none⟩

/-- `rdflib.Literal(value, datatype=dt)`. rdflib; models nothing in /repo. -/
def mkLit (fl : Fl F) (dt : Option Text) : Atom F → Lit F
  | .str t => litOfText fl dt t
  | a => ⟨lexical fl a, dt, some a⟩

/-- `literal.toPython()`: the value, or the literal itself. rdflib; models nothing in /repo. -/
def toPython (l : Lit F) : Val F := match l.val with
  | some a => .atom a
  | none => .lit l

/-! ### reading and writing an attribute -/

/-- A CUDS object as far as one needs it here: the literals of its attributes (the triples of its graph with its IRI as subject) and how often its session was told about a read and an
update. cuds.py 62-82, 806-848. -/
structure Obj (F : Type) where
  graph : List (Text × Lit F)
  reads : Nat
  updates : Nat

/-- An attribute: its IRI and its datatype. Modelling device for attribute.py 40-65. -/
structure Attr where
  iri : Text
  dt : Option Text

/-- `graph.set`: the old triples with that predicate go, the new one comes. rdflib; models nothing in /repo. -/
def gset (g : List (Text × Lit F)) (p : Text) (l : Lit F) : List (Text × Lit F) := g.filter (fun x => x.1 != p) ++ [(p, l)]

/-- `__setattr__`, cuds.py:836-848, for a name that belongs to an attribute of the class (`attr`): the session is told about the read, then the value is converted, then stored. -/
def setattr (fl : Fl F) (o : Obj F) (a : Attr) (x : Val F) : Except PyErr Unit × Obj F :=
  let o := { o with reads := o.reads + 1 }
  match convertTo fl a.dt x with
  | .error e => (.error e, o)
  | .ok v => (.ok (), { o with graph := gset o.graph a.iri (mkLit fl a.dt v), updates := o.updates + 1 })

/-- `__getattr__`, cuds.py:806-810. An attribute without a value is an AttributeError: `None` has no `toPython`. -/
def getattr (o : Obj F) (a : Attr) : Except PyErr (Val F) × Obj F :=
  let o := { o with reads := o.reads + 1 }
  match o.graph.find? (fun x => x.1 == a.iri) with
  | some (_, l) => (.ok (toPython l), o)
  | none => (.error .attributeError, o)

/-- The attributes of a new object, cuds.py:70-76: converted and added one by one. -/
def initAttrs (fl : Fl F) : List (Attr × Val F) → Except PyErr (List (Text × Lit F))
  | [] => .ok []
  | (a, x) :: l => match convertTo fl a.dt x with
    | .error e => .error e
    | .ok v => match initAttrs fl l with
      | .error e => .error e
      | .ok g => .ok ((a.iri, mkLit fl a.dt v) :: g)

/-! ### the uid of a new object -/

/-- The uid of a new object, cuds.py:64-66, if one is given: a UUID, and not zero. -/
def newUid (x : Val F) : Except PyErr Nat := match toUuid x with
  | .error e => .error e
  | .ok u => if u = 0 then .error .valueError else .ok u

/-! ### sqlite -/

/-- A cell of a table. sqlite; models nothing in /repo. -/
inductive Cell (F : Type) where
  | null
  | int (i : Int)
  | real (f : F)
  | text (t : Text)

/-- Binding a value as a parameter and storing it in a column: a bool is a number, numbers have 64 bits, a text that looks like a number becomes one in a column that is not a text column (here: a
REAL column, the only other kind that gets texts). sqlite and Python's sqlite3; models nothing in /repo. -/
def store (fl : Fl F) (aff : Sql.Affinity) : Atom F → Except PyErr (Cell F)
  | .bool b => .ok (.int (if b then 1 else 0))
  | .int i => if - 2 ^ 63 ≤ i ∧ i < 2 ^ 63 then .ok (.int i) else .error .overflowError
  | .float f => match fl.real f with
    | some f => .ok (.real f)
    | none => .ok .null
  | .str t => match aff with
    | .text => .ok (.text t)
    | _ => if Sql.numLiteral t then match fl.parse t with
        | some f => .ok (.real f)
        | none => .ok (.text t)
      else .ok (.text t)
  | .uuid _ => .error .exception

/-- A selected cell. Python's sqlite3; models nothing in /repo. -/
def fetch : Cell F → Val F
  | .null => .none
  | .int i => .atom (.int i)
  | .real f => .atom (.float f)
  | .text t => .atom (.str t)

/-- The datatype of the column that takes the literal, `_determine_table`, sql_wrapper_session.py:149-175: the datatype of the literal; an untyped literal (of an attribute without datatype) goes to the
strings. Some datatypes have no table, sql_util.py:202-226. -/
def column (dt : Option Text) : Except PyErr Text :=
  let d := dt.getD Basic.string.iri
  match Sql.dataTableName d with
  | .error e => .error e
  | .ok _ => .ok d

/-- Committing the literal of an attribute and loading it again: the table, `toPython` (sql_wrapper_session.py:316), `convert_from` (525-526), the INSERT in a column of the type of
sqlite_session.py:220-247, the SELECT, `convert_to` (sql_util.py:459-463), and the new literal (sql_wrapper_session.py:275). The datatype found from the name of the table is the one the table was made for
(C37). -/
def throughSqlite (fl : Fl F) (l : Lit F) : Except PyErr (Lit F) := match column l.dt with
  | .error e => .error e
  | .ok d => match convertFrom fl (some d) (toPython l) with
    | .error e => .error e
    | .ok v => match Sql.sqliteType (some d) with
      | .error e => .error e
      | .ok aff => match store fl aff v with
        | .error e => .error e
        | .ok c => match convertTo fl (some d) (fetch c) with
          | .error e => .error e
          | .ok v => .ok (mkLit fl (some d) v)

/-- Writing the literal in a file or a message and reading it again, as text with a datatype (rdflib; `_to_cuds_object`, transport_utils.py:303-342). -/
def throughText (fl : Fl F) (l : Lit F) : Lit F := litOfText fl l.dt l.lex

end Osp.Value
