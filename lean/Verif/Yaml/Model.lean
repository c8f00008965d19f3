import Verif.Yaml.Regex
/-!
# Model of the YAML ontology validator (C55)

`osp/core/ontology/yml/yml_validator.py` (cited as val:), `yml_keywords.py` (kw:).

A document is what `yaml.safe_load` returns, as a tree (a document that contains itself through anchors is not modelled). Floats are represented by their `repr`. Dictionaries are
lists of entries in order; a key is looked up as a text.
-/
namespace Osp.Yaml

/-- A YAML value; `other` is any value that is none of the listed Python types (dates, bytes, sets). PyYAML; nothing in /repo. -/
inductive Yaml where
  | null
  | bool (b : Bool)
  | int (i : Int)
  | float (repr : Text)
  | str (t : Text)
  | list (l : List Yaml)
  | dict (l : List (Yaml × Yaml))
  | other

/-- PyYAML; nothing in /repo. -/
abbrev Entries := List (Yaml × Yaml)

mutual
/-- How deep a document is nested. Proof device; nothing in /repo. -/
def depth : Yaml → Nat
  | .list l => depthL l + 1
  | .dict l => depthE l + 1
  | _ => 0
/-- Proof device; nothing in /repo. -/
def depthL : List Yaml → Nat
  | [] => 0
  | x :: l => max (depth x) (depthL l)
/-- Proof device; nothing in /repo. -/
def depthE : List (Yaml × Yaml) → Nat
  | [] => 0
  | (k, v) :: l => max (max (depth k) (depth v)) (depthE l)
end

/-- `str(i)` for an integer. Python itself; models nothing in /repo. -/
def intText (i : Int) : Text := if i < 0 then '-' :: dec i.natAbs else dec i.natAbs

/-- `str(doc)` if `isinstance(doc, (str, int, float))`, val:101-103 (`bool` is a subclass of `int`). -/
def Yaml.text : Yaml → Option Text
  | .bool true => some "True".toList
  | .bool false => some "False".toList
  | .int i => some (intText i)
  | .float t => some t
  | .str t => some t
  | _ => none

/-- The key of an entry is this text. Python itself; models nothing in /repo. -/
def isKey (k : Text) : Yaml → Bool
  | .str t => t == k
  | _ => false

/-- `doc[k]` for a text. Python itself; models nothing in /repo. -/
def get (l : Entries) (k : Text) : Option Yaml := (l.find? (fun e => isKey k e.1)).map (·.2)

/-- `bool(doc) == doc`, val:129-135 for `bool`. -/
def isBool : Yaml → Bool
  | .bool _ => true
  | .int i => i == 0 || i == 1
  | .float t => t == "0.0".toList || t == "-0.0".toList || t == "1.0".toList
  | _ => false

/-- `str(doc) == doc`, val:129-135 for `str`. -/
def isStr : Yaml → Bool
  | .str _ => true
  | _ => false

/-- A pattern, val:92-135. -/
inductive Pat where
  /-- `None` -/
  | any
  /-- the name of a format -/
  | named (f : Text)
  | regex (r : Rx)
  /-- `[p]` -/
  | items (p : Pat)
  /-- `{k: v}` -/
  | entries (k v : Pat)
  | str
  | bool

/-- A format description, val:150-177: a list of alternatives, or a dictionary of keys (a leading exclamation mark makes the key mandatory). -/
inductive Format where
  | alts (ps : List Pat)
  | keys (ks : List (Text × Pat))

/-- yml_validator.py 25-75. -/
abbrev Table := List (Text × Format)

/-- `format_description[name]`. Python itself; models nothing in /repo. -/
def Table.find (T : Table) (f : Text) : Option Format := (T.find? (fun e => e.1 == f)).map (·.2)

/-- Modelling device. -/
abbrev Res := Except PyErr Unit

/-- A loop that stops at the first exception. Python itself; models nothing in /repo. -/
def each {α : Type} (f : α → Res) : List α → Res
  | [] => .ok ()
  | x :: l => match f x with
    | .ok () => each f l
    | .error e => .error e

/-- val:151-157: every alternative is tried; the number of those that failed with a ValueError. -/
def tryAll (v : Pat → Res) : List Pat → Nat → Except PyErr Nat
  | [], k => .ok k
  | p :: ps, k => match v p with
    | .ok () => tryAll v ps k
    | .error .valueError => tryAll v ps (k + 1)
    | .error e => .error e

/-- `key[1:]` if the key starts with an exclamation mark, val:168-169. -/
def bare : Text → Text
  | '!' :: k => k
  | k => k

/-- `key.startswith("!")`, val:168. -/
def mandatory : Text → Bool
  | '!' :: _ => true
  | _ => false

/-- One turn of the loop over the keys, val:167-174. -/
def checkKey (v : Yaml → Pat → Res) (l : Entries) (kp : Text × Pat) : Res :=
  match get l (bare kp.1) with
  | none => if mandatory kp.1 then .error .valueError else .ok ()
  | some x => v x kp.2

/-- val:175-177: the key of an entry is one of the allowed keys. -/
def allowed (ks : List (Text × Pat)) (e : Yaml × Yaml) : Res :=
  if ks.any (fun kp => isKey (bare kp.1) e.1) then .ok () else .error .valueError

/-- `_validate_format`, val:138-177. -/
def validateFormat (v : Yaml → Pat → Res) (doc : Yaml) : Format → Res
  | .alts ps => match tryAll (v doc) ps 0 with
    | .error e => .error e
    | .ok k => if k = ps.length then .error .valueError else .ok ()
  | .keys ks => match doc with
    | .dict l => match each (checkKey v l) ks with
      | .error e => .error e
      | .ok () => each (allowed ks) l
    | _ => .error .valueError

/-- `validate`, val:78-135. `limit` bounds the depth of nested calls; beyond it Python raises a RecursionError (`runtimeError`). Log output and messages are not modelled. -/
def validate (T : Table) : Nat → Yaml → Pat → Res
  | 0, _, _ => .error .runtimeError
  | n + 1, doc, pat => match pat with
    | .any => .ok ()
    | .named f => match T.find f with
      | none => .error .keyError
      | some d => validateFormat (validate T n) doc d
    | .regex r => match doc.text with
      | none => .error .valueError
      | some t => if r.matches t then .ok () else .error .valueError
    | .items p => match doc with
      | .list l => each (fun x => validate T n x p) l
      | _ => .error .valueError
    | .entries k v => match doc with
      | .dict l => each (fun e => match validate T n e.1 k with
        | .ok () => validate T n e.2 v
        | .error x => .error x) l
      | _ => .error .valueError
    | .str => if isStr doc then .ok () else .error .valueError
    | .bool => if isBool doc then .ok () else .error .valueError

/-! ### the format of YAML ontologies, val:17-75 -/

/-- `[a-zA-Z]`. yml_validator.py 9-22. -/
def isLetter (c : Char) : Bool := ('a' ≤ c && c ≤ 'z') || ('A' ≤ c && c ≤ 'Z')
/-- `[0-9]`. yml_validator.py 9-22. -/
def isDig (c : Char) : Bool := '0' ≤ c && c ≤ '9'
/-- `[a-zA-Z]|[0-9]|_`. yml_validator.py 9-22. -/
def isNameChar (c : Char) : Bool := isLetter c || isDig c || c == '_'

/-- `entity_name_regex`, `namespace_name_regex`, val:17-18. -/
def nameRe : Re := .seq (.cls isLetter) (.star (.cls isNameChar))
/-- `entity_name_pattern`, val:20. -/
def entityName : Rx := .whole nameRe
/-- `namespace_name_pattern`, val:19: without anchors. -/
def namespaceName : Rx := .start nameRe
/-- `qualified_entity_name_pattern`, val:21-22. -/
def qualifiedName : Rx := .whole (.seq nameRe (.seq (.chr '.') nameRe))

/-- `CHARACTERISTICS`, kw:31-39. -/
def characteristics : List Text :=
  ["reflexive".toList, "symmetric".toList, "transitive".toList, "functional".toList, "irreflexive".toList, "asymmetric".toList, "inversefunctional".toList]
/-- `DATATYPES`, kw:41-47. -/
def datatypes : List Text := ["BOOL".toList, "INT".toList, "FLOAT".toList, "STRING".toList, "VECTOR".toList]

section
/- `\d`: which characters are digits in Python's sense; only that it is some class of characters matters here. -/
variable (dig : Char → Bool)

/-- `\d+`. yml_validator.py 9-22. -/
def digits : Re := .plus (.cls dig)

/-- val:51: `^\d+\.\d+(\.\d+)?$` -/
def versionRx : Rx := .whole (.seq (digits dig) (.seq (.chr '.') (.seq (digits dig) (.opt (.seq (.chr '.') (digits dig))))))

/-- val:45-46: `^(VECTOR:)?(...)(:\d+)*$` -/
def datatypeRx : Rx := .whole (.seq (.opt (.word "VECTOR:".toList)) (.seq (.words datatypes) (.star (.seq (.chr ':') (digits dig)))))

/-- val:69: `^(many|some|\*|\+|\?|\d+\+|\d+-\d|\d+)$` -/
def cardinalityRx : Rx :=
  .whole (.alt (.words ["many".toList, "some".toList, "*".toList, "+".toList, "?".toList]) (.alt (.seq (digits dig) (.chr '+')) (.alt (.seq (digits dig) (.seq (.chr '-') (.cls dig))) (digits dig))))

/-- yml_validator.py 25-75. -/
def classExpression : Pat := .named "class_expression".toList

/-- `entity_common_keys`, val:24-27. -/
def commonKeys : List (Text × Pat) := [("description".toList, .str), ("!subclass_of".toList, .items classExpression)]
/-- `class_definition`, val:29-33. -/
def classKeys : List (Text × Pat) :=
  [("attributes".toList, .entries (.regex qualifiedName) .any), ("disjoint_with".toList, .items classExpression), ("equivalent_to".toList, .items classExpression)]
/-- `relationship_definition`, val:35-41. -/
def relationshipKeys : List (Text × Pat) :=
  [("inverse".toList, .regex qualifiedName), ("default_rel".toList, .bool), ("domain".toList, classExpression), ("range".toList, classExpression),
   ("characteristics".toList, .items (.regex (.whole (.words characteristics))))]
/-- `attribute_definition`, val:43-46. -/
def attributeKeys : List (Text × Pat) := [("datatype".toList, .regex (datatypeRx dig))]

/-- `format_description`, val:48-75. -/
def formats : Table :=
  [("/".toList, .keys [("!version".toList, .regex (versionRx dig)), ("!namespace".toList, .regex namespaceName), ("!ontology".toList, .entries (.regex entityName) (.named "entity_def".toList)),
      ("default_rel".toList, .regex qualifiedName), ("author".toList, .str), ("requirements".toList, .items (.regex entityName))]),
   ("entity_def".toList, .keys (commonKeys ++ classKeys ++ relationshipKeys ++ attributeKeys dig)),
   ("class_expression".toList, .alts [.regex qualifiedName, .entries (.regex qualifiedName) (.named "relationship_class_expression".toList),
      .entries (.regex (.whole (.words ["or".toList, "and".toList]))) (.items classExpression), .entries (.regex (.whole (.word "not".toList))) classExpression]),
   ("relationship_class_expression".toList, .keys [("!range".toList, classExpression), ("cardinality".toList, .regex (cardinalityRx dig)), ("exclusive".toList, .bool)]),
   ("class_def".toList, .keys (commonKeys ++ classKeys)),
   ("relationship_def".toList, .keys (commonKeys ++ relationshipKeys)),
   ("attribute_def".toList, .keys (commonKeys ++ attributeKeys dig))]

/-- `validate(doc)`, val:78 with the default pattern. -/
def validateDoc (limit : Nat) (doc : Yaml) : Res := validate (formats dig) limit doc (.named "/".toList)

end
end Osp.Yaml
