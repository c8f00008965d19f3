import Verif.Yaml.Model
import Verif.Names.Words
/-!
# Model of the converter of old ontologies, `osp/core/tools/yaml2camelcase.py` (C77; cited as y2c:)

A document is what `yaml.safe_load` returns (`Osp.Yaml.Yaml`), as a tree. The user who answers the questions is any sequence of answers: the n-th question gets the n-th answer,
whatever the question is. Upper and lower case are those of ASCII. `limit` is the number of nested calls Python allows before RecursionError.

Simplifications. `subclass_of` must be a list; other values that Python can iterate over (a text is read letter by letter) count as TypeError, as do superclasses that are neither
a text nor a dictionary. `ontology` must be a dictionary, `namespace` a text and `requirements` a list; otherwise the model raises. Reading and writing the files is not modelled.
-/
namespace Osp.Camel

open Osp.Yaml Osp.Names

/-- How a conversion ends without result. Modelling device. -/
inductive Fail where
  | raised (e : PyErr)
  | recursion
  deriving DecidableEq

/-- Modelling device. -/
abbrev Run := Except Fail

/-- `[A-Z]` or `_`, y2c:21. -/
def isCap (c : Char) : Bool := ('A' ≤ c && c ≤ 'Z') || c == '_'
/-- `[A-Z]|[0-9]|_`, y2c:21. -/
def isCapChar (c : Char) : Bool := isCap c || ('0' ≤ c && c ≤ '9')
/-- `entity_name_regex`, y2c:21. -/
def capsRe : Re := .seq (.cls isCap) (.star (.cls isCapChar))
/-- `entity_name_pattern`, y2c:22. -/
def namePat : Rx := .whole capsRe
/-- `qualified_entity_name_pattern`, y2c:23-25. -/
def qualifiedPat : Rx := .whole (.seq capsRe (.seq (.chr '.') capsRe))

/-- The pattern of `convert_nested_doc`: the one for names at the top (y2c:58), the one for qualified names below (y2c:60). -/
def pattern (top : Bool) : Rx := if top then namePat else qualifiedPat

/-- `"CUBA.ENTITY"`, y2c:71, 84, 134. -/
def cubaEntity : Text := "CUBA.ENTITY".toList

/-- y2c:128-131. -/
def cubaLower : List Text :=
  ["CUBA.RELATIONSHIP".toList, "CUBA.ACTIVE_RELATIONSHIP".toList, "CUBA.PASSIVE_RELATIONSHIP".toList, "CUBA.ATTRIBUTE".toList, "CUBA.PATH".toList]
/-- y2c:132. -/
def cubaUpper : List Text := ["CUBA.WRAPPER".toList, "CUBA.NOTHING".toList, "CUBA.FILE".toList]

/-- The converter without its record of answers: `namespace`, `orig_onto_doc` (y2c:37-47), the answers of the user and the recursion limit. -/
structure Conv where
  ns : Text
  orig : Entries
  answers : Nat → Bool
  limit : Nat

/-- `ambiguity_resolution`, y2c:47: the questions answered so far, in order. -/
abbrev Asked := List (Text × Bool)

/-- The recorded answer. Python itself; models nothing in /repo. -/
def recorded (s : Asked) (w : Text) : Option Bool := (s.find? (fun e => e.1 == w)).map (·.2)

/-- y2c:143-148: the recorded answer, otherwise the next answer of the user, which is recorded. -/
def ask (C : Conv) (w : Text) (s : Asked) : Bool × Asked :=
  match recorded s w with
  | some b => (b, s)
  | none => (C.answers s.length, s ++ [(w, C.answers s.length)])

/-- `isinstance(subclass, dict)`, y2c:155. -/
def isDict : Yaml → Bool
  | .dict _ => true
  | _ => false

/-- `self.orig_onto_doc[word][SUPERCLASSES_KEY]`, y2c:151-154. -/
def superclasses (C : Conv) (n : Text) : Run (List Yaml) :=
  match get C.orig n with
  | none => .error (.raised .valueError)
  | some (.dict e) => match get e "subclass_of".toList with
    | none => .error (.raised .keyError)
    | some (.list l) => .ok l
    | some _ => .error (.raised .typeError)
  | some _ => .error (.raised .typeError)

/-- `any(self.get_first_letter_caps(subclass, True) is b for subclass in subclasses)`, y2c:157-162; `f` is the recursive call. -/
def anyIs (f : Text → Asked → Run (Option Bool × Asked)) (b : Bool) : List Yaml → Asked → Run (Bool × Asked)
  | [], s => .ok (false, s)
  | .str w :: l, s => match f w s with
    | .error e => .error e
    | .ok (r, s1) => if r = some b then .ok (true, s1) else anyIs f b l s1
  | _ :: _, _ => .error (.raised .typeError)

/-- `get_first_letter_caps`, y2c:112-164; the first argument counts the calls Python still allows. -/
def caps (C : Conv) : Nat → Bool → Text → Asked → Run (Option Bool × Asked)
  | 0, _, _, _ => .error .recursion
  | k + 1, internal, w, s =>
    if w ∈ cubaLower then .ok (some false, s)
    else if w ∈ cubaUpper then .ok (some true, s)
    else if w = cubaEntity then .ok (if internal then none else some true, s)
    else if '.' ∈ w then
      match splitOn '.' w with
      | [ns, name] =>
        if lower ns = C.ns then
          match caps C k true name s with
          | .error e => .error e
          | .ok (x, s1) => .ok (if x = none ∧ internal = false then some true else x, s1)
        else .ok (some (ask C w s).1, (ask C w s).2)
      | _ => .error (.raised .valueError)
    else
      match superclasses C w with
      | .error e => .error e
      | .ok l =>
        if l.any isDict then .ok (some true, s)
        else match anyIs (caps C k true) false l s with
          | .error e => .error e
          | .ok (true, s1) => .ok (some false, s1)
          | .ok (false, s1) => match anyIs (caps C k true) true l s1 with
            | .error e => .error e
            | .ok (true, s2) => .ok (some true, s2)
            | .ok (false, s2) => .ok (if internal then none else some true, s2)

/-- y2c:181-190: the first letter and the loop over the others. -/
def spell (up : Bool) : Text → Run Text
  | [] => .error (.raised .indexError)
  | c :: t => .ok ((if up then c.toUpper else c.toLower) :: camelTail false t)

/-- `toCamelCase`, y2c:166-191. -/
def toCamelCase (C : Conv) (w : Text) (s : Asked) : Run (Text × Asked) :=
  match caps C C.limit false w s with
  | .error e => .error e
  | .ok (r, s1) =>
    if '.' ∈ w then
      match splitOn '.' w with
      | ns :: name :: _ => match spell (r == some true) name with
        | .error e => .error e
        | .ok t => .ok (lower ns ++ '.' :: t, s1)
      | _ => .error (.raised .indexError)
    else match spell (r == some true) w with
      | .error e => .error e
      | .ok t => .ok (t, s1)

/-- `new[key] = value`. Python itself; models nothing in /repo. -/
def put (l : Entries) (e : Yaml × Yaml) : Entries :=
  match e.1 with
  | .str k => if l.any (fun x => isKey k x.1) then l.map (fun x => if isKey k x.1 then (x.1, e.2) else x) else l ++ [e]
  | _ => l ++ [e]

/-- `new = dict()` and the assignments `new[…] = …`, y2c:80-92. -/
def dictOf (l : Entries) : Entries := l.foldl put []

/-- How a text in a list or after a key is converted, y2c:71-75, 84-88. -/
def leaf (C : Conv) (top : Bool) (t : Text) (s : Asked) : Run (Yaml × Asked) :=
  if t = cubaEntity then .ok (.str "cuba.Entity".toList, s)
  else if (pattern top).matches t then (toCamelCase C t s).map (fun r => (.str r.1, r.2))
  else .ok (.str t, s)

/-- An element of a list, y2c:71-77, or the value of a key that is not renamed, y2c:84-91; `rec` is the recursive call on it. -/
def item (C : Conv) (top : Bool) (x : Yaml) (s : Asked) (rec : Run (Yaml × Asked)) : Run (Yaml × Asked) :=
  match x with
  | .str t => leaf C top t s
  | _ => rec

/-- `isinstance(key, str) and pattern.match(key)`, y2c:82. -/
def keyName (top : Bool) (k : Yaml) : Option Text :=
  match k with
  | .str t => if (pattern top).matches t then some t else none
  | _ => none

/-- An entry of a dictionary, y2c:82-91; `rec` is the recursive call on the value. -/
def entry (C : Conv) (top : Bool) (k v : Yaml) (s : Asked) (rec : Asked → Run (Yaml × Asked)) : Run ((Yaml × Yaml) × Asked) :=
  match keyName top k with
  | some t => match toCamelCase C t s with
    | .error e => .error e
    | .ok (t', s1) => match rec s1 with
      | .error e => .error e
      | .ok (v', s2) => .ok ((.str t', v'), s2)
  | none => match item C top v s (rec s) with
    | .error e => .error e
    | .ok (v', s1) => .ok ((k, v'), s1)

mutual
/-- `convert_nested_doc`, y2c:60-94: the new contents of the document. -/
def nested (C : Conv) (top : Bool) : Yaml → Asked → Run (Yaml × Asked)
  | .list l, s => match nestedL C top l s with
    | .error e => .error e
    | .ok (l', s1) => .ok (.list l', s1)
  | .dict l, s => match nestedE C top l s with
    | .error e => .error e
    | .ok (l', s1) => .ok (.dict (dictOf l'), s1)
  | d, s => .ok (d, s)
/-- y2c:70-77. -/
def nestedL (C : Conv) (top : Bool) : List Yaml → Asked → Run (List Yaml × Asked)
  | [], s => .ok ([], s)
  | x :: l, s => match item C top x s (nested C false x s) with
    | .error e => .error e
    | .ok (x', s1) => match nestedL C top l s1 with
      | .error e => .error e
      | .ok (l', s2) => .ok (x' :: l', s2)
/-- y2c:81-92; the entries in the order in which they are put into the new dictionary. -/
def nestedE (C : Conv) (top : Bool) : List (Yaml × Yaml) → Asked → Run (List (Yaml × Yaml) × Asked)
  | [], s => .ok ([], s)
  | (k, v) :: l, s => match entry C top k v s (nested C false v) with
    | .error e => .error e
    | .ok (e', s1) => match nestedE C top l s1 with
      | .error e => .error e
      | .ok (l', s2) => .ok (e' :: l', s2)
end

/-- `[x.lower() for x in …]`, y2c:54-55; values without `lower` raise AttributeError. -/
def lowerAll : List Yaml → Run (List Yaml)
  | [] => .ok []
  | .str t :: l => match lowerAll l with
    | .error e => .error e
    | .ok l' => .ok (.str (lower t) :: l')
  | _ :: _ => .error (.raised .attributeError)

/-- The document with the keys of `convert`, y2c:49-58. -/
def nsKey : Text := "namespace".toList
/-- `REQUIREMENTS_KEY`, yml_keywords.py 7, y2c:53. -/
def reqKey : Text := "requirements".toList
/-- `ONTOLOGY_KEY`, yml_keywords.py 5, y2c:44. -/
def ontoKey : Text := "ontology".toList

/-- `__init__`, y2c:37-47. -/
def init (answers : Nat → Bool) (limit : Nat) (doc : Entries) : Run Conv :=
  match get doc ontoKey, get doc nsKey with
  | some (.dict o), some (.str ns) => .ok ⟨lower ns, o, answers, limit⟩
  | none, _ => .error (.raised .keyError)
  | _, none => .error (.raised .keyError)
  | some _, some _ => .error (.raised .attributeError)

/-- `convert`, y2c:49-58, after `__init__`: the new document and the record of the answers. -/
def convert (answers : Nat → Bool) (limit : Nat) (doc : Entries) : Run (Entries × Asked) :=
  match init answers limit doc with
  | .error e => .error e
  | .ok C =>
    match (match get doc reqKey with
      | none => .ok (put doc (.str nsKey, .str C.ns))
      | some (.list l) => match lowerAll l with
        | .error e => .error e
        | .ok l' => .ok (put (put doc (.str nsKey, .str C.ns)) (.str reqKey, .list l'))
      | some _ => .error (.raised .typeError) : Run Entries) with
    | .error e => .error e
    | .ok doc1 => match nested C true (.dict C.orig) [] with
      | .error e => .error e
      | .ok (o, s) => .ok (put doc1 (.str ontoKey, o), s)

end Osp.Camel
