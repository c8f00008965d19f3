import Verif.Utils.Model
import Verif.Iri.Model
import Verif.Text
/-!
# Model of the presentations of a session
`utils/pretty_print.py` and `utils/cuds2dot.py`, on top of the session model.
-/
namespace Osp.Show
open Osp.Cuds Osp.Search Osp.Utils

/-! ### Sorting -/

/-- `<=` on Python strings: by code points. Python itself; nothing in /repo. -/
def textLe : Text → Text → Bool
  | [], _ => true
  | _ :: _, [] => false
  | a :: s, b :: t => if a.toNat < b.toNat then true else if b.toNat < a.toNat then false else textLe s t

/-- Insert before the first element that is not smaller. Python's `sorted`; nothing in /repo. -/
def insertBy {α : Type} (le : α → α → Bool) (x : α) : List α → List α
  | [] => [x]
  | y :: l => if le x y then x :: y :: l else y :: insertBy le x l

/-- `sorted`: stable. Python itself; nothing in /repo. -/
def sortBy {α : Type} (le : α → α → Bool) : List α → List α
  | [] => []
  | x :: l => insertBy le x (sortBy le l)

/-! ### pretty_print -/

/-- The texts of the ontology entities: `str(relationship)`, `str(oclass)`, `str(attribute)` and `argname`, `str(value)`; the attribute called `name`;
the lines about the class in the header. A parameter. Modelling device for pretty_print.py 20-31. -/
structure Texts where
  rel : Rel → Text
  cls : Option Cls → Text
  attr : Attr → Text
  argname : Attr → Text
  val : Val → Text
  nameAttr : Attr
  superclasses : Option Cls → List Text
  description : Option Cls → Text

/-- The things a line tells. The pieces appended to `pp_sub`, pretty_print.py 73-103. -/
inductive Content where
  | rel (x : Uid) (r : Rel)
  | obj (x : Uid) (r : Rel) (y : Uid)
  | uuid (y : Uid)
  | already (y : Uid)
  | details (y : Uid)
  deriving DecidableEq, Repr

/-- A piece of the output: indentation and content. The pieces appended to `pp_sub`, pretty_print.py 73-103. -/
structure Line where
  ind : Text
  what : Content
  deriving DecidableEq, Repr

/-- `hasattr(x, "name")`, `x.name`, pretty_print.py 45-47 and 79. -/
def nameOf (T : Texts) (O : Onto) (s : Sess) (x : Uid) : Option Text :=
  match getAttr O s x T.nameAttr with
  | .ok v => some (T.val v)
  | .error _ => none

/-- The values shown for an object, pretty_print.py 118-124: the attributes sorted by their texts, without the name. -/
def valuesOf (T : Texts) (s : Sess) (x : Uid) : List Text :=
  let items := (s.g.triples (some x) none none).filterMap fun t => match t.p, t.o with
    | .attr a, .val v => some (a, v)
    | _, _ => none
  let sorted := sortBy (fun a b => if T.attr a.1 = T.attr b.1 then textLe (T.val a.2) (T.val b.2) else textLe (T.attr a.1) (T.attr b.1)) items
  sorted.filterMap fun (a, v) => if T.argname a ≠ "name".toList then some (T.argname a ++ ": ".toList ++ T.val v) else none

/-- `sep.join(parts)`. Python itself; nothing in /repo. -/
def joinWith (sep : Text) : List Text → Text
  | [] => []
  | [t] => t
  | t :: ts => t ++ sep ++ joinWith sep ts

/-- `_pp_cuds_object_name(x, print_oclass=True)`, pretty_print.py 33-48. -/
def objName (T : Texts) (O : Onto) (s : Sess) (x : Uid) : Text :=
  "-  ".toList ++ T.cls (oclass s.g x) ++ " cuds object".toList ++ (match nameOf T O s x with
    | some n => " named <".toList ++ n ++ ">:".toList
    | none => ":".toList)

/-- The text of a piece, pretty_print.py 73-101. An object without values adds nothing. -/
def Line.text (T : Texts) (O : Onto) (s : Sess) (l : Line) : Text :=
  match l.what with
  | .rel _ r => l.ind ++ " |_Relationship ".toList ++ T.rel r ++ ":".toList
  | .obj _ _ y => l.ind ++ objName T O s y
  | .uuid y => l.ind ++ "uuid: ".toList ++ Iri.uuidStr y
  | .already _ => l.ind ++ "(already printed)".toList
  | .details y => match valuesOf T s y with
    | [] => []
    | vs => l.ind ++ joinWith l.ind vs

/-- The key of the elements: class, relationship, name, pretty_print.py 77-79. -/
def elemLe (T : Texts) (O : Onto) (s : Sess) (a b : Uid × Rel) : Bool :=
  let ca := T.cls (oclass s.g a.1); let cb := T.cls (oclass s.g b.1)
  if ca ≠ cb then textLe ca cb
  else if T.rel a.2 ≠ T.rel b.2 then textLe (T.rel a.2) (T.rel b.2)
  else match nameOf T O s a.1, nameOf T O s b.1 with
    | some x, some y => textLe x y
    | _, _ => true

/-- A name and `False` are compared: `TypeError`. pretty_print.py 77-79. -/
def mixed (T : Texts) (O : Onto) (s : Sess) (a b : Uid × Rel) : Bool :=
  T.cls (oclass s.g a.1) = T.cls (oclass s.g b.1) && T.rel a.2 = T.rel b.2 && (nameOf T O s a.1).isSome != (nameOf T O s b.1).isSome

/-- The sorted elements, pretty_print.py 75-80. Sorting compares all pairs that are adjacent in the result, so two elements that differ only in
having a name make it fail. -/
def sortedElems (T : Texts) (O : Onto) (s : Sess) (x : Uid) (r : Rel) : Except PyErr (List (Uid × Rel)) :=
  match getWithRel O s x [] (some r) none with
  | .error e => .error e
  | .ok l => if l.any (fun a => l.any (mixed T O s a)) then .error .typeError else .ok (sortBy (elemLe T O s) l)

/-- Result of a recursive function: out of fuel, an exception, or the lines and the set of printed objects. Modelling device; nothing in /repo. -/
abbrev Res := Option (Except PyErr (List Line × List Uid))

/-- Sequencing. Modelling device; nothing in /repo. -/
def Res.seq (a : Res) (k : List Uid → Res) : Res :=
  match a with
  | none => none
  | some (.error e) => some (.error e)
  | some (.ok (ls, v)) => match k v with
    | none => none
    | some (.error e) => some (.error e)
    | some (.ok (ls', v')) => some (.ok (ls ++ ls', v'))

/-- The loop over the elements of a relationship, pretty_print.py 81-103; `ind` is `indentation` as set in lines 84-87. -/
def ppElems (rec : Uid → Text → List Uid → Res) (x : Uid) (r : Rel) (ind : Text) : List (Uid × Rel) → List Uid → Res
  | [], v => some (.ok ([], v))
  | (y, r') :: es, v =>
    if r' ≠ r then ppElems rec x r ind es v
    else
      let ind' := ind ++ (if es.isEmpty then "   ".toList else ".  ".toList)
      let head := [⟨ind, .obj x r y⟩, ⟨ind', .uuid y⟩]
      if y ∈ v then Res.seq (some (.ok (head ++ [⟨ind', .already y⟩], v))) (ppElems rec x r ind es)
      else Res.seq (Res.seq (some (.ok (head ++ [⟨ind', .details y⟩], v))) (rec y ind')) (ppElems rec x r ind es)

/-- The loop over the relationships, pretty_print.py 72-103. -/
def ppRels (T : Texts) (O : Onto) (s : Sess) (rec : Uid → Text → List Uid → Res) (x : Uid) (lvl : Text) : List Rel → List Uid → Res
  | [], v => some (.ok ([], v))
  | r :: rs, v =>
    let ind := lvl ++ (if rs.isEmpty then "   ".toList else " | ".toList)
    match sortedElems T O s x r with
    | .error e => some (.error e)
    | .ok es => Res.seq (Res.seq (some (.ok ([⟨lvl, .rel x r⟩], v))) (ppElems rec x r ind es)) (ppRels T O s rec x lvl rs)

/-- The relationships of an object that are shown, pretty_print.py 66-69. -/
def activeRels (T : Texts) (O : Onto) (s : Sess) (x : Uid) : List Rel :=
  sortBy (fun a b => textLe (T.rel a) (T.rel b)) ((neighborRels s.g x).filter fun r => O.subRel r O.active)

/-- `_pp_subelements`, pretty_print.py 51-104 (fuel: the depth of the recursion). -/
def ppSub (T : Texts) (O : Onto) (s : Sess) : Nat → Uid → Text → List Uid → Res
  | 0, _, _, _ => none
  | fuel + 1, x, lvl, v => ppRels T O s (ppSub T O s fuel) x lvl (activeRels T O s x) (x :: v)

/-- The lines below the header, pretty_print.py 28 with the default indentation of line 51. -/
def ppLines (T : Texts) (O : Onto) (s : Sess) (fuel : Nat) (x : Uid) : Option (Except PyErr (List Line)) :=
  (ppSub T O s fuel x "\n  ".toList []).map fun e => match e with
    | .ok (ls, _) => .ok ls
    | .error e => .error e

/-- The header, pretty_print.py 18-27. -/
def ppHeader (T : Texts) (O : Onto) (s : Sess) (x : Uid) : Text :=
  let c := oclass s.g x
  "- Cuds object".toList ++ (match nameOf T O s x with
    | some n => " named <".toList ++ n ++ ">:".toList
    | none => ":".toList) ++
  "\n  uuid: ".toList ++ Iri.uuidStr x ++ "\n  type: ".toList ++ T.cls c ++
  "\n  superclasses: ".toList ++ joinWith ", ".toList (sortBy textLe (T.superclasses c)) ++
  (match valuesOf T s x with
    | [] => []
    | vs => "\n  values: ".toList ++ joinWith "\n          ".toList vs) ++
  "\n  description: \n    ".toList ++ T.description c ++ "\n".toList

/-- `pretty_print`: the printed text, pretty_print.py 7-30. -/
def prettyPrint (T : Texts) (O : Onto) (s : Sess) (fuel : Nat) (x : Uid) : Option (Except PyErr Text) :=
  (ppLines T O s fuel x).map fun e => match e with
    | .ok ls => .ok (ppHeader T O s x ++ ls.flatMap (Line.text T O s) ++ "\n".toList)
    | .error e => .error e

/-! ### Cuds2dot -/

/-- `shorten_uid`, cuds2dot.py 107-119. -/
def shorten (u : Uid) : Text := let t := Iri.uuidStr u; t.take 8 ++ "...".toList ++ t.drop (t.length - 3)

/-- What happens during a traversal: a link is shown, a new object is shown, an object is met again. The calls in cuds2dot.py 54-65. -/
inductive Ev where
  | edge (x : Uid) (r : Rel) (y : Uid)
  | node (y : Uid)
  | seen (y : Uid)
  deriving DecidableEq, Repr

/-- The loop over the related objects, cuds2dot.py 56-65. -/
def walkLoop (rec : Uid → List Uid → Option (List Ev × List Uid)) (x : Uid) : List (List Rel × Uid) → List Uid → Option (List Ev × List Uid)
  | [], v => some ([], v)
  | (rs, y) :: its, v =>
    if y ∈ v then match walkLoop rec x its v with
      | none => none
      | some (e, v') => some (rs.map (fun r => .edge x r y) ++ .seen y :: e, v')
    else match rec y v with
      | none => none
      | some (e, v') => match walkLoop rec x its v' with
        | none => none
        | some (e', v'') => some (rs.map (fun r => .edge x r y) ++ .node y :: (e ++ e'), v'')

/-- `_add_directly_related`, cuds2dot.py 47-65; `items` are the neighbours with the relationships to them. -/
def walk (items : Uid → List (List Rel × Uid)) : Nat → Uid → List Uid → Option (List Ev × List Uid)
  | 0, _, _ => none
  | fuel + 1, x, v => walkLoop (walk items fuel) x (items x) (x :: v)

/-- The neighbours and the relationships between, cuds2dot.py 56-59. -/
def dotItems (O : Onto) (s : Sess) (x : Uid) : List (List Rel × Uid) :=
  (children O s (some O.relationship) x).map fun y => (relationshipsBetween s x y, y)

/-- A statement of the dot file, cuds2dot.py 67-105: a node with the name of its object, drawn as the root or not; an edge between names. The texts of
labels are left out. -/
inductive Stmt where
  | node (name : Text) (x : Uid) (root : Bool)
  | edge (start stop : Text) (r : Rel)
  deriving DecidableEq, Repr

/-- `_add_node`, cuds2dot.py 67-88. -/
def addNode (root x : Uid) : Stmt := .node (shorten x) x (shorten x = shorten root)

/-- The statement an event adds, cuds2dot.py 60, 63. -/
def Ev.stmt (root : Uid) : Ev → Option Stmt
  | .edge x r y => some (.edge (shorten x) (shorten y) r)
  | .node y => some (addNode root y)
  | .seen _ => none

/-- `Cuds2dot.render` without writing the file, cuds2dot.py 38-45. -/
def dot (O : Onto) (s : Sess) (fuel : Nat) (root : Uid) : Option (List Stmt) :=
  (walk (dotItems O s) fuel root []).map fun (es, _) => addNode root root :: es.filterMap (Ev.stmt root)

end Osp.Show
