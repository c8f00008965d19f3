import Verif.Camel.Model
/-!
# What the converter should do (C77): specification
-/
namespace Osp.Camel

open Osp.Yaml Osp.Names

/-- `n` is defined in the ontology with these superclasses. Specification. -/
def Defined (orig : Entries) (n : Text) (l : List Yaml) : Prop := ∃ e, get orig n = some (.dict e) ∧ get e "subclass_of".toList = some (.list l)

/-- The names of cuba with a fixed spelling. Specification. -/
def cubaWords : List Text := cubaEntity :: cubaLower ++ cubaUpper

/-- The entity is a relationship or an attribute, so that its name begins with a small letter: it is one of the relationships and attributes of cuba, or an entity of another
namespace that the user says is no class, or an entity of this ontology, none of whose superclasses is a class expression, that has a superclass which is a relationship or
attribute. `ans w`: the user says that `w` is a class. Specification. -/
inductive IsProp (ns : Text) (orig : Entries) (ans : Text → Bool) : Text → Prop where
  | cuba {w} : w ∈ cubaLower → IsProp ns orig ans w
  | foreign {p n} : '.' ∉ p → '.' ∉ n → p ++ '.' :: n ∉ cubaWords → lower p ≠ ns → ans (p ++ '.' :: n) = false → IsProp ns orig ans (p ++ '.' :: n)
  | own {p n} : '.' ∉ p → '.' ∉ n → p ++ '.' :: n ∉ cubaWords → lower p = ns → IsProp ns orig ans n → IsProp ns orig ans (p ++ '.' :: n)
  | super {n l w} : '.' ∉ n → Defined orig n l → (∀ x ∈ l, isDict x = false) → .str w ∈ l → IsProp ns orig ans w → IsProp ns orig ans n

/-- A name in camel case: the underscores go away, the letters after them are capitals, all others are small; the first letter is a capital if `up`. Specification. -/
def camel (up : Bool) : Text → Text
  | [] => []
  | c :: t => (if up then c.toUpper else c.toLower) :: (match splitOn '_' t with
    | [] => []
    | w :: ws => lower w ++ (ws.map capital).flatten)

open Classical in
/-- The new name of a (qualified) entity name. Specification. -/
noncomputable def newName (ns : Text) (orig : Entries) (ans : Text → Bool) (w : Text) : Text :=
  match splitOn '.' w with
  | [p, n] => lower p ++ '.' :: camel (decide (¬ IsProp ns orig ans w)) n
  | _ => camel (decide (¬ IsProp ns orig ans w)) w

/-- A text that stands for an entity is renamed, any other stays. Specification. -/
def renameText (f : Text → Text) (top : Bool) (t : Text) : Text :=
  if t = cubaEntity then "cuba.Entity".toList else if (pattern top).matches t then f t else t

mutual
/-- The document in which every (qualified) entity name in a list, as a key, or as the value of a key that is no such name is renamed. Specification. -/
def rename (f : Text → Text) (top : Bool) : Yaml → Yaml
  | .list l => .list (renameL f top l)
  | .dict l => .dict (dictOf (renameE f top l))
  | d => d
/-- Specification. -/
def renameL (f : Text → Text) (top : Bool) : List Yaml → List Yaml
  | [] => []
  | .str t :: l => .str (renameText f top t) :: renameL f top l
  | x :: l => rename f false x :: renameL f top l
/-- Specification. -/
def renameE (f : Text → Text) (top : Bool) : List (Yaml × Yaml) → List (Yaml × Yaml)
  | [] => []
  | (.str k, v) :: l =>
    (if (pattern top).matches k then (.str (f k), rename f false v) else (.str k, match v with
      | .str t => .str (renameText f top t)
      | v => rename f false v)) :: renameE f top l
  | (k, v) :: l =>
    (k, match v with
      | .str t => .str (renameText f top t)
      | v => rename f false v) :: renameE f top l
end

/-- The answers of a user who says of every entity what he said when he was asked. Specification. -/
def Agrees (ans : Text → Bool) (s : Asked) : Prop := ∀ e ∈ s, ans e.1 = e.2

/-! ### which entities can be spelled -/

/-- The superclasses can be followed from `w` to entities of cuba or of other namespaces in at most `k` steps (a step leads from a qualified name to the name, or from the name to a
superclass): every entity of this ontology on the way is defined. Specification. -/
inductive Reaches (ns : Text) (orig : Entries) : Nat → Text → Prop where
  | cuba {k w} : w ∈ cubaWords → Reaches ns orig k w
  | foreign {k p n} : '.' ∉ p → '.' ∉ n → lower p ≠ ns → Reaches ns orig k (p ++ '.' :: n)
  | own {k p n} : '.' ∉ p → '.' ∉ n → lower p = ns → Reaches ns orig k n → Reaches ns orig (k + 1) (p ++ '.' :: n)
  | super {k n l} : '.' ∉ n → Defined orig n l → (∀ x ∈ l, isDict x = true ∨ isStr x = true) → (∀ w, .str w ∈ l → Reaches ns orig k w) → Reaches ns orig (k + 1) n

mutual
/-- The entity names that are renamed in a document. Specification. -/
def mentions (top : Bool) : Yaml → List Text
  | .list l => mentionsL top l
  | .dict l => mentionsE top l
  | _ => []
/-- Specification. -/
def mentionsL (top : Bool) : List Yaml → List Text
  | [] => []
  | .str t :: l => (if t ≠ cubaEntity ∧ (pattern top).matches t = true then [t] else []) ++ mentionsL top l
  | x :: l => mentions false x ++ mentionsL top l
/-- Specification. -/
def mentionsE (top : Bool) : List (Yaml × Yaml) → List Text
  | [] => []
  | (.str k, v) :: l =>
    (if (pattern top).matches k then k :: mentions false v else match v with
      | .str t => if t ≠ cubaEntity ∧ (pattern top).matches t = true then [t] else []
      | v => mentions false v) ++ mentionsE top l
  | (_, v) :: l =>
    (match v with
      | .str t => if t ≠ cubaEntity ∧ (pattern top).matches t = true then [t] else []
      | v => mentions false v) ++ mentionsE top l
end

end Osp.Camel
