import Verif.Value.Model
/-!
# What the values of attributes should be (specification of C90)
-/
namespace Osp.Value
open Osp.Yaml (Basic Conv getPython intStr)

variable {F : Type}

/-- The values of a datatype: BOOL a bool, INT an int, FLOAT a float, STRING a text, UUID a 128 bit number, STRING:n a text of at most n characters (no limit for n = 0). Specification; nothing in /repo. -/
inductive HasType : Conv → Atom F → Prop where
  | bool (b : Bool) : HasType (.basic .bool) (.bool b)
  | int (i : Int) : HasType (.basic .int) (.int i)
  | float (f : F) : HasType (.basic .float) (.float f)
  | string (t : Text) : HasType (.basic .string) (.str t)
  | uuid {u : Nat} : u < 2 ^ 128 → HasType (.basic .uuid) (.uuid u)
  | maxStr {n : Int} {t : Text} : n = 0 ∨ (t.length : Int) ≤ n → HasType (.maxStr n) (.str t)

/-- A UUID object has 128 bits. Specification; nothing in /repo. -/
def Sound : Val F → Prop
  | .atom (.uuid u) => u < 2 ^ 128
  | _ => True

/-- What a user sees who reads an attribute with this value: the value; for STRING:n, a datatype rdflib does not know, an untyped text. Specification; nothing in /repo. -/
def Seen (c : Conv) (v : Atom F) (x : Val F) : Prop :=
  match c with
  | .maxStr _ => ∃ l : Lit F, x = .lit l ∧ .str l.lex = v ∧ l.val = none
  | _ => x = .atom v

/-- The literal of a value with datatype: what the object holds after the value was set. Specification; nothing in /repo. -/
def Holds (o : Obj F) (a : Attr) (l : Lit F) : Prop := ∀ l', (a.iri, l') ∈ o.graph ↔ l' = l

end Osp.Value
