import Verif.Access.Model
/-!
# What the attributes of an object should do (specification of C101)
-/
namespace Osp.Access
open Osp.Onto (Name Kwargs AttrInfo)
open Osp.Value (Val Lit Fl)

variable {F P : Type}

/-- The two spellings of an attribute: as in the ontology and in lower case. Specification; nothing in /repo. -/
def Spells (n : Name) (a : OAttr) : Prop := n = a.argname ∨ n = a.argname.map Char.toLower

/-- A name stands for the first attribute of the class it spells. Specification; nothing in /repo. -/
def StandsFor (c : Cls F) (n : Name) (a : OAttr) : Prop := ∃ pre post, c.attrs.map (·.1) = pre ++ a :: post ∧ Spells n a ∧ ∀ b ∈ pre, ¬ Spells n b

/-- An ordinary name: no member of the class Cuds and no underscore in front. Specification; nothing in /repo. -/
def Ordinary (n : Name) : Prop := n ∉ properties ∧ n ∉ methods ∧ n.head? ≠ some '_'

/-- The object has this one value for the attribute. Specification; nothing in /repo. -/
def HasValue (b : Body F) (a : OAttr) (l : Lit F) : Prop := ∀ l', (a.id.iri, l') ∈ b.vals ↔ l' = l

/-- The object has no value for the attribute. Specification; nothing in /repo. -/
def NoValue (b : Body F) (a : OAttr) : Prop := ∀ l, (a.id.iri, l) ∉ b.vals

/-- No two attributes of the class share a spelling, and no two share an IRI. Specification; nothing in /repo. -/
def Distinct (c : Cls F) : Prop := c.attrs.Pairwise (fun x y => (∀ n, ¬ (Spells n x.1 ∧ Spells n y.1)) ∧ x.1.id.iri ≠ y.1.id.iri)

/-- A session that neither refreshes nor refuses, as the core session. Specification; nothing in /repo. -/
def Quiet (S : Session F) : Prop := ∀ b, S.onRead b = (.ok (), b) ∧ S.onUpdate b = .ok ()

/-- The Python attributes of an object that the user put there have an underscore. Specification; nothing in /repo. -/
def Fine (o : Obj F P) : Prop := ∀ e ∈ o.plain, e.1.head? = some '_' ∧ e.1 ∉ properties

/-- An assignment that changes the attribute: an ordinary name that stands for it, and a value its datatype accepts. Specification; nothing in /repo. -/
def Changes (fl : Fl F) (c : Cls F) (a : OAttr) : Op F P → Prop
  | .set n x => n.head? ≠ some '_' ∧ ∃ b v, StandsFor c n b ∧ b.id.iri = a.id.iri ∧ Value.convertTo fl b.id.dt x.val = .ok v
  | _ => False

/-- What the constructor is given for an attribute: the keyword with its spelling, else the one in lower case, else the default. Specification; nothing in /repo. -/
def Argument (kw : Kwargs (Val F)) (a : OAttr) (i : AttrInfo (Val F)) : Option (Val F) :=
  ((kw.lookup a.argname).or (kw.lookup (a.argname.map Char.toLower))).or i.default

/-- The keywords left for attributes: all but the parameters of the constructor. Specification; nothing in /repo. -/
def Keywords (kw : Kwargs (Val F)) : Kwargs (Val F) := kw.filter (fun e => e.1 ∉ ["uid".toList, "session".toList, "_force".toList])

/-- The keyword is the one taken for the attribute: its own spelling, or the lower case one if its own is not there. Specification; nothing in /repo. -/
def Taken (kw : Kwargs (Val F)) (k : Name) (a : OAttr) : Prop := k = a.argname ∨ (k = a.argname.map Char.toLower ∧ ∀ e ∈ kw, e.1 ≠ a.argname)

end Osp.Access
