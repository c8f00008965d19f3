import Verif.Full.Model
/-!
# Specification: exported graphs
-/
namespace Osp.Full
open Persist (Facts About Known)
open Tables (Obj Uid)

/-- The triple is about a custom datatype: a datatype of the namespace cuba in the ontology, or the range of an attribute that is such a datatype. -/
def Custom (onto : Graph) (x : Triple) : Prop :=
  x ∈ onto ∧ (x.p = rdfType ∧ x.o = rdfsDatatype ∧ inCuba x.s = true ∨ x.p = rdfsRange ∧ inCuba x.o = true ∧ ⟨x.o, rdfType, rdfsDatatype⟩ ∈ onto)

/-- The subject of the triple is a CUDS object. -/
def OfObject (x : Triple) : Prop := ∃ r, x.s.str = "http://www.osp-core.com/cuds/#".toList ++ r

variable {D V : Type}

/-- What is to be exported about `u`: of an object in the session what the session has, of the others what is stored. -/
def Tr (S : Facts D V) (s : Persist.Ses D V) (u : Uid) (x : Tables.Triple D V) : Prop :=
  if u ∈ s.reg then x ∈ s.g ∧ x.s = u else About S s.root u x

/-- A relationship from `u` to `v`. -/
def Link (S : Facts D V) (s : Persist.Ses D V) (u v : Uid) : Prop := ∃ p, Tr S s u ⟨u, p, .cuds v⟩

/-- A chain of relationships. -/
inductive Reach (S : Facts D V) (s : Persist.Ses D V) (a : Uid) : Uid → Prop where
  | refl : Reach S s a a
  | step {u v : Uid} : Reach S s a u → Link S s u v → Reach S s a v

/-- An object that is neither in the session nor stored is related to an object below `a`. -/
def Dangling (S : Facts D V) (s : Persist.Ses D V) (a : Uid) : Prop := ∃ u v, Reach S s a u ∧ Link S s u v ∧ v ∉ s.reg ∧ ¬ Known S s.root v

/-- The session knows about objects it has not loaded only what is stored, the stored types of its objects are among its triples, and it has no zero uid. -/
structure Fresh (S : Facts D V) (s : Persist.Ses D V) : Prop where
  root : s.root ∈ s.reg
  root0 : s.root ≠ 0
  clash : Persist.NoClash S s.root
  others : ∀ x ∈ s.g, x.s ∉ s.reg → About S s.root x.s x
  types : ∀ x, About S s.root x.s x → x.s ∈ s.reg → (∃ i, x.o = .ent i) → x ∈ s.g
  zero : ∀ x ∈ s.g, x.o ≠ .cuds 0

end Osp.Full

namespace Osp.Full
open Persist (Facts Node)

/-- A chain of stored relationships from the wrapper. -/
inductive Below {D V : Type} (S : Facts D V) : Node → Prop where
  | root : Below S .root
  | step {f : Persist.Fact D V} {n : Node} : Below S f.s → S f → f.o = .node n → Below S n

/-- Something is stored about every object to which an object below the wrapper is related. -/
def Complete {D V : Type} (S : Facts D V) : Prop := ∀ f n, S f → Below S f.s → f.o = .node n → ∃ k, S k ∧ k.s = n

end Osp.Full
