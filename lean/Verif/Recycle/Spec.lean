import Verif.Cuds.Spec
/-!
# What changing the class and recycling do to the user's view of a session
-/
namespace Osp.Recycle
open Osp.Cuds

/-- The object `u` has the class `c` and the attribute values `vals`; the links that start at it are gone, all others stay. -/
def reclass (A : Abs) (u : Uid) (c : Cls) (vals : List (Attr × Val)) : Abs where
  cls v := if v = u then some c else A.cls v
  attr v a := if v = u then vals.lookup a else A.attr v a
  link a q b := A.link a q b ∧ a ≠ u

/-- The links between `u` and others by the relationships in `P`, and their inverses, are gone. -/
def cut (inv : Rel → Rel) (A : Abs) (u : Uid) (P : Rel → Prop) : Abs where
  cls := A.cls
  attr := A.attr
  link a q b := A.link a q b ∧ ¬ (a = u ∧ P q) ∧ ¬ (b = u ∧ P (inv q))

/-- No link from or to `u`; class `c` and values `vals`: like a new object. -/
def renew (A : Abs) (u : Uid) (c : Cls) (vals : List (Attr × Val)) : Abs where
  cls v := if v = u then some c else A.cls v
  attr v a := if v = u then vals.lookup a else A.attr v a
  link a q b := A.link a q b ∧ a ≠ u ∧ b ≠ u

/-- Removing by the relationships `earlier`, one after the other, has left a link for `r`. -/
def Left (O : Onto) (A : Abs) (u : Uid) (earlier : List Rel) (r : Rel) : Prop :=
  ∃ q x, A.link u q x ∧ O.subRel q r = true ∧ ∀ e ∈ earlier, O.subRel q e = false ∧ (x = u → O.subRel (O.inv q) e = false)

/-- All values can be converted, with the results `vals'`. -/
def Converted (O : Onto) : List (Attr × Val) → List (Attr × Val) → Prop
  | [], [] => True
  | (a, v) :: l, (a', w) :: l' => a' = a ∧ O.conv a v = some w ∧ Converted O l l'
  | _, _ => False

end Osp.Recycle
