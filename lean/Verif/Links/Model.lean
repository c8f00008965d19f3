import Verif.Sess.Model
import Mathlib.Data.Finset.Lattice.Fold
/-!
# Which neighbours a reload lets expire

`WrapperSession._expire_neighour_diff` compares the relationships of the old and of the new version of a loaded object. The model of sessions (`Verif/Sess`) leaves open which neighbours differ between two
contents; here it is made precise.
-/
namespace Osp.Links
open Osp.Sess

/-- How a triple (coded by a number) of an object is read: a relationship and the uid of the neighbour, or none of that (attribute, type). Modelling device for neighbor_dict.py 155-300. -/
abbrev Code (R : Type) := Nat → Option (R × Uid)

/-- The elements of a finite set in some order. Python itself; models nothing in /repo. -/
def elems (c : Content) : List Nat := (List.range (c.sup id + 1)).filter (· ∈ c)

variable {R : Type}

/-- `get_neighbor_diff(a, b)`, mode "all", without the relationships: the neighbours over links of `a` that `b` does not have. wrapper_development.py:27-71. -/
def oneSided (dec : Code R) (a b : Content) : List Uid := (elems (a \ b)).filterMap (fun k => (dec k).map (·.2))

/-- `diff1 | diff2`, wrapper_session.py:389-394. -/
def linkDiff (dec : Code R) (o n : Content) : List Uid := oneSided dec n o ++ oneSided dec o n

/-- The parameters of a session with the differences made precise, wrapper_session.py:379-395. -/
def withLinks (dec : Code R) (P : Params) : Params := { P with diff := linkDiff dec }

end Osp.Links
