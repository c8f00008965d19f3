import Verif.Links.Model
import Verif.Sess.Spec
/-!
# When the links of two objects agree (specification of C102)
-/
namespace Osp.Links
open Osp.Sess

variable {R : Type}

/-- The content has the link. Specification; nothing in /repo. -/
def Has (dec : Code R) (c : Content) (r : R) (v : Uid) : Prop := ∃ k ∈ c, dec k = some (r, v)

/-- Two contents tell the same about the links between the objects `u` and `v`: each link of the one is a link in the opposite direction of the other. Specification; nothing in /repo. -/
def Agree (dec : Code R) (inv : R → R) (u v : Uid) (cu cv : Content) : Prop := ∀ r, (Has dec cu r v ↔ Has dec cv (inv r) u) ∧ (Has dec cv r u ↔ Has dec cu (inv r) v)

/-- What the session shows of the object is what it will go on showing: it is there, not expired, and the user has not changed it. Specification; nothing in /repo. -/
def Settled (s : St) (u : Uid) : Prop := u ∈ s.reg ∧ u ∉ s.expired ∧ u ∉ s.user.uids

/-- Not the wrapper. Specification; nothing in /repo. -/
def Plain (s : St) (u : Uid) : Prop := s.root ≠ some u

/-- All objects of the session (but the wrapper and those the user has changed) agree. Specification; nothing in /repo. -/
def Coherent (dec : Code R) (inv : R → R) (s : St) : Prop := ∀ u v, u ∈ s.reg → v ∈ s.reg → Plain s u → Plain s v → u ∉ s.user.uids → v ∉ s.user.uids → Agree dec inv u v (s.g u) (s.g v)

/-- So do all objects in the database. Specification; nothing in /repo. -/
def Sound (dec : Code R) (inv : R → R) (s : St) : Prop := ∀ u v, Plain s u → Plain s v → Agree dec inv u v (s.stored u) (s.stored v)

/-- Calls that look at objects: reading, refreshing, expiring, and loading objects all of which are expired. Specification; nothing in /repo. -/
def Looks (s : St) : Op → Prop
  | .read _ => True
  | .refresh _ => True
  | .expire _ => True
  | .expireAll => True
  | .load us => ∀ u ∈ us, u ∈ s.reg ∧ u ∈ s.expired
  | _ => False

/-- A history of such calls. Specification; nothing in /repo. -/
def Looking (P : Params) : St → List Op → Prop
  | _, [] => True
  | s, o :: os => Looks s o ∧ Looking P (Sess.step P s o).2 os

end Osp.Links
