import Verif.Outage.Model
/-!
# Specification: what a user may rely on if the database fails in the middle of a call (C106)
-/
namespace Osp.Outage
open Osp.Sess

/-- Specification: the user has changed the object since the last commit. -/
def Pending (s : St) (u : Uid) : Prop := u ∈ s.user.added ∨ u ∈ s.user.updated ∨ u ∈ s.user.deleted

/-- Specification: the session has no current copy of the object: it does not have it at all, or its copy has expired. -/
def Absent (s : St) (u : Uid) : Prop := u ∉ s.reg ∨ u ∈ s.expired

instance (s : St) (u : Uid) : Decidable (Absent s u) := inferInstanceAs (Decidable (_ ∨ _))

/-- Specification: there is no object with the uid zero (the constructor refuses it). Somebody else may write to the database at any time. -/
def Proper : Call → Prop
  | .fine (.modify u _) => u ≠ 0
  | .fine (.delete u) => u ≠ 0
  | .fine (.drop u) => u ≠ 0
  | .hit _ (.modify u _) => u ≠ 0
  | .hit _ (.delete u) => u ≠ 0
  | .hit _ (.drop u) => u ≠ 0
  | _ => True

/-- Specification: calls that only look at objects, or look at one before they change it. -/
def Looks : Op → Prop
  | .load _ | .refresh _ | .read _ | .loadByOclass _ | .modify _ _ | .delete _ => True
  | _ => False

/-- Specification: the call does not ask the database for the new state of this object, as far as it depends on the object having changes that are not committed: `refresh`, reading and changing leave objects
with such changes alone, `load` the ones the session has a current copy of, a query by class the ones it does not find. -/
def Spares (s : St) (v : Uid) : Op → Prop
  | .load _ => ¬ Absent s v
  | .loadByOclass us => v ∉ us
  | _ => Pending s v

/-- Specification: the object is what it was, or what is stored in the database. -/
def OldOrStored (s s' : St) (u : Uid) : Prop := ((u ∈ s'.reg ↔ u ∈ s.reg) ∧ s'.g u = s.g u) ∨ ((u ∈ s'.reg ↔ s.stored u ≠ ∅) ∧ s'.g u = s.stored u)

end Osp.Outage
