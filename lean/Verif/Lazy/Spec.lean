import Verif.Lazy.Model
/-!
# Specification: what a user may rely on while an iteration is under way (C104)
-/
namespace Osp.Lazy
open Osp.Sess

/-- Specification: the user has changed the object since the last commit. -/
def Pending (s : St) (u : Uid) : Prop := u ∈ s.user.added ∨ u ∈ s.user.updated ∨ u ∈ s.user.deleted

/-- Specification: the session has no current copy of the object: it does not have it at all, or its copy has expired. -/
def Absent (s : St) (u : Uid) : Prop := u ∉ s.reg ∨ u ∈ s.expired

/-- Specification: an iteration that has begun will still reload this object. -/
def Waiting (y : Sys) (u : Uid) : Prop := ∃ i missing left, (y.gens i).phase = .running missing left ∧ u ∈ left ∧ u ∈ missing

/-- Specification: the object a call changes. -/
def Changes : Op → Uid → Prop
  | .create u _, v => v = u
  | .modify u _, v => v = u
  | .delete u, v => v = u
  | .drop u, v => v = u
  | _, _ => False

/-- Specification: a user who keeps away from the objects an iteration has still to visit: no change concerns an object that waits to be reloaded, and no iteration begins over an object that is absent although
the user has changed it (deleted it, say). -/
def Careful1 (y : Sys) : Event → Prop
  | .call o => ∀ u, Changes o u → ¬ Waiting y u
  | .opens _ => True
  | .next i => (y.gens i).phase = .fresh → ∀ u ∈ (y.gens i).uids, Pending y.s u → ¬ Absent y.s u

/-- Specification: the user is careful all along. -/
def Careful (P : Params) : Sys → List Event → Prop
  | _, [] => True
  | y, e :: h => Careful1 y e ∧ Careful P (y.step P e) h

/-- Specification: the calls the users make; there is no object with the uid zero (the constructor refuses it). Somebody else may write to the database at any time. -/
def Proper : Event → Prop
  | .call (.modify u _) => u ≠ 0
  | .call (.delete u) => u ≠ 0
  | .call (.drop u) => u ≠ 0
  | _ => True

end Osp.Lazy
