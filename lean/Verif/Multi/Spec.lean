import Verif.Multi.Model
/-!
# Specification: what sessions on one database may see of each other (C97)
-/
namespace Osp.Multi
open Osp.Sess

/-- Specification: the calls the users make. Nobody else writes to the database, and there is no object with the uid zero (the constructor refuses it). -/
def Proper : Op → Prop
  | .modify u _ => u ≠ 0
  | .delete u => u ≠ 0
  | .drop u => u ≠ 0
  | .extern _ _ => False
  | _ => True

/-- Specification: the call is a commit of session `i` that succeeds. -/
def Committed (P : Params) (w : World) (i : Nat) (o : Op) : Prop := o = .commit none ∧ (step P w i o).1 = .ok ()

/-- Specification: the session has changed the object `u` since its last commit. -/
def Pending (s : St) (u : Uid) : Prop := u ∈ s.user.added ∨ u ∈ s.user.updated ∨ u ∈ s.user.deleted

/-- Specification: the call is a successful commit of session `i`, which had changed the object stored under `k`. -/
def Writes (P : Params) (w : World) (i : Nat) (o : Op) (k : Uid) : Prop := Committed P w i o ∧ ∃ u, Pending (w.at i) u ∧ (w.at i).slot u = k

/-- Specification: what a session that changed `u` writes, if `before` is what is stored: nothing for a deleted object, what the session shows for an updated one, and what the session shows in addition to
what is stored for one that is new in this session. -/
def written (s : St) (u : Uid) (before : Content) : Content :=
  if u ∈ s.user.deleted then ∅ else if u ∈ s.user.updated then s.content u else before ∪ s.content u

/-- Specification: no commit of the history writes `k`. -/
def Untouched (P : Params) (k : Uid) : World → List (Nat × Op) → Prop
  | _, [] => True
  | w, (i, o) :: h => ¬ Writes P w i o k ∧ Untouched P k (step P w i o).2 h

/-- Specification: no commit of the history fails in its very last step, when the backend has accepted all changes (then the session forgets that they are not stored, C42). -/
def NoLateFailure (P : Params) : World → List (Nat × Op) → Prop
  | _, [] => True
  | w, (i, o) :: h => (∀ k, o = .commit (some k) → k < (w.at i).commitOps.length) ∧ NoLateFailure P (step P w i o).2 h

end Osp.Multi
