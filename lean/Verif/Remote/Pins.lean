import Verif.Remote.Model
/-!
# Calls of a client session that fail (C92)
-/
namespace Osp.Remote
open Osp.Sess

/-- **C92.** A modification or deletion of an object that cannot be read raises what the read raises; both sessions are as after the read. -/
theorem unreadable (P : Params) (s s' : RSt) (u : Uid) (f : Content → Content) (e : PyErr) (h : read P s u = (.error e, s')) :
    modify P s u f = (.error e, s') ∧ delete P s u = (.error e, s') := by
  unfold modify delete
  rw [h]
  exact ⟨rfl, rfl⟩

end Osp.Remote
