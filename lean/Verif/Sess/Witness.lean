import Verif.Sess.Props
/-!
# Cases that meet the hypotheses, and the deviations of the code that the hypotheses exclude
-/
namespace Osp.Sess

/-- A database with a wrapper (slot 0) linked to nothing and the object 4. -/
def db0 : Uid → Content := fun u => if u = 0 then {1} else if u = 4 then {40} else ∅

/-- A history with every kind of operation, safe all along. -/
def ops0 : List Op := [.create 2 {20}, .create 3 {30}, .commit none, .modify 2 (insert 21), .delete 3, .load [2, 4, 5], .create 5 {50}, .commit (some 2), .expireAll,
  .drop 5, .loadByOclass [4], .refresh [4, 1], .read 2, .modify 1 (insert 2), .commit none]

theorem ops0_safe : SafeSession P0 db0 1 {9} ops0 := by
  have hins : ∀ (x : Nat) (c : Content), c ≠ ∅ → insert x c ≠ ∅ := by
    intro x c _ h
    have : x ∈ (∅ : Content) := h ▸ Finset.mem_insert_self x c
    simp at this
  refine ⟨by decide +kernel, by decide +kernel, ?_⟩
  refine ⟨by unfold Safe; decide +kernel, by unfold Safe; decide +kernel, by unfold Safe; trivial, ⟨by decide +kernel, by decide +kernel, by decide +kernel, hins 21⟩, by unfold Safe; decide +kernel, by unfold Safe; decide +kernel,
    by unfold Safe; decide +kernel, by unfold Safe; decide +kernel, trivial, by unfold Safe; decide +kernel, by unfold Safe; decide +kernel, trivial, trivial, ⟨by decide +kernel, by decide +kernel, by decide +kernel, hins 2⟩, trivial, trivial⟩

example : (∀ o ∈ ops0, Closed o) ∧ (specRun (specOpen db0 1 {9}) (specOpenStored db0 1) ops0).2 1 = {1, 2} ∧
    (specRun (specOpen db0 1 {9}) (specOpenStored db0 1) ops0).2 2 = {20, 21} ∧
    (specRun (specOpen db0 1 {9}) (specOpenStored db0 1) ops0).2 3 = ∅ := by
  refine ⟨?_, by decide +kernel, by decide +kernel, by decide +kernel⟩
  intro o ho
  simp only [ops0, List.mem_cons, List.not_mem_nil, or_false] at ho
  rcases ho with rfl | rfl | rfl | rfl | rfl | rfl | rfl | rfl | rfl | rfl | rfl | rfl | rfl | rfl | rfl <;> trivial

example : (session P0 db0 1 {9} ops0).stored 2 = {20, 21} ∧ (session P0 db0 1 {9} ops0).stored 1 = {1, 2} ∧ (session P0 db0 1 {9} ops0).stored 4 = {40} := by decide +kernel

/-- A history in which somebody else changes the database. -/
example : SafeSession P0 db0 1 {9} [.load [4], .extern 4 {41}, .expireAll] := by
  refine ⟨by decide +kernel, by decide +kernel, by unfold Safe; decide +kernel, by unfold Safe; decide +kernel, trivial, trivial⟩

example : ((session P0 db0 1 {9} [.load [4], .extern 4 {41}, .expireAll]).load P0 [4]).2.g 4 = {41} := by decide +kernel

/-! ### deviations -/

/-- Finding (C41): on a database in use, the wrapper counts as added, and `_apply_added` only adds: a triple the user removes from the wrapper before the first
commit stays stored. -/
theorem removal_from_reopened_wrapper_lost :
    let s := session P0 (fun u => if u = 0 then {1, 2} else ∅) 1 {9} [.modify 1 (fun c => c.erase 2), .commit none]
    s.g 1 = {1} ∧ s.stored 1 = {1, 2} := by decide +kernel

/-- Finding (C41): deleting a stored object and creating one with the same uid leaves the old triples stored. -/
theorem recreated_object_keeps_old_triples :
    let s := session P0 (fun _ => ∅) 1 {9} [.create 2 {5}, .commit none, .delete 2, .create 2 {6}, .commit none]
    s.g 2 = {6} ∧ s.stored 2 = {5, 6} := by decide +kernel

/-- Finding (C11, C41): deleting it once more is forgotten: the object is not stored as deleted. -/
theorem second_deletion_lost :
    let s := session P0 (fun _ => ∅) 1 {9} [.create 2 {5}, .commit none, .delete 2, .create 2 {6}, .delete 2]
    let s' := session P0 (fun _ => ∅) 1 {9} [.create 2 {5}, .commit none, .delete 2, .create 2 {6}, .delete 2, .commit none]
    2 ∉ s.user.uids ∧ 2 ∉ s.reg ∧ s'.stored 2 = {5} := by decide +kernel

/-- Finding (C12): an object created with the uid of an expired object that was pruned is overwritten by the next load, although it has pending changes. -/
theorem pending_object_overwritten_by_load :
    let ops : List Op := [.create 2 {5}, .commit none, .drop 2, .create 2 {6}, .load [2]]
    2 ∈ (session P0 (fun _ => ∅) 1 {9} ops).user.added ∧ (session P0 (fun _ => ∅) 1 {9} ops).g 2 = {5} := by decide +kernel

/-- Finding (C11): loading an object the user has deleted brings it back into the session while it stays in the deleted buffer; the next commit deletes it from the
database, but not from the session, and modifying it raises. -/
theorem load_resurrects_deleted :
    let ops : List Op := [.create 2 {5}, .commit none, .delete 2, .load [2]]
    2 ∈ (session P0 (fun _ => ∅) 1 {9} ops).reg ∧ 2 ∈ (session P0 (fun _ => ∅) 1 {9} ops).user.deleted ∧
    (step P0 (session P0 (fun _ => ∅) 1 {9} ops) (.modify 2 (insert 6))).1 = .error .runtimeError ∧
    (session P0 (fun _ => ∅) 1 {9} (ops ++ [.commit none])).stored 2 = ∅ ∧ 2 ∈ (session P0 (fun _ => ∅) 1 {9} (ops ++ [.commit none])).reg := by
  refine ⟨by decide +kernel, by decide +kernel, by decide +kernel, by decide +kernel, by decide +kernel⟩

/-- Finding (C12): `load_by_oclass` overwrites pending changes, and the next commit stores the old content. -/
theorem query_by_class_overwrites_pending :
    let ops : List Op := [.create 2 {5}, .commit none, .modify 2 (insert 6), .loadByOclass [2]]
    2 ∈ (session P0 (fun _ => ∅) 1 {9} ops).user.updated ∧ (session P0 (fun _ => ∅) 1 {9} ops).g 2 = {5} ∧
    (session P0 (fun _ => ∅) 1 {9} (ops ++ [.commit none])).stored 2 = {5} := by decide +kernel

/-- Finding (C42): if the last step of a commit fails, the buffers are already empty: the pending changes are never written. -/
theorem failed_last_step_loses_changes :
    let s := session P0 (fun _ => ∅) 1 {9} [.create 2 {5}]
    let s1 := (s.commit (some s.commitOps.length)).2
    s.user.added = [1, 2] ∧ s1.user = .empty ∧ (s1.commit none).1 = .ok () ∧ (s1.commit none).2.stored 2 = ∅ ∧ (s1.commit none).2.g 2 = {5} := by decide +kernel

/-- Finding (C41): assigning to an attribute of an object that was added and deleted puts it in the updated buffer; the commit stores triples of an object that
does not exist in the session. -/
theorem zombie_is_stored :
    let s := session P0 (fun _ => ∅) 1 {9} [.create 2 {5}, .delete 2, .modify 2 (insert 6), .commit none]
    2 ∉ s.reg ∧ s.stored 2 = {5, 6} := by decide +kernel

end Osp.Sess
