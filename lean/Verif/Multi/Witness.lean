import Verif.Multi.Props
import Verif.Sess.Witness
/-!
# Several sessions on one database (C97): examples, and what the sessions do not guarantee
-/
namespace Osp.Multi
open Osp.Sess

/-- Example: session 0 stores the object 3, session 1 loads it, both change it and commit. -/
def exHist : List (Nat × Op) := [(0, .create 1 {9}), (0, .create 3 {30}), (0, .commit none), (1, .create 2 {8}), (1, .load [3]), (0, .modify 3 (insert 31)), (1, .modify 3 (insert 32)),
  (0, .commit none), (1, .commit none)]

theorem exHist_proper : ∀ x ∈ exHist, Proper x.2 := by
  intro x hx
  simp only [exHist, List.mem_cons, List.not_mem_nil, or_false] at hx
  rcases hx with rfl | rfl | rfl | rfl | rfl | rfl | rfl | rfl | rfl <;> simp [Proper]

theorem exHist_noLate : NoLateFailure P0 (.start fun _ => ∅) exHist := by
  refine ⟨?_, ?_, ?_, ?_, ?_, ?_, ?_, ?_, ?_, trivial⟩ <;> (intro k h; simp at h)

/-- Finding (C97): there is no protection against lost updates: both sessions have changed the object 3, and the second commit removes what the first one has stored. -/
theorem lost_update : (run P0 (.start fun _ => ∅) (exHist.take 8)).db 3 = {30, 31} ∧ (run P0 (.start fun _ => ∅) exHist).db 3 = {30, 32} := by decide +kernel

/-- The commit of session 1 is the last that writes the object 3. -/
example : ∃ pre i u post, exHist = pre ++ (i, .commit none) :: post ∧ (step P0 (run P0 (.start fun _ => ∅) pre) i (.commit none)).1 = .ok () ∧ Pending ((run P0 (.start fun _ => ∅) pre).at i) u ∧
    ((run P0 (.start fun _ => ∅) pre).at i).slot u = 3 ∧
    (run P0 (.start fun _ => ∅) exHist).db 3 = written ((run P0 (.start fun _ => ∅) pre).at i) u ((run P0 (.start fun _ => ∅) pre).db 3) ∧
    Untouched P0 3 (step P0 (run P0 (.start fun _ => ∅) pre) i (.commit none)).2 post := by
  rcases last_commit_wins P0 (fun _ => ∅) exHist exHist_proper 3 with ⟨h, _⟩ | h
  · exact absurd h (by decide +kernel)
  · exact h

/-- Finding (C97): without `expire` a session goes on showing what another session has overwritten meanwhile. -/
theorem stale_read : ((run P0 (.start fun _ => ∅) (exHist.take 6 ++ [(0, .commit none), (1, .read 3)])).at 1).g 3 = {30} ∧
    (run P0 (.start fun _ => ∅) (exHist.take 6 ++ [(0, .commit none), (1, .read 3)])).db 3 = {30, 31} := by decide +kernel

/-- The stale content was stored before. -/
example : ∃ pre post, exHist.take 5 = pre ++ post ∧ ((run P0 (.start fun _ => ∅) (exHist.take 5)).at 1).g 3 = (run P0 (.start fun _ => ∅) pre).db (((run P0 (.start fun _ => ∅) (exHist.take 5)).at 1).slot 3) :=
  no_dirty_reads_partial P0 _ _ (fun x hx => exHist_proper x (List.mem_of_mem_take hx)) (by refine ⟨?_, ?_, ?_, ?_, ?_, trivial⟩ <;> (intro k h; simp at h)) 1 3 (by decide +kernel)
    (by unfold Pending; decide +kernel) (by decide +kernel)

/-- After `expire_all` the session shows what is stored now. -/
example : ((run P0 (.start fun _ => ∅) (exHist.take 6 ++ [(0, .commit none), (1, .expireAll), (1, .read 3)])).at 1).g 3 = {30, 31} := by decide +kernel

example : let w := run P0 (.start fun _ => ∅) exHist
    let w' := run P0 (.start fun _ => ∅) (exHist ++ [(0, .read 3)])
    (w'.at 0).g 3 = w.db ((w.at 0).slot 3) ∧ (3 ∈ (w'.at 0).reg ↔ w.db ((w.at 0).slot 3) ≠ ∅) ∧ w'.db = w.db :=
  expired_shows_latest P0 _ exHist exHist_proper 0 3 (by decide +kernel) (by unfold Pending; decide +kernel) (by decide +kernel)

/-- What session 0 does before its commit does not concern session 1. -/
example : (run P0 (.start fun _ => ∅) (exHist.take 5 ++ [(0, .modify 3 (insert 31)), (0, .delete 3)])).at 1 = (run P0 (.start fun _ => ∅) (exHist.take 5)).at 1 :=
  uncommitted_invisible P0 _ _ (fun x hx => exHist_proper x (List.mem_of_mem_take hx)) 1 _ (by
    intro x hx
    simp only [List.mem_cons, List.not_mem_nil, or_false] at hx
    rcases hx with rfl | rfl <;> simp [Proper])

/-- Finding (C97, C42): after a commit that failed in its last step, the session shows the object 3 as if it had been stored, although it never was. -/
theorem dirty_after_late_failure :
    let h : List (Nat × Op) := [(0, .create 1 {9}), (0, .commit none), (0, .create 3 {30}), (0, .commit (some 1))]
    let s := (run P0 (.start fun _ => ∅) h).at 0
    3 ∈ s.reg ∧ 3 ∉ s.user.uids ∧ 3 ∉ s.expired ∧ s.g 3 = {30} ∧ ∀ n, n ≤ 4 → (run P0 (.start fun _ => ∅) (h.take n)).db 3 = ∅ := by decide +kernel

end Osp.Multi
