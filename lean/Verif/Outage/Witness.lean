import Verif.Outage.Props
import Verif.Lazy.Witness
/-!
# Calls during which the database fails (C106): examples and findings
-/
namespace Osp.Outage
open Osp.Sess Osp.Lazy

/-- Example: a session has loaded the objects 4 and 5 (the database failed once, after 4); then somebody else changes them, and the session expires everything. The object 6 is new in the database. -/
def exHist : List Call := [.fine (.create 1 {9}), .hit 1 (.load [4, 5]), .fine (.load [4, 5]), .fine (.extern 4 {41}), .fine (.extern 5 {51}), .fine (.extern 6 {60}), .fine .expireAll]

theorem exHist_proper : ∀ c ∈ exHist, Proper c := by
  intro c hc
  simp only [exHist, List.mem_cons, List.not_mem_nil, or_false] at hc
  rcases hc with rfl | rfl | rfl | rfl | rfl | rfl | rfl <;> trivial

theorem exHist_root : (run P0 (St.opened exDb) exHist).root ≠ none := by decide +kernel

/-- The load that failed and was repeated gave both objects. -/
example : (run P0 (St.opened exDb) (exHist.take 3)).g 4 = {40} ∧ (run P0 (St.opened exDb) (exHist.take 3)).g 5 = {50} ∧ 5 ∉ (run P0 (St.opened exDb) (exHist.take 2)).reg := by decide +kernel

/-- A load of 4, 5 and 6 in which the database fails at the second request. -/
example : ¬ ([4, 5, 6].filter (Absent (run P0 (St.opened exDb) exHist) ·)).length ≤ 1 ∧ (step P0 (run P0 (St.opened exDb) exHist) (.hit 1 (.load [4, 5, 6]))).2.g 4 = {41} ∧
    (step P0 (run P0 (St.opened exDb) exHist) (.hit 1 (.load [4, 5, 6]))).2.g 5 = {50} ∧ 6 ∉ (step P0 (run P0 (St.opened exDb) exHist) (.hit 1 (.load [4, 5, 6]))).2.reg ∧
    (run P0 (St.opened exDb) exHist).expired = [4, 5] ∧ (step P0 (run P0 (St.opened exDb) exHist) (.hit 1 (.load [4, 5, 6]))).2.expired = [] := by decide +kernel

theorem exHist_old : (run P0 (St.opened exDb) exHist).g 5 = {50} := by decide +kernel

theorem exHist_stored : (run P0 (St.opened exDb) exHist).stored 6 = {60} := by decide +kernel

theorem exHist_new : 6 ∉ (run P0 (St.opened exDb) exHist).reg := by decide +kernel

theorem exHist_expired : 5 ∈ (run P0 (St.opened exDb) exHist).expired ∧ 5 ∈ (run P0 (St.opened exDb) exHist).reg ∧ ¬ Pending (run P0 (St.opened exDb) exHist) 5 := by unfold Pending; decide +kernel

theorem exHist_done : ([4].filter (Absent (run P0 (St.opened exDb) exHist) ·)).length = 1 := by decide +kernel

example : (step P0 (step P0 (run P0 (St.opened exDb) exHist) (.hit 1 (.load [4, 5, 6]))).2 (.fine (.load [4, 5, 6]))).2.g 6 = {60} := by
  have k := (repeated_load_partial P0 exDb exHist exHist_proper exHist_root 1 [4, 5, 6]).2.2.2 6 (by decide) exHist_new
  rw [← exHist_stored]
  exact k.2

/-- The hypotheses of `repeated_load_keeps_old`: the object 5 goes on showing what was stored long ago. -/
theorem load_shows_old : (step P0 (step P0 (run P0 (St.opened exDb) exHist) (.hit 1 (.load [4, 5, 6]))).2 (.fine (.load [4, 5, 6]))).2.g 5 = {50} := by
  have k := repeated_load_keeps_old P0 exDb exHist exHist_proper exHist_root 1 [4] 5 [6] (Or.inr exHist_expired.1) exHist_done 5 List.mem_cons_self (by decide) exHist_expired.2.1
  rw [← exHist_old]
  exact k.2.1

/-- Without the failure it is reloaded. -/
example : (step P0 (step P0 (run P0 (St.opened exDb) exHist) (.hit 1 (.load [4, 5, 6]))).2 (.fine (.load [4, 5, 6]))).2.db 5 = {51} ∧ (Sess.step P0 (run P0 (St.opened exDb) exHist) (.load [4, 5, 6])).2.g 5 = {51} := by decide +kernel

/-- The hypotheses of `second_read_shows_old`. -/
theorem read_shows_old : (step P0 (run P0 (St.opened exDb) exHist) (.hit 0 (.read 5))).1 = .error .exception ∧
    (step P0 (step P0 (run P0 (St.opened exDb) exHist) (.hit 0 (.read 5))).2 (.fine (.read 5))).2.g 5 = {50} := by
  obtain ⟨a, b, _, _, e⟩ := second_read_shows_old P0 exDb exHist exHist_proper 5 exHist_expired.1 exHist_expired.2.1 exHist_expired.2.2
  refine ⟨a, ?_⟩
  rw [b, ← exHist_old]
  exact e

/-- Finding (C106): the user adds 59 to the object 5, which somebody else has changed from 50 to 51; the database does not answer the first time, the user tries again and commits. What the other one has stored is gone; had the database
answered, it would have been kept. -/
theorem undone_after_failure :
    (run P0 (St.opened exDb) (exHist ++ [.hit 0 (.modify 5 (insert 59)), .fine (.modify 5 (insert 59)), .fine (.commit none)])).db 5 = {50, 59} ∧
    (run P0 (St.opened exDb) (exHist ++ [.fine (.modify 5 (insert 59)), .fine (.commit none)])).db 5 = {51, 59} := by decide +kernel

theorem change_of_old : (step P0 (step P0 (run P0 (St.opened exDb) exHist) (.hit 0 (.modify 5 (insert 59)))).2 (.fine (.modify 5 (insert 59)))).2.g 5 = insert 59 {50} := by
  have k := (repeated_change_of_old P0 exDb exHist exHist_proper 5 (insert 59) exHist_expired.1 exHist_expired.2.1 exHist_expired.2.2).1
  rw [← exHist_old]
  exact k.2.2.2.1

/-- Example: after the failure the user sees the old content. -/
def exRead : List Call := exHist ++ [.hit 0 (.read 5), .fine (.read 5)]

theorem exRead_proper : ∀ c ∈ exRead, Proper c := by
  intro c hc
  rcases List.mem_append.1 hc with h | h
  · exact exHist_proper c h
  · simp only [List.mem_cons, List.not_mem_nil, or_false] at h
    rcases h with rfl | rfl <;> trivial

theorem exRead_root : (run P0 (St.opened exDb) exRead).root ≠ none := by decide +kernel

theorem exRead_fine : ¬ Pending (run P0 (St.opened exDb) exRead) 5 ∧ 5 ∈ (run P0 (St.opened exDb) exRead).reg ∧ (run P0 (St.opened exDb) exRead).g 5 = {50} := by unfold Pending; decide +kernel

theorem exRead_stored : (run P0 (St.opened exDb) exRead).stored 5 = {51} := by decide +kernel

/-- Refreshing helps. -/
theorem refresh_helps : (step P0 (run P0 (St.opened exDb) exRead) (.fine (.refresh [5]))).2.g 5 = {51} := by
  have k := (refresh_recovers P0 exDb exRead exRead_proper exRead_root [5]).2 5 List.mem_cons_self exRead_fine.1 exRead_fine.2.1
  rw [← exRead_stored]
  exact k.2

/-- Finding (C106): the session is opened while the database fails; the constructor raises. The next object that is created does not open it either, and the wrapper shows the content it was created with instead of what is stored; the commit merges the two. -/
theorem open_fails_silently : let s := run P0 (St.opened exDb) [.hit 0 (.create 1 {9}), .fine (.create 7 {70})]
    (step P0 (St.opened exDb) (.hit 0 (.create 1 {9}))).1.toOption = none ∧ s.root = some 1 ∧ s.g 1 = {9} ∧ (run P0 (St.opened exDb) [.fine (.create 1 {9}), .fine (.create 7 {70})]).g 1 = {1} ∧
    (Sess.step P0 s (.commit none)).2.db 0 = {1, 9} := by decide +kernel

example : (step P0 (St.opened exDb) (.hit 0 (.create 1 {9}))).2.root = some 1 := (failed_open P0 exDb 0 1 (by decide) {9}).2.1

/-- The case of `failed_look` in which the call fails, with an object that has pending changes and is spared. -/
example : let s := run P0 (St.opened exDb) (exHist ++ [.fine (.modify 4 (insert 49))])
    (step P0 s (.hit 0 (.refresh [4, 5]))).1.toOption = none ∧ Pending s 4 ∧ (step P0 s (.hit 0 (.refresh [4, 5]))).2.g 4 = {41, 49} := by unfold Pending; decide +kernel

end Osp.Outage
