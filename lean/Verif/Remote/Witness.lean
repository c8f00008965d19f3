import Verif.Remote.Props
/-!
# Client sessions: concrete cases and findings (C92)
-/
namespace Osp.Remote
open Osp.Sess Osp.Sync

/-- Example: the code 10 u + 9 in the triples of an object says that u is its child. -/
def P3 : Params := { diff := fun _ _ => [], nb := fun c => [2, 4, 5].filter (fun u => 10 * u + 9 ∈ c), typePart := id, order := id, order_mem := fun _ _ => Iff.rfl }

theorem hasType3 : HasType P3 := fun _ h => h

/-- Example: a wrapper with the child 4, and an object 6 somewhere else. -/
def db3 : Uid → Content := fun u => if u = 0 then {1, 49} else if u = 4 then {40} else if u = 6 then {60} else ∅

/-- Example: a history with every kind of operation. -/
def ops3 : List ROp := [.create 2 {20}, .modify 1 (insert 29), .commit .fine none, .modify 2 (insert 21), .load 6, .expire [4, 6], .read 4, .commit .fine (some 0), .create 3 {30}, .delete 4,
  .modify 1 (fun c => c.erase 49), .commit .noResponse none, .load 7, .modify 6 (fun c => insert 61 (c.erase 60)), .commit .fine none]

theorem along3 : Along P3 1 (View.open P3 db3 1 {1}) (connect P3 db3 1 {1}).2 ops3 := by
  refine ⟨?_, ?_, ?_, ?_, ?_, ?_, ?_, ?_, ?_, ?_, ?_, ?_, ?_, ?_, ?_, trivial⟩
  · simp [Safe, View.open, db3]
  · refine ⟨?_, ?_, ?_⟩
    · simp [View.step, View.open]
    · simp
    · intro _ _ x hx
      simp [View.step, View.open, Function.update, db3] at hx ⊢
      tauto
  · simp [Safe]
  · simp [Safe, View.step, View.open]
  · simp [Safe, View.step, View.open]
  · trivial
  · trivial
  · exact ⟨by decide, by decide +kernel⟩
  · simp [Safe, View.step, View.open, db3]
  · simp [Safe, View.step, View.open, db3, P3]
  · refine ⟨by simp [View.step, View.open], ?_, by simp [View.step]⟩
    simp [View.step, View.open, Function.update, db3]
    decide
  · simp [Safe]
  · simp [Safe, View.step, View.open]
  · refine ⟨?_, by simp, by simp⟩
    simp [View.step, View.open, Function.update, db3]
  · simp [Safe]

/-- The theorems apply, and the history does something. -/
example : let s := run P3 (connect P3 db3 1 {1}).2 ops3
    (connect P3 db3 1 {1}).2.c.reg = [1, 4] ∧ s.t.db 0 = {1, 29} ∧ s.t.db 2 = {20, 21} ∧ s.t.db 3 = {30} ∧ s.t.db 4 = ∅ ∧ s.t.db 6 = {61} ∧ s.c.reg = [1, 2, 6, 3] := by decide +kernel

example : Shows 1 ((View.open P3 db3 1 {1}).run ops3) (run P3 (connect P3 db3 1 {1}).2 ops3) := (remote_refines_partial hasType3 db3 (by decide) {1} (by decide) ops3 along3).2.1

/-- Example: a history that is also normal use without a client. -/
def ops4 : List ROp := [.create 2 {20}, .modify 1 (insert 29), .commit .fine none, .modify 2 (insert 21), .load 6, .expire [4, 6], .read 4, .commit .fine (some 0), .delete 4, .load 7,
  .commit .noResponse none]

theorem along4 : Along P3 1 (View.open P3 db3 1 {1}) (connect P3 db3 1 {1}).2 ops4 := by
  refine ⟨?_, ?_, ?_, ?_, ?_, ?_, ?_, ?_, ?_, ?_, ?_, trivial⟩
  · simp [Safe, View.open, db3]
  · refine ⟨?_, ?_, ?_⟩
    · simp [View.step, View.open]
    · simp
    · intro _ _ x hx
      simp [View.step, View.open, Function.update, db3] at hx ⊢
      tauto
  · simp [Safe]
  · simp [Safe, View.step, View.open]
  · simp [Safe, View.step, View.open]
  · trivial
  · trivial
  · exact ⟨by decide, by decide +kernel⟩
  · simp [Safe, View.step, View.open, db3, P3]
  · simp [Safe, View.step, View.open]
  · simp [Safe]

theorem local4 : SafeSession P3 db3 1 {1} (ops4.map ROp.locally) := by
  have hins : ∀ (x : Nat) (c : Content), c ≠ ∅ → insert x c ≠ ∅ := by
    intro x c _ h
    have : x ∈ (∅ : Content) := h ▸ Finset.mem_insert_self x c
    simp at this
  refine ⟨by decide +kernel, by decide +kernel, ?_⟩
  show Sess.Along P3 Sess.Safe _ [.create 2 {20}, .modify 1 (insert 29), .commit none, .modify 2 (insert 21), .load [6], .expire [4, 6], .read 4, .commit (some 0), .delete 4, .load [7], .commit none]
  refine ⟨by unfold Sess.Safe; decide +kernel, ⟨by decide +kernel, by decide +kernel, by decide +kernel, hins 29⟩, by unfold Sess.Safe; trivial,
    ⟨by decide +kernel, by decide +kernel, by decide +kernel, hins 21⟩, by unfold Sess.Safe; decide +kernel, trivial, trivial, by unfold Sess.Safe; decide +kernel, by unfold Sess.Safe; decide +kernel,
    by unfold Sess.Safe; decide +kernel, trivial, trivial⟩

example : ∀ u, u ≠ 0 → (run P3 (connect P3 db3 1 {1}).2 ops4).t.db (if u = 1 then 0 else u) = (session P3 db3 1 {1} (ops4.map ROp.locally)).stored u :=
  (remote_like_local_partial hasType3 db3 (by decide) {1} (by decide) (Or.inr (by decide)) ops4 along4 local4).2

example : (run P3 (connect P3 db3 1 {1}).2 ops4).t.db 2 = {20, 21} ∧ (run P3 (connect P3 db3 1 {1}).2 ops4).t.db 4 = ∅ := by decide +kernel

/-- The hypotheses of `remote_commit_stores_partial` hold. -/
example : (commit (run P3 (connect P3 db3 1 {1}).2 ops4) .noResponse none).2.c.user = .empty :=
  (remote_commit_stores_partial hasType3 db3 (by decide) {1} (by decide) ops4 along4 .noResponse (by decide) _ rfl).2.1

/-! ### Findings -/

/-- **Finding.** A wrapper that is created with another attribute value than the one stored gets both values with a client, and the next commit stores both; without a client it gets the stored
value only (server:197-200, wrapper_development.py:224-231). -/
theorem wrapper_gets_both_values :
    let s := (connect P3 db3 1 {2}).2
    s.c.g 1 = {1, 2, 49} ∧ (commit s .fine none).2.t.db 0 = {1, 2, 49} ∧ (session P3 db3 1 {2} []).g 1 = {1, 49} ∧ (session P3 db3 1 {2} [.commit none]).db 0 = {1, 49} := by decide +kernel

/-- **Finding.** A commit whose request is lost clears the client's buffers: the retried commit succeeds, and the new object is never stored. -/
theorem lost_commit :
    let s := run P3 (connect P3 db3 1 {1}).2 [.create 2 {20}, .commit .noRequest none]
    s.c.g 2 = {20} ∧ s.c.user = .empty ∧ (commit s .fine none).1.toBool = true ∧ (commit s .fine none).2.t.db 2 = ∅ := by decide +kernel

/-- **Finding.** Loading an object that was deleted, before the commit: the client's session has it again, and the commit deletes it in the database. -/
theorem reload_revives :
    let s := run P3 (connect P3 db3 1 {1}).2 [.delete 4, .load 4, .commit .fine none]
    4 ∈ s.c.reg ∧ s.c.g 4 = {40} ∧ s.t.db 4 = ∅ ∧ s.c.user = .empty := by decide +kernel

end Osp.Remote
