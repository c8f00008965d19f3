import Verif.Down.Props
import Verif.Remote.Witness
/-!
# A database that is down: concrete cases and findings (C107)
-/
namespace Osp.Down
open Osp.Sess Osp.Sync Osp.Remote

theorem along_fails {P : Params} {r : Uid} {m : View} {s : RSt} {o : QOp} {cs : List Call} (hs : Safe r m s (.down o)) (h : (step P s (.down o)).1.toOption = none)
    (k : Along P r m (step P s (.down o)).2 cs) : Along P r m s (.down o :: cs) := by
  refine ⟨hs, ?_⟩
  have : effect m (.down o) (step P s (.down o)).1 = m := by
    revert h
    cases (step P s (.down o)).1 with
    | ok x => intro h; exact (nomatch h)
    | error e => intro _; rfl
  rw [this]
  exact k

theorem along_works {P : Params} {r : Uid} {m : View} {s : RSt} {o : QOp} {cs : List Call} (hs : Safe r m s (.down o)) (h : (step P s (.down o)).1.toOption.isSome = true)
    (k : Along P r (m.qstep o) (step P s (.down o)).2 cs) : Along P r m s (.down o :: cs) := by
  refine ⟨hs, ?_⟩
  have : effect m (.down o) (step P s (.down o)).1 = m.qstep o := by
    revert h
    cases (step P s (.down o)).1 with
    | ok x => intro _; rfl
    | error e => intro h; exact (nomatch h)
  rw [this]
  exact k

/-- Example: the database is down again and again: when a new object is committed, when an object is loaded, when expired objects are read and changed, during a query, and when the answer to a failing commit is lost. -/
def hist : List Call := [.up (.base (.create 2 {20})), .down (.base (.commit .fine none)), .up (.base (.modify 2 (insert 21))), .down (.base (.load 6)), .up (.base (.load 6)),
  .up (.base (.commit .fine none)), .down (.base (.read 4)), .up (.base (.read 4)), .down (.base (.modify 6 (insert 61))), .up (.base (.modify 6 (insert 61))), .down (.query [4]), .down (.loads [4, 7]),
  .down (.base (.read 2)), .down (.base (.delete 4)), .down (.base (.commit .noResponse none)), .down (.refresh [1]), .up (.base (.commit .fine none)), .up (.loads [7, 2])]

theorem along : Along P3 1 (View.open P3 db3 1 {1}) (connect P3 db3 1 {1}).2 hist := by
  unfold hist
  refine ⟨?_, ?_⟩
  · simp [Safe, QSafe, Remote.Safe, View.open, db3]
  refine along_fails (by simp [Safe]) (by decide +kernel) ⟨?_, ?_⟩
  · simp [Safe, QSafe, Remote.Safe, View.qstep, View.step, View.open, effect]
  refine along_fails ?_ (by decide +kernel) ⟨?_, ?_⟩
  · simp [Safe, QSafe, Remote.Safe, View.qstep, View.step, View.open, effect]
  · simp [Safe, QSafe, Remote.Safe, View.qstep, View.step, View.open, effect]
  refine ⟨by simp [Safe, QSafe, Remote.Safe], ?_⟩
  refine along_fails trivial (by decide +kernel) ⟨trivial, ?_⟩
  refine along_fails ?_ (by decide +kernel) ⟨?_, ?_⟩
  · simp [Safe, QSafe, Remote.Safe, View.qstep, View.step, View.open, effect, Function.update, db3]
  · simp [Safe, QSafe, Remote.Safe, View.qstep, View.step, View.open, effect, Function.update, db3]
  refine along_fails trivial (by decide +kernel) (along_fails ?_ (by decide +kernel) (along_fails trivial (by decide +kernel) (along_works ?_ (by decide +kernel) ?_)))
  · intro u hu
    have : u = 4 ∨ u = 7 := by simpa using hu
    rcases this with rfl | rfl <;> exact ⟨by decide, fun q => q⟩
  · simp [Safe, QSafe, Remote.Safe, View.qstep, View.step, View.open, effect, db3, P3]
  refine along_fails (by simp [Safe]) (by decide +kernel) (along_fails trivial (by decide +kernel) ⟨by simp [Safe, QSafe, Remote.Safe], ?_, trivial⟩)
  intro u hu
  have : u = 7 ∨ u = 2 := by simpa using hu
  rcases this with rfl | rfl <;> exact ⟨by decide, fun q => q⟩

/-- The theorems apply, and the history does something: the objects are stored in the end, though three commits failed. -/
example : let s := run P3 (connect P3 db3 1 {1}).2 hist
    s.c.reg = [1, 2, 6] ∧ s.t.db 0 = {1, 49} ∧ s.t.db 2 = {20, 21} ∧ s.t.db 4 = ∅ ∧ s.t.db 6 = {60, 61} := by decide +kernel

example : Shows 1 (expect P3 (View.open P3 db3 1 {1}) (connect P3 db3 1 {1}).2 hist) (run P3 (connect P3 db3 1 {1}).2 hist) := (down_atomic_partial hasType3 db3 (by decide) {1} (by decide) hist along).2

/-- Nine calls of the history are refused. -/
theorem refused_in_hist : (kept P3 (connect P3 db3 1 {1}).2 hist).length = 9 ∧ hist.length = 18 := by decide +kernel

/-- Example: the beginning of the history, with a new object, changed, committed in vain. -/
def begun : List Call := [.up (.base (.create 2 {20})), .down (.base (.commit .fine none)), .up (.base (.expire [4, 2]))]

theorem along_begun : Along P3 1 (View.open P3 db3 1 {1}) (connect P3 db3 1 {1}).2 begun := by
  unfold begun
  refine ⟨?_, along_fails (by simp [Safe]) (by decide +kernel) ⟨trivial, trivial⟩⟩
  simp [Safe, QSafe, Remote.Safe, View.open, db3]

/-- The hypotheses of `down_refused_partial` hold: 4 is expired, 2 was sent and is not committed, 6 is not in the session. -/
theorem begun_state : let s := run P3 (connect P3 db3 1 {1}).2 begun
    4 ∈ s.c.expired ∧ 4 ∉ s.t.user.uids ∧ 6 ∉ s.c.reg ∧ 6 ∉ s.c.user.uids ∧ 2 ∈ s.c.expired ∧ 2 ∈ s.t.user.uids ∧ 1 ∉ s.c.expired := by decide +kernel

example : (dstep P3 (run P3 (connect P3 db3 1 {1}).2 begun) (.base (.read 4))).1 = .error .runtimeError :=
  ((down_refused_partial hasType3 db3 (by decide) {1} (by decide) begun along_begun _ rfl).1 4 begun_state.1 begun_state.2.1).1

/-- An object whose change was sent to the server and not committed can be read though it is expired: the exception in `down_refused_partial`. -/
theorem pending_is_read : (dstep P3 (run P3 (connect P3 db3 1 {1}).2 begun) (.base (.read 2))).1.toOption = some [] := by decide +kernel

example : dstep P3 (run P3 (connect P3 db3 1 {1}).2 begun) (.base (.modify 1 (insert 2))) = qstep P3 (run P3 (connect P3 db3 1 {1}).2 begun) (.base (.modify 1 (insert 2))) :=
  down_offline _ _ begun_state.2.2.2.2.2.2

/-- The hypotheses of `down_commit_stores_partial` hold; the failed commit is made up for. -/
example : (Remote.commit (run P3 (connect P3 db3 1 {1}).2 begun) .fine none).2.t.user = .empty :=
  (down_commit_stores_partial hasType3 db3 (by decide) {1} (by decide) begun along_begun .fine (by decide) _ _ rfl rfl).2.2.1

theorem made_up_for : let s := run P3 (connect P3 db3 1 {1}).2 begun
    s.t.db 2 = ∅ ∧ (Remote.commit s .fine none).2.t.db 2 = {20} := by decide +kernel

/-! ### Findings -/

/-- Example: the session expires the object 6, and somebody else changes it in the database. -/
def changed : RSt :=
  let s := run P3 (connect P3 db3 1 {1}).2 [.up (.base (.load 6)), .up (.base (.expire [6]))]
  { s with t := { s.t with db := Function.update s.t.db 6 {61} } }

/-- **Finding.** A read that fails because the database is down removes the expiry mark (wrapper_session.py:88-92 runs before the request): after the database is up again, the old content is shown without an error, on the client and on
the server. Without the failed read, the new content is shown. -/
theorem outage_forgets :
    (step P3 changed (.down (.base (.read 6)))).1.toOption = none ∧
    (step P3 (step P3 changed (.down (.base (.read 6)))).2 (.up (.base (.read 6)))).1.toOption = some [] ∧
    (step P3 (step P3 changed (.down (.base (.read 6)))).2 (.up (.base (.read 6)))).2.c.g 6 = {60} ∧ (step P3 (step P3 changed (.down (.base (.read 6)))).2 (.up (.base (.read 6)))).2.t.g 6 = {60} ∧
    (step P3 changed (.up (.base (.read 6)))).2.c.g 6 = {61} := by
  refine ⟨by decide +kernel, by decide +kernel, by decide +kernel, by decide +kernel, by decide +kernel⟩

end Osp.Down
