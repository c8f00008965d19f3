import Verif.Remote.Query
import Verif.Remote.Witness
/-!
# Queries by class through a client: concrete cases and findings (C92)
-/
namespace Osp.Remote
open Osp.Sess Osp.Sync

/-- Example: a history with queries that find the wrapper, an object of the session, an expired one, new ones and nothing. -/
def ops5 : List QOp := [.base (.create 2 {20}), .query [4, 6], .base (.commit .fine none), .base (.modify 2 (insert 21)), .query [1, 6, 4], .base (.modify 6 (insert 61)),
  .base (.commit .fine none), .query [], .query [2, 7]]

theorem along5 : QAlong P3 1 (View.open P3 db3 1 {1}) (connect P3 db3 1 {1}).2 ops5 := by
  refine ⟨?_, ?_, ?_, ?_, ?_, ?_, ?_, ?_, ?_, trivial⟩
  · show 2 ≠ 0 ∧ ¬ (2 = 1 ∨ db3 2 ≠ ∅) ∧ ({20} : Content) ≠ ∅
    decide
  · intro u hu
    have : u = 4 ∨ u = 6 := by simpa using hu
    rcases this with rfl | rfl
    · exact ⟨by decide, fun q => q, by decide +kernel, by decide +kernel⟩
    · exact ⟨by decide, fun q => q, by decide +kernel, by decide +kernel⟩
  · simp [QSafe, Safe]
  · simp [QSafe, Safe, View.qstep, View.step, View.open]
  · intro u hu
    have : u = 1 ∨ u = 6 ∨ u = 4 := by simpa using hu
    rcases this with rfl | rfl | rfl
    · exact ⟨by decide, fun q => q, by decide +kernel, by decide +kernel⟩
    · exact ⟨by decide, fun q => q, by decide +kernel, by decide +kernel⟩
    · exact ⟨by decide, fun q => q, by decide +kernel, by decide +kernel⟩
  · refine ⟨?_, ?_, ?_⟩
    · simp [View.qstep, View.step, View.open, Function.update, db3]
    · simp
    · simp
  · simp [QSafe, Safe]
  · intro u hu; simp at hu
  · intro u hu
    have : u = 2 ∨ u = 7 := by simpa using hu
    rcases this with rfl | rfl
    · exact ⟨by decide, fun q => q, by decide +kernel, by decide +kernel⟩
    · exact ⟨by decide, fun q => q, by decide +kernel, by decide +kernel⟩

/-- The theorems apply, and the history does something. -/
example : (qrun P3 (connect P3 db3 1 {1}).2 ops5).c.reg = [1, 4, 2, 6] ∧ (qrun P3 (connect P3 db3 1 {1}).2 ops5).t.db 6 = {60, 61} ∧ (qrun P3 (connect P3 db3 1 {1}).2 ops5).t.db 2 = {20, 21} ∧
    (query (qrun P3 (connect P3 db3 1 {1}).2 ops5) [1, 2, 7]).1.toOption = some [some 1, some 2, none] := by
  refine ⟨by decide +kernel, by decide +kernel, by decide +kernel, by decide +kernel⟩

example : Shows 1 ((View.open P3 db3 1 {1}).qrun ops5) (qrun P3 (connect P3 db3 1 {1}).2 ops5) := (query_refines_partial hasType3 db3 (by decide) {1} (by decide) ops5 along5).2.1

example : ∀ u ∈ [2, 7], (qrun P3 (connect P3 db3 1 {1}).2 ops5.dropLast).t.db (if u = 1 then 0 else u) ≠ ∅ → u ∈ (query (qrun P3 (connect P3 db3 1 {1}).2 ops5.dropLast) [2, 7]).2.c.reg :=
  fun u hu h => ((query_adds_partial hasType3 db3 (by decide) {1} (by decide) ops5.dropLast [2, 7] along5 _ _ rfl rfl).2.1 u hu h).1

/-- Example: several objects are loaded - some are in the session, one of them expired, some are not, one does not exist, one is named twice -, and refreshed with a change pending. -/
def ops6 : List QOp := [.base (.expire [4]), .loads [7, 4, 6, 1, 6], .base (.modify 6 (insert 61)), .refresh [1, 6, 4, 9], .refresh [], .loads [], .base (.commit .fine (some 0)), .loads [6, 4],
  .base (.commit .fine none), .refresh [6, 4, 1]]

theorem along6 : QAlong P3 1 (View.open P3 db3 1 {1}) (connect P3 db3 1 {1}).2 ops6 := by
  refine ⟨trivial, ?_, ?_, trivial, trivial, ?_, ?_, ?_, ?_, trivial, trivial⟩
  · intro u hu
    have : u = 7 ∨ u = 4 ∨ u = 6 ∨ u = 1 ∨ u = 6 := by simpa using hu
    rcases this with rfl | rfl | rfl | rfl | rfl <;> exact ⟨by decide, fun q => q⟩
  · refine ⟨?_, ?_, ?_⟩
    · simp [View.qstep, View.step, View.open, db3]
    · simp
    · simp
  · intro u hu; simp at hu
  · exact ⟨by decide, by decide +kernel⟩
  · intro u hu
    have : u = 6 ∨ u = 4 := by simpa using hu
    rcases this with rfl | rfl <;> exact ⟨by decide, fun q => q⟩
  · simp [QSafe, Safe]

example : Shows 1 ((View.open P3 db3 1 {1}).qrun ops6) (qrun P3 (connect P3 db3 1 {1}).2 ops6) := (query_refines_partial hasType3 db3 (by decide) {1} (by decide) ops6 along6).2.1

/-- The history does something. -/
example : (qrun P3 (connect P3 db3 1 {1}).2 ops6).c.reg = [1, 4, 6] ∧ (qrun P3 (connect P3 db3 1 {1}).2 ops6).t.db 6 = {60, 61} ∧
    (loadMany P3 (connect P3 db3 1 {1}).2 [7, 4, 6, 1, 6]).1.toOption = some [none, some 4, some 6, some 1, some 6] := by
  refine ⟨by decide +kernel, by decide +kernel, by decide +kernel⟩

theorem local6 : SafeSession P3 db3 1 {1} (ops6.map QOp.locally) := by
  have hins : ∀ (x : Nat) (c : Content), c ≠ ∅ → insert x c ≠ ∅ := by
    intro x c _ h
    have : x ∈ (∅ : Content) := h ▸ Finset.mem_insert_self x c
    simp at this
  refine ⟨by decide +kernel, by decide +kernel, ?_⟩
  show Sess.Along P3 Sess.Safe _ [.expire [4], .load [7, 4, 6, 1, 6], .modify 6 (insert 61), .refresh [1, 6, 4, 9], .refresh [], .load [], .commit (some 0), .load [6, 4], .commit none, .refresh [6, 4, 1]]
  refine ⟨trivial, by unfold Sess.Safe; decide +kernel, ⟨by decide +kernel, by decide +kernel, by decide +kernel, hins 61⟩, trivial, trivial, by unfold Sess.Safe; decide +kernel,
    by unfold Sess.Safe; decide +kernel, by unfold Sess.Safe; decide +kernel, trivial, trivial, trivial⟩

example : ∀ u, u ≠ 0 → (qrun P3 (connect P3 db3 1 {1}).2 ops6).t.db (if u = 1 then 0 else u) = (session P3 db3 1 {1} (ops6.map QOp.locally)).stored u :=
  (query_like_local_partial hasType3 db3 (by decide) {1} (by decide) (Or.inr (by decide)) ops6 along6 local6).2

/-! ### Findings -/

/-- **Finding.** Loading a deleted object together with others before the commit: the client has it again, and the commit deletes it in the database; hence the condition of `QSafe`. -/
theorem loads_revives :
    let s := qrun P3 (connect P3 db3 1 {1}).2 [.base (.delete 4), .loads [6, 4], .base (.commit .fine none)]
    4 ∈ s.c.reg ∧ s.c.g 4 = {40} ∧ s.t.db 4 = ∅ := by decide +kernel

/-- **Finding.** A query that finds an object the client has changed: the client's change is replaced by what is stored, the object is still reported as updated, and the next commit
stores the old triples again; the change is lost without an error. -/
theorem query_discards_changes :
    let s := qrun P3 (connect P3 db3 1 {1}).2 [.base (.modify 4 (insert 41)), .query [4]]
    s.c.g 4 = {40} ∧ s.c.user.updated = [4] ∧ (commit s .fine none).1.toBool = true ∧ (commit s .fine none).2.t.db 4 = {40} := by decide +kernel

/-- **Finding.** The same after a commit that failed: the change is on the server, and a query discards it there and on the client. -/
theorem query_discards_failed_commit :
    let s := qrun P3 (connect P3 db3 1 {1}).2 [.base (.modify 4 (insert 41)), .base (.commit .fine (some 0)), .query [4], .base (.commit .fine none)]
    s.c.g 4 = {40} ∧ s.t.db 4 = {40} ∧ s.c.user = .empty ∧ s.t.user = .empty := by decide +kernel

/-- **Finding.** A query that finds an object the client has deleted: the client's session has it again, and the next commit deletes it in the database. -/
theorem query_revives :
    let s := qrun P3 (connect P3 db3 1 {1}).2 [.base (.delete 4), .query [4], .base (.commit .fine none)]
    4 ∈ s.c.reg ∧ s.c.g 4 = {40} ∧ s.t.db 4 = ∅ ∧ s.c.user = .empty := by decide +kernel

end Osp.Remote
