import Verif.Lazy.Changes
import Verif.Sess.Witness
/-!
# Iterations that are consumed step by step (C104): examples and findings
-/
namespace Osp.Lazy
open Osp.Sess

/-- Example: a database with a wrapper and the objects 4 and 5. -/
def exDb : Uid → Content := fun u => if u = 0 then {1} else if u = 4 then {40} else if u = 5 then {50} else ∅

/-- Example: a session has loaded both objects; then somebody else changes them, the session expires everything and begins to iterate over 4, 5 and 6 (which does not exist). -/
def exHist : List Event := [.call (.create 1 {9}), .call (.load [4, 5]), .call (.extern 4 {41}), .call (.extern 5 {51}), .call .expireAll, .opens [4, 5, 6]]

theorem exHist_proper : ∀ e ∈ exHist, Proper e := by
  intro e he
  simp only [exHist, List.mem_cons, List.not_mem_nil, or_false] at he
  rcases he with rfl | rfl | rfl | rfl | rfl | rfl <;> trivial

theorem exHist_fresh : (run P0 (.start exDb) exHist).gens 0 = ⟨[4, 5, 6], .fresh⟩ := by decide +kernel

theorem exHist_root : (run P0 (.start exDb) exHist).s.root ≠ none := by decide +kernel

/-- Example: the iteration has begun, and somebody else changes the object 5 once more. -/
def exRest : List Event := [.next 0, .call (.extern 5 {52})]

theorem exRest_proper : ∀ e ∈ exHist ++ exRest, Proper e := by
  intro e he
  rcases List.mem_append.1 he with h | h
  · exact exHist_proper e h
  · simp only [exRest, List.mem_cons, List.not_mem_nil, or_false] at h
    rcases h with rfl | rfl <;> trivial

/-- The hypotheses of `turn` for the second turn, in which the object 5 is reloaded. -/
theorem ex_turn : (exRest = [] ∨ ∃ b, exRest = .next 0 :: b) ∧ ((run P0 (.start exDb) (exHist ++ exRest)).gens 0).phase ≠ .done ∧ [4, 5, 6][turns 0 exRest]? = some 5 ∧
    Absent (run P0 (.start exDb) exHist).s 5 ∧ (run P0 (.start exDb) (exHist ++ exRest)).s.stored 5 = {52} ∧ (run P0 (.start exDb) (exHist ++ exRest)).s.g 5 = {50} :=
  ⟨Or.inr ⟨_, rfl⟩, by decide +kernel, by decide +kernel, by unfold Absent; decide +kernel, by decide +kernel, by decide +kernel⟩

/-- The second turn shows what was stored since the iteration began. -/
example : (Lazy.next P0 (run P0 (.start exDb) (exHist ++ exRest)).s ((run P0 (.start exDb) (exHist ++ exRest)).gens 0)).s.g 5 = {52} := by
  have h := (turn P0 exDb exHist exRest exRest_proper 0 [4, 5, 6] exHist_fresh exHist_root ex_turn.1 ex_turn.2.1 5 ex_turn.2.2.1).1 ex_turn.2.2.2.1
  exact h.2.2.1.trans ex_turn.2.2.2.2.1

/-- The whole iteration: 4, 5 and nothing for 6, although a link or an object may come and go in between. -/
theorem ex_given : given P0 0 (run P0 (.start exDb) exHist) [.next 0, .call (.create 7 {70}), .next 0, .call (.delete 7), .next 0, .next 0, .next 0] = [some 4, some 5, none] := by decide +kernel

/-- An object that was there when the iteration began and is removed before its turn makes the iteration raise `KeyError`, and the rest is never visited. -/
theorem removed_meanwhile :
    let y := run P0 (.start exDb) [.call (.create 1 {9}), .call (.load [4, 5]), .opens [4, 5, 6], .next 0, .call (.drop 5)]
    (Lazy.next P0 y.s (y.gens 0)).res.toOption = none ∧ (Lazy.next P0 y.s (y.gens 0)).g.phase = .done := by decide +kernel

/-- Example: the object 4 was visited, and the user changes it. -/
def exChange : List Event := exHist ++ [.next 0, .call (.modify 4 (insert 49))]

theorem exChange_proper : ∀ e ∈ exChange, Proper e := by
  intro e he
  rcases List.mem_append.1 he with h | h
  · exact exHist_proper e h
  · simp only [List.mem_cons, List.not_mem_nil, or_false] at h
    rcases h with rfl | rfl
    · trivial
    · show (4 : Nat) ≠ 0
      decide

theorem waiting_none {y : Sys} (h0 : ∀ i, (y.gens i).phase = .done) (u : Uid) : ¬ Waiting y u := by
  rintro ⟨j, m', l', a, _⟩
  rw [h0 j] at a
  simp at a

theorem waiting_one {y : Sys} (h0 : ∀ i, 1 ≤ i → (y.gens i).phase = .done) {m l : List Uid} {u : Uid} (h1 : (y.gens 0).phase = .running m l) (h2 : u ∉ l) : ¬ Waiting y u := by
  rintro ⟨j, m', l', a, b, _⟩
  cases j with
  | zero =>
    rw [h1] at a
    simp only [Phase.running.injEq] at a
    exact h2 (a.2 ▸ b)
  | succ j =>
    rw [h0 (j + 1) (by omega)] at a
    simp at a

theorem exHist_pending : ∀ u ∈ [4, 5, 6], ¬ Pending (run P0 (.start exDb) exHist).s u := by unfold Pending; decide +kernel

theorem exNext_phase : ((run P0 (.start exDb) (exHist ++ [.next 0])).gens 0).phase = .running [4, 5, 6] [5, 6] := by decide +kernel

theorem exNext_count : (run P0 (.start exDb) (exHist ++ [.next 0])).count = 1 := by decide +kernel

theorem out_of {P : Params} {db : Uid → Content} {h : List Event} (hp : ∀ e ∈ h, Proper e) {n : Nat} (hn : (run P (.start db) h).count = n) (i : Nat) (hi : n ≤ i) : ((run P (.start db) h).gens i).phase = .done :=
  (I.hist (P := P) h (I.start db) hp).out i (hn.symm ▸ hi)

theorem exNext_proper : ∀ e ∈ exHist ++ [.next 0], Proper e := by
  intro e he
  rcases List.mem_append.1 he with h | h
  · exact exHist_proper e h
  · rw [List.mem_singleton.1 h]
    trivial

theorem exNext_out (i : Nat) (hi : 1 ≤ i) : ((run P0 (.start exDb) (exHist ++ [.next 0])).gens i).phase = .done := out_of exNext_proper exNext_count i hi

theorem exChange_phase : ((run P0 (.start exDb) exChange).gens 0).phase = .running [4, 5, 6] [5, 6] := by decide +kernel

theorem careful_append {P : Params} : ∀ (h k : List Event) (y : Sys), Careful P y h → Careful P (run P y h) k → Careful P y (h ++ k)
  | [], _, _, _, b => b
  | _ :: h, k, _, a, b => ⟨a.1, careful_append h k _ a.2 b⟩

/-- The user of the example is careful. -/
theorem exChange_careful : Careful P0 (.start exDb) (exChange ++ [.next 0]) := by
  refine careful_append exChange [.next 0] _ (careful_append exHist _ _ ?_ ?_) ⟨fun k => ?_, trivial⟩
  · exact ⟨fun u _ => waiting_none (fun _ => rfl) u, fun u k => k.elim, fun u k => k.elim, fun u k => k.elim, fun u k => k.elim, trivial, trivial⟩
  · refine ⟨fun _ u hu hp => ?_, fun u hu => ?_, trivial⟩
    · rw [exHist_fresh] at hu
      exact absurd hp (exHist_pending u hu)
    · have hu' : u = 4 := hu
      subst hu'
      have hy : Sys.step P0 (run P0 (.start exDb) exHist) (.next 0) = run P0 (.start exDb) (exHist ++ [.next 0]) := (run_append P0 exHist [.next 0] _).symm
      rw [hy]
      exact waiting_one exNext_out exNext_phase (by decide)
  · rw [exChange_phase] at k
    simp at k

/-- The later steps leave the change alone. -/
example : (run P0 (.start exDb) (exChange ++ [.next 0])).s.g 4 = {41, 49} :=
  (changes_survive_partial P0 exDb exChange 0 exChange_proper exChange_careful 4 (by unfold Pending; decide +kernel)).2.1.trans (by decide +kernel)

/-- Finding (C104): after the first step the object 5 is no longer expired: reading it shows what was stored long ago, although the session was told to expire everything and 5 was not loaded again. -/
theorem stale_read : (run P0 (.start exDb) (exHist ++ [.next 0, .call (.read 5)])).s.g 5 = {50} ∧ (run P0 (.start exDb) (exHist ++ [.next 0, .call (.read 5)])).s.db 5 = {51} ∧
    (run P0 (.start exDb) (exHist ++ [.call (.read 5)])).s.g 5 = {51} := by decide +kernel

/-- Finding (C104): an iteration that is given up (`break`, `first()`) leaves the objects it has not visited in this state; only expiring them again helps. -/
theorem given_up : (run P0 (.start exDb) (exHist ++ [.next 0, .call (.create 7 {70}), .call (.read 5), .call (.read 4), .call (.load [5]), .call (.read 5)])).s.g 5 = {50} ∧
    (run P0 (.start exDb) (exHist ++ [.next 0, .call (.create 7 {70}), .call .expireAll, .call (.read 5)])).s.g 5 = {51} := by decide +kernel

/-- Finding (C104): the user changes the object 5 before the iteration reaches it. The next step throws the change away, without an exception; the object still counts as changed, and the commit writes what was stored before. -/
theorem lost_change :
    let h := exHist ++ [.next 0, .call (.modify 5 (insert 59))]
    (run P0 (.start exDb) h).s.g 5 = {50, 59} ∧ Pending (run P0 (.start exDb) h).s 5 ∧
    (run P0 (.start exDb) (h ++ [.next 0])).s.g 5 = {51} ∧ Pending (run P0 (.start exDb) (h ++ [.next 0])).s 5 ∧
    (run P0 (.start exDb) (h ++ [.next 0, .call (.commit none)])).s.db 5 = {51} ∧
    (run P0 (.start exDb) (h ++ [.call (.commit none)])).s.db 5 = {50, 59} := by unfold Pending; decide +kernel

/-- Finding (C104): an object the user has deleted comes back in the same way; it counts as deleted all the same, and the commit deletes it from the database. -/
theorem deleted_comes_back :
    let h := exHist ++ [.next 0, .call (.delete 5), .next 0]
    5 ∈ (run P0 (.start exDb) h).s.reg ∧ (run P0 (.start exDb) h).s.g 5 = {51} ∧ 5 ∈ (run P0 (.start exDb) h).s.user.deleted ∧
    (run P0 (.start exDb) (h ++ [.call (.commit none)])).s.db 5 = ∅ := by decide +kernel

example : let s := (run P0 (.start exDb) (exHist ++ [.next 0])).s
    5 ∉ s.expired ∧ Sess.step P0 s (.read 5) = (.ok (), s) :=
  marks_taken P0 exDb exHist exHist_proper 0 [4, 5, 6] exHist_fresh exHist_root 5 (by decide)

example : let s := (run P0 (.start exDb) exHist).s
    let d := drain P0 4 s ⟨[4, 5, 6], .fresh⟩
    d.1.toOption = some [some 4, some 5, none] ∧ d.2.g 5 = {51} := by decide +kernel

end Osp.Lazy
