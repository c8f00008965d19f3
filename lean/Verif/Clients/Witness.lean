import Verif.Clients.Props
import Verif.Remote.Witness
/-!
# Several clients in front of one database: concrete cases and findings (C99)
-/
namespace Osp.Clients
open Osp.Sess Osp.Sync Osp.Remote

/-- Example: what two clients do before the second one reads an object that the first one changed. -/
def histA : List (Nat × COp) := [(0, .connect 1 {1}), (1, .connect 8 {1}), (0, .op (.modify 4 (insert 41))), (0, .op (.commit .fine none)), (1, .op (.read 4))]

/-- Example: what the others do after the second client expired the object. -/
def histB : List (Nat × COp) := [(0, .op (.modify 4 (insert 42))), (0, .op (.commit .fine none))]

/-- Example: the rest of the history, with every kind of call. -/
def histC : List (Nat × COp) := [(1, .op (.read 4)), (0, .op (.create 2 {20})), (0, .op (.modify 1 (insert 29))), (0, .op (.commit .fine none)), (1, .op (.load 2)), (1, .op (.modify 2 (insert 21))),
  (1, .op (.commit .noResponse none)), (1, .op (.delete 4)), (0, .op (.modify 2 (insert 22))), (0, .op (.commit .fine (some 0))), (1, .op (.commit .fine none)), (0, .op (.read 4))]

/-- Example: a history of two clients. -/
def hist2 : List (Nat × COp) := histA ++ (1, .op (.expire [4])) :: (histB ++ histC)

theorem insert_full (a : Nat) (c : Content) : insert a c ≠ ∅ := fun h => absurd (h ▸ Finset.mem_insert_self a c : a ∈ (∅ : Content)) (by simp)

theorem along2 : Along P3 Mems.start (World.start db3) hist2 := by
  refine ⟨⟨by decide, by decide⟩, ⟨by decide, by decide⟩, ⟨1, by decide +kernel, by decide +kernel, Or.inr (by decide +kernel), fun _ _ => insert_full _ _⟩, ⟨1, by decide +kernel, by simp [Safe]⟩,
    ⟨8, by decide +kernel, trivial⟩, ⟨8, by decide +kernel, trivial⟩, ⟨1, by decide +kernel, by decide +kernel, Or.inr (by decide +kernel), fun _ _ => insert_full _ _⟩, ⟨1, by decide +kernel, by simp [Safe]⟩,
    ⟨8, by decide +kernel, trivial⟩, ⟨1, by decide +kernel, by decide, ?_, by decide⟩, ⟨1, by decide +kernel, by decide +kernel, Or.inr (by decide +kernel), fun _ _ => insert_full _ _⟩, ⟨1, by decide +kernel, by simp [Safe]⟩,
    ⟨8, by decide +kernel, by decide, Or.inr ?_⟩, ⟨8, by decide +kernel, by decide +kernel, Or.inr (by decide +kernel), fun _ _ => insert_full _ _⟩, ⟨8, by decide +kernel, by simp [Safe]⟩,
    ⟨8, by decide +kernel, by decide +kernel, Or.inr (by decide +kernel), by decide⟩, ⟨1, by decide +kernel, by decide +kernel, Or.inr (by decide +kernel), fun _ _ => insert_full _ _⟩,
    ⟨1, by decide +kernel, by decide, by decide +kernel⟩, ⟨8, by decide +kernel, by simp [Safe]⟩, ⟨1, by decide +kernel, trivial⟩, trivial⟩
  · show ¬ (shown ((step P3 (World.start db3) 0 (.connect 1 {1})).2.at 0) 2 ≠ none)
    decide +kernel
  · show ¬ (shown ((step P3 (step P3 (World.start db3) 0 (.connect 1 {1})).2 1 (.connect 8 {1})).2.at 1) 2 ≠ none)
    decide +kernel

/-- Example: what is shown and stored in the course of the history. The second client shows the old triples until it expired the object and reads it, and then what the first one committed last. -/
theorem case2 : let w := run P3 (World.start db3) histA; let w' := run P3 (World.start db3) (histA ++ (1, .op (.expire [4])) :: (histB ++ [(1, .op (.read 4))])); let w'' := run P3 (World.start db3) hist2
    shown (w.at 1) 4 = some {40} ∧ w.db 4 = {40, 41} ∧ shown (w'.at 1) 4 = some {40, 41, 42} ∧ shown (w''.at 1) 4 = none ∧ shown (w''.at 0) 4 = none ∧ shown (w''.at 1) 2 = some {20, 21} ∧
      shown (w''.at 0) 2 = some {20, 21, 22} ∧ w''.db 2 = {20, 21} ∧ w''.db 4 = ∅ ∧ w''.db 0 = {1, 29, 49} := by decide +kernel

/-- The theorems apply. -/
example : Outcome P3 (Mems.start.run P3 (World.start db3) histA) (run P3 (World.start db3) histA) 1 (.op (.expire [4])) (step P3 (run P3 (World.start db3) histA) 1 (.op (.expire [4]))).1
    (step P3 (run P3 (World.start db3) histA) 1 (.op (.expire [4]))).2 :=
  clients_refine_partial hasType3 db3 hist2 along2 histA _ 1 _ rfl _ rfl

theorem along2' : Along P3 Mems.start (World.start db3) (histA ++ (1, .op (.expire [4])) :: histB) :=
  (along_append (histA ++ (1, .op (.expire [4])) :: histB) histC _ _ along2).1

example : shown ((step P3 (run P3 (World.start db3) (histA ++ (1, .op (.expire [4])) :: histB)) 1 (.op (.read 4))).2.at 1) 4 =
    asObject ((run P3 (World.start db3) (histA ++ (1, .op (.expire [4])) :: histB)).db (place 8 4)) :=
  expired_read_latest_partial hasType3 db3 histA histB 1 (.expire [4]) along2' _ rfl _ rfl 8 (by decide +kernel) 4 (by decide +kernel)
    (Or.inl ⟨[4], rfl, by decide, fun h => absurd (show (4 : Nat) = 8 from h) (by decide)⟩) (by decide) _ rfl

/-- Example: until the first client commits. -/
def histD : List (Nat × COp) := [(0, .connect 1 {1}), (1, .connect 8 {1}), (0, .op (.modify 4 (insert 41)))]

/-- Example: what the second client does then; it commits, too, but has not changed the object. -/
def histE : List (Nat × COp) := [(1, .op (.modify 8 (insert 59))), (1, .op (.commit .fine none)), (1, .op (.read 4))]

theorem along3 : Along P3 Mems.start (World.start db3) (histD ++ (0, .op (.commit .fine none)) :: histE) := by
  refine ⟨⟨by decide, by decide⟩, ⟨by decide, by decide⟩, ⟨1, by decide +kernel, by decide +kernel, Or.inr (by decide +kernel), fun _ _ => insert_full _ _⟩, ⟨1, by decide +kernel, by simp [Safe]⟩,
    ⟨8, by decide +kernel, by decide +kernel, Or.inr (by decide +kernel), fun _ _ => insert_full _ _⟩, ⟨8, by decide +kernel, by simp [Safe]⟩, ⟨8, by decide +kernel, trivial⟩, trivial⟩

example : (run P3 (World.start db3) (histD ++ (0, .op (.commit .fine none)) :: histE)).db (place 1 4) = {40, 41} := by
  refine last_commit_wins_partial hasType3 db3 histD histE 0 .fine along3 _ rfl _ rfl 1 (by decide +kernel) 4 {40, 41} (by decide +kernel) (Or.inl rfl) (fun h => absurd (show (4 : Nat) = 1 from h) (by decide)) ⟨?_, ?_, ?_, trivial⟩
  · rintro ⟨net, r, u, e, -⟩; cases e
  · rintro ⟨net, r, u, e, hr, hu, hp, hc⟩
    have hc' : u = 8 ∨ u = 8 := hc
    obtain rfl : u = 8 := hc'.elim id id
    have hr' : some r = some 8 := hr.symm.trans (by decide +kernel)
    obtain rfl := Option.some.inj hr'
    exact absurd hp (by decide)
  · rintro ⟨net, r, u, e, -⟩; cases e

/-- Finding: a lost update. Two clients read the wrapper, one adds the child 2 and commits, the other one adds the child 5 and commits: the wrapper - each client has its own, but there is one place in the database
for it - does not have the child 2 any more, without an exception. The object 2 is stored, but a client that connects does not find it. The same holds for every object, `last_commit_wins_partial`. -/
theorem lost_update : let w := run P3 (World.start db3) [(0, .connect 1 {1}), (1, .connect 8 {1}), (0, .op (.commit .fine none)), (1, .op (.commit .fine none)), (1, .op (.read 8)), (0, .op (.create 2 {20})),
      (0, .op (.modify 1 (insert 29))), (0, .op (.commit .fine none)), (1, .op (.create 5 {50})), (1, .op (.modify 8 (insert 59))), (1, .op (.commit .fine none))]
    w.db 0 = {1, 49, 59} ∧ w.db 2 = {20} ∧ shown ((step P3 w 2 (.connect 3 {1})).2.at 2) 2 = none ∧ shown ((step P3 w 2 (.connect 3 {1})).2.at 2) 5 = some {50} := by decide +kernel

/-- Finding: why `Safe` does not allow loading an object again that the client had. A client deletes an object; another client that still has it stores it again with another type; the first one loads it: it shows the new type
and the old one, because the triples sent with the deletion are still in the graph of its session on the server. -/
theorem reload_merges : let w := run P3 (World.start db3) [(0, .connect 1 {1}), (1, .connect 8 {1}), (0, .op (.delete 4)), (0, .op (.modify 1 (fun c => c.erase 49))), (0, .op (.commit .fine none)),
      (1, .op (.modify 4 (fun c => insert 43 (c.erase 40)))), (1, .op (.commit .fine none)), (0, .op (.load 4))]
    w.db 4 = {43} ∧ shown (w.at 0) 4 = some {40, 43} := by decide +kernel

/-- Finding: a deletion is undone. A client deletes an object and commits; another client that still has it modifies it and commits: the object is stored again. -/
theorem deletion_undone : let w := run P3 (World.start db3) [(0, .connect 1 {1}), (1, .connect 8 {1}), (0, .op (.delete 4)), (0, .op (.commit .fine none)), (1, .op (.modify 4 (insert 41))), (1, .op (.commit .fine none))]
    w.db 4 = {40, 41} ∧ shown (w.at 0) 4 = none := by decide +kernel

end Osp.Clients
