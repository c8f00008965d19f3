import Verif.Cuds.Props
/-!
# The root of a session (C65)
-/
namespace Osp.Cuds

/-- Specification: the uid of the first creation that succeeds (the nil uid is refused). -/
def firstCreated (ops : List Op) : Option Uid :=
  (ops.filterMap (fun op => match op with
    | .create u _ _ => if u = 0 then none else some u
    | _ => none)).head?

theorem add_root {O : Onto} {s : Sess} (self : Uid) (args : List Uid) (rel d : Option Rel) : (add O s self args rel d).st.root = s.root := by
  unfold add
  repeat' (first | split | rfl)

theorem remove_root {O : Onto} {s : Sess} (self : Uid) (uids : List Uid) (rel : Option Rel) (oc : Option Cls) : (remove O s self uids rel oc).st.root = s.root := by
  unfold remove
  repeat' (first | split | rfl)

theorem setAttr_root {O : Onto} {s : Sess} (u : Uid) (a : Attr) (v : Val) : (setAttr O s u a v).st.root = s.root := by
  unfold setAttr
  repeat' (first | split | rfl)

theorem delete_root {O : Onto} {s : Sess} (u : Uid) : (delete O s u).st.root = s.root := by
  unfold delete
  split
  · rfl
  · split
    · have := remove_root (O := O) (s := s) u [] (some O.relationship) none
      split
      · rename_i h; rw [h] at this; exact this
      · rename_i h; rw [h] at this; exact this
    · rfl

/-- **C65.** In every history of calls, failing ones included, the root is the object created first, whatever happens later. -/
theorem root_is_first (O : Onto) (ops : List Op) (s : Sess) : (run O s ops).2.root = s.root.or (firstCreated ops) := by
  induction ops generalizing s with
  | nil => cases h : s.root <;> simp [run, firstCreated, h]
  | cons op ops ih =>
    show (run O (step O s op).st ops).2.root = _
    rw [ih]
    cases op with
    | create u c vals =>
      show (create s u c vals).st.root.or _ = _
      unfold create
      by_cases hu : u = 0
      · simp [hu, firstCreated]
      · simp only [hu, if_false]
        have : firstCreated (.create u c vals :: ops) = some u := by simp [firstCreated, hu]
        rw [this]
        cases s.root <;> rfl
    | add self args rel d => show (add O s self args rel d).st.root.or _ = _; rw [add_root]; rfl
    | remove self uids rel oc => show (remove O s self uids rel oc).st.root.or _ = _; rw [remove_root]; rfl
    | setAttr u a v => show (setAttr O s u a v).st.root.or _ = _; rw [setAttr_root]; rfl
    | delete u => show (delete O s u).st.root.or _ = _; rw [delete_root]; rfl

/-- A new session. -/
theorem root_of_new_session (O : Onto) (ops : List Op) : (run O {} ops).2.root = firstCreated ops := root_is_first O ops {}

example : firstCreated [.create 0 1 [], .create 7 1 [], .create 8 1 [], .delete 7] = some 7 := by decide

/-- Finding (C65): the root of a session stays the root after its object was deleted; the registry no longer has it. -/
theorem deleted_root_stays (O : Onto) : (run O {} [.create 7 1 [], .create 8 1 [], .delete 7]).2.root = some 7 := root_is_first O _ {}

end Osp.Cuds
