import Verif.Copy.Props
/-! Concrete copies: one that is used to undo a change, and one of an object with content. -/
namespace Osp.Copy
open Osp.Cuds Osp.Store

/-- Example: object 1 contains 2. -/
def before : List Op := [.create 1 5 [(7, 10)], .create 2 5 [(7, 20)], .add 1 [2] (some 1) none]

/-- Example: then 2 is changed. -/
def change : List Op := [.setAttr 2 7 21]

theorem before_ok : AllOk exOnto {} before := by
  repeat' constructor
  all_goals decide

theorem change_ok : AllOk exOnto (run exOnto {} before).2 change := by
  repeat' constructor

/-- The session when the copy is made, and after the change. -/
theorem before_graph : (run exOnto {} before).2.g =
    [⟨1, .attr 7, .val 10⟩, ⟨1, .type, .cls 5⟩, ⟨2, .attr 7, .val 20⟩, ⟨2, .type, .cls 5⟩, ⟨1, .rel 1, .cuds 2⟩, ⟨2, .rel 2, .cuds 1⟩] := by
  decide +kernel

theorem changed_graph : (run exOnto (run exOnto {} before).2 change).2.g =
    [⟨1, .attr 7, .val 10⟩, ⟨1, .type, .cls 5⟩, ⟨2, .type, .cls 5⟩, ⟨1, .rel 1, .cuds 2⟩, ⟨2, .rel 2, .cuds 1⟩, ⟨2, .attr 7, .val 21⟩] := by
  decide +kernel

/-- The copy of 2: its triples and the type of its neighbour 1. -/
theorem copy_example : copy (run exOnto {} before).2.g 2 =
    ⟨2, [⟨2, .attr 7, .val 20⟩, ⟨2, .type, .cls 5⟩, ⟨2, .rel 2, .cuds 1⟩, ⟨1, .type, .cls 5⟩]⟩ := by
  decide +kernel

/-- The conditions of `copy_undo_partial` hold here, and what it says of this case: 2 has its old value again. -/
theorem undo_example : ∃ s', updateCopy idOrder exOnto (run exOnto (run exOnto {} before).2 change).2 1 (copy (run exOnto {} before).2.g 2) = ⟨.ok 2, s'⟩ ∧
    (⟨2, .attr 7, .val 20⟩ : Triple) ∈ s'.g ∧ (⟨2, .attr 7, .val 21⟩ : Triple) ∉ s'.g := by
  have hty : ∀ t ∈ (run exOnto {} before).2.g, t.p = .type → t.o = .cls 5 := by decide +kernel
  have hty' : ∀ t ∈ (run exOnto (run exOnto {} before).2 change).2.g, t.p = .type → t.o = .cls 5 := by decide +kernel
  have hlp : ∀ t ∈ (run exOnto (run exOnto {} before).2 change).2.g, t.o ≠ .cuds t.s := by decide +kernel
  have hlk : (⟨1, .rel 1, .cuds 2⟩ : Triple) ∈ (run exOnto (run exOnto {} before).2 change).2.g := by decide +kernel
  have hn : 2 ∈ (run exOnto {} before).2.reg := by decide +kernel
  have hme : 1 ∈ (run exOnto (run exOnto {} before).2 change).2.reg := by decide +kernel
  obtain ⟨s', h1, h2, _, _⟩ := copy_undo_partial (E := idOrder) (O := exOnto) (me := 1) (n := 2) idOrder_ok exOnto_wf (by intro r; simp [exOnto])
    (run_reachable _ _ _ .init before_ok) change change_ok hn hme (by
      intro x c c' h h'
      have e1 := hty' _ h rfl
      have e2 := hty _ h' rfl
      cases e1
      cases e2
      rfl) (fun u r h => hlp _ h rfl) (by
      intro r x h ha
      rw [before_graph] at h
      simp only [List.mem_cons, Triple.mk.injEq, Pred.rel.injEq, Obj.cuds.injEq, List.not_mem_nil, or_false, reduceCtorEq, and_false, false_or] at h
      rcases h with h | h
      · exact absurd h.1 (by decide)
      · exact Or.inr h.2.2) ⟨1, hlk, by simp [Active, exOnto]⟩
  refine ⟨s', h1, (h2 7 20).2 ?_, fun h => ?_⟩
  · rw [before_graph]; decide
  · have := (h2 7 21).1 h
    rw [before_graph] at this
    exact absurd this (by decide)

/-- Example: as `before`, and 2 contains 3. -/
def withContent : List Op := before ++ [.create 3 5 [(7, 30)], .add 2 [3] (some 1) none]

/-- **C108 fails for objects with content**: 2, which contains 3, is copied and changed, and its copy is added to another object, 4. The call raises AttributeError, the
change is undone nevertheless, and 4 does not contain 2. -/
theorem content_overwritten :
    let s := (run exOnto {} (withContent ++ [.create 4 5 [(7, 40)]])).2
    let s' := (run exOnto s [.setAttr 2 7 21]).2
    let o := addCopy idOrder exOnto s' 4 (copy s.g 2) (some 1) none
    o.res.toOption = none ∧ (⟨2, .attr 7, .val 21⟩ : Triple) ∈ s'.g ∧ (⟨2, .attr 7, .val 20⟩ : Triple) ∈ o.st.g ∧
      (⟨2, .attr 7, .val 21⟩ : Triple) ∉ o.st.g ∧ (⟨4, .rel 1, .cuds 2⟩ : Triple) ∉ o.st.g := by
  decide +kernel

/-- Example: the same copy added in an empty session with only object 1: 3 does not exist there, but 2 keeps a link to it. -/
theorem content_dangles :
    let s := (run exOnto {} withContent).2
    let o := addCopy idOrder exOnto (run exOnto {} [.create 1 5 [(7, 10)]]).2 1 (copy s.g 2) (some 1) none
    o.res.toOption = none ∧ 2 ∈ o.st.reg ∧ 3 ∉ o.st.reg ∧ (⟨2, .rel 1, .cuds 3⟩ : Triple) ∈ o.st.g := by
  decide +kernel

/-- Attributes can be set on a copy; the session does not notice. -/
theorem set_example : ((copy (run exOnto {} before).2.g 2).setAttr exOnto 7 22).2.g = [⟨2, .type, .cls 5⟩, ⟨2, .rel 2, .cuds 1⟩, ⟨1, .type, .cls 5⟩, ⟨2, .attr 7, .val 22⟩] := by
  decide +kernel

end Osp.Copy
