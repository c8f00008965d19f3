import Verif.Draw.Props
/-!
# Concrete drawings of an ontology
-/
namespace Osp.Draw.Ex

/-- Namespace 0 (cuba): the class 0, the relationship 1 and its inverse 2. Namespace 1 (city): the classes 3 and 4 below 0, 5 below 3 and 4, the
relationships 6 and 7, inverse to each other, below 1 and 2; the relationship 8 below 1, whose inverse 9 below 2 was created automatically; attribute 10. -/
def O : Ontology where
  kind e := if e = 0 ∨ e = 3 ∨ e = 4 ∨ e = 5 then .cls else if e = 10 then .attr else .rel
  ns e := if e ≤ 2 then 0 else 1
  supers e := if e = 3 ∨ e = 4 then [0] else if e = 5 then [3, 4] else if e = 6 ∨ e = 8 then [1] else if e = 7 ∨ e = 9 then [2] else []
  inverse e := if e = 1 then 2 else if e = 2 then 1 else if e = 6 then 7 else if e = 7 then 6 else if e = 8 then 9 else if e = 9 then 8 else e
  automatic e := e = 9

/-- Drawing namespace 1, grouped. -/
def P : Par := ⟨[1], true⟩

/-- The entities. -/
def U : List Ent := [0, 1, 2, 3, 4, 5, 6, 7, 8, 9, 10]

theorem closed : ∀ x ∈ U, ∀ y, Needs O x y → y ∈ U := by
  have h : ∀ x ∈ U, (∀ y ∈ O.supers x, y ∈ U) ∧ O.inverse x ∈ U := by decide +kernel
  rintro x hx y (hy | ⟨_, rfl, _⟩)
  · exact (h x hx).1 y hy
  · exact (h x hx).2

/-- The hypotheses of `draw_exact` and `draw_inverses` hold. -/
example : ∃ st, render O P 12 (fun _ => [10, 8, 6, 7, 5, 3, 4]) = some st ∧ (nodes st.out).Nodup := by
  obtain ⟨st, h1, h2, _⟩ := draw_exact (P := P) U closed (fun _ => [10, 8, 6, 7, 5, 3, 4]) (by decide +kernel) 12 (by decide +kernel)
  exact ⟨st, h1, h2⟩

theorem inverses_wf : ∀ e, O.kind e = .rel → O.kind (O.inverse e) = .rel ∧ O.inverse (O.inverse e) = e := by
  intro e he
  by_cases h : e ∈ U
  · have : ∀ e ∈ U, O.kind e = .rel → O.kind (O.inverse e) = .rel ∧ O.inverse (O.inverse e) = e := by decide +kernel
    exact this e h he
  · simp only [U, List.mem_cons, List.not_mem_nil, or_false, not_or] at h
    have : O.inverse e = e := by simp [O, h]
    rw [this]
    exact ⟨he, this⟩

/-- The drawing: superclasses outside the namespace are drawn without colour, in their own cluster. -/
theorem drawing : (render O P 12 (fun _ => [10, 8, 6, 7, 5, 3, 4])).map (fun st => (nodes st.out, isAs st.out, invs st.out, st.clusters)) =
    some ([10, 8, 1, 2, 6, 7, 5, 3, 0, 4], [(8, 1), (7, 2), (6, 1), (3, 0), (5, 3), (4, 0), (5, 4)], [(1, 2), (6, 7)], [1, 0]) := by
  decide +kernel

/-- Recorded: the edge to an inverse that was created automatically is drawn or not, depending on which of the two relationships the namespace
enumerates first. -/
theorem automatic_inverse_depends_on_order :
    (render O P 12 (fun _ => [8, 9])).map (fun st => (nodes st.out, invs st.out)) = some ([8, 1, 2, 9], [(1, 2)]) ∧
    (render O P 12 (fun _ => [9, 8])).map (fun st => (nodes st.out, invs st.out)) = some ([9, 8, 1, 2], [(1, 2), (9, 8)]) := by
  decide +kernel

end Osp.Draw.Ex
