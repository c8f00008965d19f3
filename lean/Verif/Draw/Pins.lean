import Verif.Draw.Props
/-!
# The frames of the clusters (C83)
-/
namespace Osp.Draw

variable {O : Ontology} {P : Par}

/-- **C83.** In a grouped drawing the coloured nodes are exactly those in the labelled clusters. -/
theorem coloured_in_labelled (U : List Ent) (hU : ∀ x ∈ U, ∀ y, Needs O x y → y ∈ U) (entities : Ns → List Ent) (he : ∀ n ∈ P.requested, ∀ e ∈ entities n, e ∈ U)
    (fuel : Nat) (hf : U.length + 1 ≤ fuel) : ∃ st, render O P fuel entities = some st ∧ ∀ n z b, Stmt.node (some n) z b ∈ st.out → b = labelled P n ∧ n ∈ st.clusters := by
  obtain ⟨st, h1, _, _, h4, _, _, h7⟩ := draw_exact (P := P) U hU entities he fuel hf
  refine ⟨st, h1, fun n z b hm => ?_⟩
  obtain ⟨k1, k2⟩ := h4 _ _ _ hm
  have hg : P.group = true ∧ n = O.ns z := by
    by_cases hp : P.group = true
    · rw [if_pos hp] at k1; exact ⟨hp, Option.some.inj k1⟩
    · rw [if_neg hp] at k1; cases k1
  refine ⟨?_, (h7 n).2 ⟨hg.1, z, List.mem_filterMap.2 ⟨_, hm, rfl⟩, hg.2.symm⟩⟩
  rw [Bool.eq_iff_iff, k2, hg.2]
  simp [labelled]

end Osp.Draw
