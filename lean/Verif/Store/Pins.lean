import Verif.Store.Model
/-!
# Neighbours that are not registered (C25)
-/
namespace Osp.Store
open Osp.Cuds

/-- **C25.** A former neighbour that is not registered makes fixing the former neighbours fail with an AttributeError, wherever it is in the list. -/
theorem fixOldNeighbors_missing (E : Order) (O : Onto) (reg : List Uid) (u : Uid) (old : Graph) (ds : List (Uid × Rel)) (g : Graph) (h : ∃ d ∈ ds, d.1 ∉ reg) :
    fixOldNeighbors E O reg u old ds g = .error .attributeError := by
  induction ds generalizing g with
  | nil => obtain ⟨d, hd, _⟩ := h; cases hd
  | cons d ds ih =>
    obtain ⟨x, r⟩ := d
    unfold fixOldNeighbors
    by_cases hx : x ∈ reg
    · have ih' := fun g => ih g (by
        obtain ⟨d, hd, h2⟩ := h
        rcases List.mem_cons.1 hd with rfl | hd
        · exact absurd hx h2
        · exact ⟨d, hd, h2⟩)
      have : ∃ g', fixOldOne E O reg u old x r g = .ok g' := by
        unfold fixOldOne
        split
        · exact ⟨_, rfl⟩
        · exact ⟨_, rfl⟩
      obtain ⟨g', hg⟩ := this
      simp only [hg, ih']
    · have : fixOldOne E O reg u old x r g = .error .attributeError := by
        unfold fixOldOne
        split
        · rfl
        · rfl
      simp only [this]

/-- **C25.** An object without a class cannot be copied to a session: a TypeError, and the session is unchanged. -/
theorem createFrom_no_class (E : Order) (src s : Sess) (u : Uid) (h : oclass src.g u = none) : createFrom E src s u = ⟨.error .typeError, s⟩ := by
  unfold createFrom
  rw [h]

end Osp.Store
