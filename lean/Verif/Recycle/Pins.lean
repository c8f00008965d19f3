import Verif.Recycle.Props
/-!
# Values that cannot be converted
-/
namespace Osp.Recycle
open Osp.Cuds

/-- **C80.** A new object with a value that cannot be converted: a ValueError, and the session is as before. -/
theorem recycle_new_bad_value (O : Onto) (s : Sess) (u : Uid) (hu : u ∉ s.reg) (h0 : u ≠ 0) (c : Cls) (vals : List (Attr × Val)) (hv : ∃ x ∈ vals, O.conv x.1 x.2 = none)
    (fix : Bool) (rels : List Rel) : createRecycle O s u c (.ok vals) fix rels = ⟨.error .valueError, s⟩ := by
  have h : convAll O vals = .error .valueError := by
    induction vals with
    | nil => obtain ⟨x, hx, _⟩ := hv; cases hx
    | cons y l ih =>
      obtain ⟨a, v⟩ := y
      cases hc : O.conv a v with
      | none => simp only [convAll, hc]
      | some w =>
        obtain ⟨x, hx, hx2⟩ := hv
        rcases List.mem_cons.1 hx with rfl | hx
        · rw [hc] at hx2; cases hx2
        · simp only [convAll, hc, ih ⟨x, hx, hx2⟩]
  simp only [createRecycle, hu, if_false, createNew, h0, h]

/-- **C80.** The uid 0 is refused with a ValueError, before the values are looked at; the session is as before. -/
theorem recycle_new_zero (O : Onto) (s : Sess) (hu : 0 ∉ s.reg) (c : Cls) (vals : List (Attr × Val)) (fix : Bool) (rels : List Rel) :
    createRecycle O s 0 c (.ok vals) fix rels = ⟨.error .valueError, s⟩ := by
  simp only [createRecycle, hu, if_false, createNew, if_true]

/-- **C79.** A neighbour that is not registered makes telling the neighbours fail with an AttributeError; those before it have been told, those after it have not. -/
theorem retype_missing (O : Onto) (u : Uid) (c : Cls) (xs : List Uid) (rest : List (Option Uid)) (g : Graph) :
    retypeLoop O u c (xs.map some ++ none :: rest) g = (.error .attributeError, (retypeLoop O u c (xs.map some) g).2) := by
  induction xs generalizing g with
  | nil => rfl
  | cons x xs ih => simp only [List.map_cons, List.cons_append, retypeLoop, ih]

end Osp.Recycle
