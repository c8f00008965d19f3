import Verif.Stmt.Insert
/-!
# Statements with forbidden characters are refused (C38, C89)
-/
namespace Osp.Stmt
open Osp.Sql

variable {Y : Type}

/-- **C38, C89.** An insertion is refused with a ValueError, and no statement is made, if the name of the table or of a column contains the forbidden character. -/
theorem insert_refused {table : Text} {columns : List Text} {values : List (Cell Y)} {dts : Dts} {cs : List Text} {ds : Dts} {vs : List (Cell Y)} (hne : values ≠ [])
    (hn : expandNames dts columns [] dts = .ok (cs, ds)) (hv : expandValues dts columns values = .ok vs) (h : ';' ∈ table ∨ ∃ c ∈ cs, ';' ∈ c) :
    doInsert table columns values dts = .error .valueError := by
  unfold doInsert
  rw [if_neg (by cases values with | nil => exact absurd rfl hne | cons => simp), hn]
  simp only [hv]
  rw [check_bad]
  intro hall
  rcases h with h | ⟨c, hc, h⟩
  · exact (hall (.str table) (by simp)).1 table .here h
  · exact (hall (.list (cs.map .str)) (by simp)).1 c (.list (List.mem_map.2 ⟨c, hc, rfl⟩) .here) h

/-- **C38, C89.** A deletion is refused with a ValueError if the name of the table or the condition contains the forbidden character. -/
theorem delete_refused (S : PySet (Cell Y)) {table : Text} {c : Option (Cond (Cell Y))} (h : ';' ∈ table ∨ ∃ d t, c = some d ∧ Inside t (.cond d) ∧ ';' ∈ t) :
    doDelete S table c = .error .valueError := by
  unfold doDelete
  rw [check_bad]
  intro hall
  rcases h with h | ⟨d, t, rfl, ht, h⟩
  · exact (hall (.str table) (by simp)).1 table .here h
  · exact (hall (condItem (some d)) (by simp)).1 t ht h

/-- **C89.** A condition on a column whose datatype is not given cannot be expanded: the query fails with an AttributeError, and no statement is made. -/
theorem untyped_condition (S : PySet (Cell Y)) {table t c : Text} {v : Cell Y} (h1 : ';' ∉ table) (h2 : ∀ x, Inside x (.cond (.eq t c v none)) → ';' ∉ x) :
    doDelete S table (some (.eq t c v none)) = .error .attributeError := by
  unfold doDelete
  rw [check_ok]
  · rfl
  · intro x hx
    simp only [List.mem_cons, List.not_mem_nil, or_false] at hx
    rcases hx with rfl | rfl
    · exact ⟨fun x hx => by cases hx; exact h1, fun h => nomatch h⟩
    · exact ⟨h2, fun h => nomatch h⟩

/-- **C89.** A pattern whose object is not of the kind the table holds is a TypeError. -/
theorem wrong_object (S : PySet (Cell Y)) (s : Option Nat) (p : Option (Nat × Text)) (o : SObj Y) (table odt : Text)
    (h : (table = relsTable ∧ ∀ u, o ≠ .cuds u) ∨ (table = typesTable ∧ ∀ n t, o ≠ .ent n t) ∨ (table ≠ relsTable ∧ table ≠ typesTable ∧ ∀ v, o ≠ .lit v)) :
    getConditions S s p (some o) table odt = .error .typeError := by
  have hne : typesTable ≠ relsTable := by decide
  unfold getConditions
  rcases h with ⟨rfl, h⟩ | ⟨rfl, h⟩ | ⟨h1, h2, h⟩
  · cases o <;> first | exact absurd rfl (h _) | (simp)
  · cases o <;> first | exact absurd rfl (h _ _) | (simp [hne])
  · cases o <;> first | exact absurd rfl (h _) | (simp [h1, h2])

end Osp.Stmt
