import Verif.Setup.Witness
/-!
# Columns without datatype, and the datatypes of cuba (C91)
-/
namespace Osp.Setup
open Osp.Sql Osp.Stmt

/-- **C91.** A column for which no datatype is given is created without a type, and its name is not quoted. -/
theorem untyped_column (ds : Dts) (c : Text) (h : ds.lookup c = none) : colType ds c = .ok none ∧ colText (c, none) = c := by
  refine ⟨?_, rfl⟩
  unfold colType
  rw [h]

example : colType [("uid".toList, none)] "weight".toList = .ok none := (untyped_column _ _ (by decide +kernel)).1

/-- **C91.** The declared datatypes that get a table of their own, written out: those of the namespace of cuba whose name is one of the eighteen names of cuba or begins like a bounded string or a vector. -/
theorem custom_exact (declared : List Text) (d : Text) :
    d ∈ customDatatypes declared ↔ d ∈ declared ∧ ∃ name, d = "http://www.osp-core.com/cuba#".toList ++ name ∧
      (name ∈ ["Class".toList, "Entity".toList, "File".toList, "Nothing".toList, "Wrapper".toList, "activeRelationship".toList, "attribute".toList, "passiveRelationship".toList, "path".toList,
        "relationship".toList, "_default".toList, "_default_attribute".toList, "_default_rel".toList, "_default_value".toList, "_dtype".toList, "_length".toList, "_reference_by_label".toList,
        "_shape".toList] ∨ "_datatypes/STRING-".toList <+: name ∨ "_datatypes/VECTOR-".toList <+: name) := by
  have hn : ∀ name : Text, name ∈ cubaNames ↔ name ∈ ["Class".toList, "Entity".toList, "File".toList, "Nothing".toList, "Wrapper".toList, "activeRelationship".toList, "attribute".toList,
      "passiveRelationship".toList, "path".toList, "relationship".toList, "_default".toList, "_default_attribute".toList, "_default_rel".toList, "_default_value".toList, "_dtype".toList,
      "_length".toList, "_reference_by_label".toList, "_shape".toList] := by
    intro name
    unfold cubaNames
    simp only [List.map_cons, List.map_nil, List.mem_cons, List.not_mem_nil, or_false]
    constructor
    · rintro (h | h | h | h | h | h | h | h | h | h | h | h | h | h | h | h | h | h) <;> simp [h]
    · rintro (h | h | h | h | h | h | h | h | h | h | h | h | h | h | h | h | h | h) <;> simp [h]
  show d ∈ declared.filter inCuba ↔ _
  rw [List.mem_filter]
  refine and_congr_right fun _ => ?_
  unfold inCuba
  rw [Bool.and_eq_true, List.isPrefixOf_iff_prefix]
  have hc : cuba = "http://www.osp-core.com/cuba#".toList := rfl
  constructor
  · rintro ⟨⟨name, rfl⟩, h⟩
    refine ⟨name, by rw [hc], ?_⟩
    dsimp only at h
    rw [List.drop_left, Bool.or_eq_true, Bool.or_eq_true, decide_eq_true_eq, hn, List.isPrefixOf_iff_prefix, List.isPrefixOf_iff_prefix] at h
    rcases h with (h | h) | h
    · exact Or.inl h
    · exact Or.inr (Or.inl h)
    · exact Or.inr (Or.inr h)
  · rintro ⟨name, rfl, h⟩
    rw [← hc]
    refine ⟨⟨name, rfl⟩, ?_⟩
    dsimp only
    rw [List.drop_left, Bool.or_eq_true, Bool.or_eq_true, decide_eq_true_eq, hn, List.isPrefixOf_iff_prefix, List.isPrefixOf_iff_prefix]
    rcases h with h | h | h
    · exact Or.inl (Or.inl h)
    · exact Or.inl (Or.inr h)
    · exact Or.inr h

example : "http://www.osp-core.com/cuba#_datatypes/STRING-3".toList ∈ customDatatypes ["http://www.osp-core.com/cuba#_datatypes/STRING-3".toList] :=
  (custom_exact _ _).2 ⟨List.mem_cons_self, "_datatypes/STRING-3".toList, by decide +kernel, Or.inr (Or.inl ⟨['3'], by decide +kernel⟩)⟩

end Osp.Setup
