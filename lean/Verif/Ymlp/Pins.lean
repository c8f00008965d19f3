import Verif.Ymlp.Model
/-!
# A default relationship that does not exist (C68)
-/
namespace Osp.Ymlp

/-- **C68.** A default relationship that is not of the form `namespace.name`, or whose namespace or name the registry does not know, raises a ValueError. -/
theorem defaultRel_refused (E : Env) (D : Doc) (g : Gr) (r : Text) (hr : D.defaultRel = some r)
    (h : ¬ ∃ ns name has, splitOn '.' r = [ns, name] ∧ E.reg ns = some has ∧ has name = true) : defaultRelOfDoc E D g = raise .valueError := by
  unfold defaultRelOfDoc
  simp only [hr]
  split
  · rename_i ns name hs
    cases hE : E.reg ns with
    | none => rfl
    | some has =>
      cases hn : has name with
      | true => exact absurd ⟨ns, name, has, hs, hE, hn⟩ h
      | false => simp only [hn]; rfl
  · rfl

/-- **C67.** The values of `default_rel` of an entity that make it the default relationship: all but none, false, zero, and empty texts, lists and dictionaries. -/
theorem truth_exact (y : Yaml.Yaml) : truth y = false ↔ y = .null ∨ y = .bool false ∨ y = .int 0 ∨ y = .float "0.0".toList ∨ y = .float "-0.0".toList ∨ y = .str [] ∨ y = .list [] ∨ y = .dict [] := by
  cases y with
  | float t =>
    simp only [truth, Bool.and_eq_false_iff, bne_eq_false_iff_eq, reduceCtorEq, false_or, or_false, Yaml.Yaml.float.injEq]
  | _ => simp [truth]

/-- **C67.** A name that is not of the form `namespace.name` raises a ValueError. -/
theorem splitName_refused (t : Text) (h : ¬ ∃ a b, splitOn '.' t = [a, b]) : splitName t = .error (.raised .valueError) := by
  unfold splitName
  split
  · rename_i a b e
    exact absurd ⟨a, b, e⟩ h
  · rfl

end Osp.Ymlp
