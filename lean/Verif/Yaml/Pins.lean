import Verif.Yaml.Model
import Verif.Yaml.Datatype
/-!
# What counts as a truth value, and the IRIs of the datatypes
-/
namespace Osp.Yaml

/-- **C55.** A value is accepted where a truth value is expected exactly if it is true, false, or a number equal to 0 or 1 (Python's `in (True, False)`). -/
theorem isBool_exact (y : Yaml) : isBool y = true ↔ (∃ b, y = .bool b) ∨ y = .int 0 ∨ y = .int 1 ∨ y = .float "0.0".toList ∨ y = .float "-0.0".toList ∨ y = .float "1.0".toList := by
  cases y <;> simp [isBool, or_assoc]

/-- **C66.** The IRIs by which the datatypes without parameters are stored. -/
theorem basic_iris : basics.map (fun b => (b.name, b.iri)) = [("BOOL".toList, "http://www.w3.org/2001/XMLSchema#boolean".toList), ("INT".toList, "http://www.w3.org/2001/XMLSchema#integer".toList),
    ("FLOAT".toList, "http://www.w3.org/2001/XMLSchema#float".toList), ("STRING".toList, "http://www.w3.org/2001/XMLSchema#string".toList), ("UUID".toList, "UUID".toList)] := rfl

/-- **C55.** The texts by which scalars are validated: those of Python. -/
theorem text_exact (y : Yaml) : y.text = match y with
    | .bool b => some (if b then "True".toList else "False".toList)
    | .int i => some (if 0 ≤ i then dec i.toNat else '-' :: dec (-i).toNat)
    | .float t => some t
    | .str t => some t
    | _ => none := by
  cases y with
  | bool b => cases b <;> rfl
  | int i =>
    simp only [Yaml.text, intText]
    by_cases h : i < 0
    · rw [if_pos h, if_neg (by omega), show (-i).toNat = i.natAbs from by omega]
    · rw [if_neg h, if_pos (by omega), show i.toNat = i.natAbs from by omega]
  | _ => rfl

end Osp.Yaml
