import Verif.Value.Witness
/-!
# Values of bool and float attributes, attributes without a value (C90)
-/
namespace Osp.Value
open Osp.Yaml

variable {F : Type}

/-- **C90.** A number given to a bool attribute is true if and only if it is not zero. -/
theorem bool_of_int (fl : Fl F) {dt : Option Text} (hc : getPython dt = .ok (.basic .bool)) (i : Int) : convertTo fl dt (.atom (.int i)) = .ok (.bool (decide (i ≠ 0))) := by
  simp only [convertTo, hc, convTo, pyBool, atomTruth]
  congr 2
  by_cases h : i = 0 <;> simp [h]

/-- **C90.** A text is true if and only if it is not empty; so is a literal without a value. -/
theorem bool_of_text (fl : Fl F) {dt : Option Text} (hc : getPython dt = .ok (.basic .bool)) (t : Text) (d : Option Text) :
    convertTo fl dt (.atom (.str t)) = .ok (.bool (decide (t ≠ []))) ∧ convertTo fl dt (.lit ⟨t, d, none⟩) = .ok (.bool (decide (t ≠ []))) := by
  simp only [convertTo, hc, convTo, pyBool, atomTruth]
  cases t <;> exact ⟨rfl, rfl⟩

/-- **C90.** A number too large for a float is an OverflowError. -/
theorem float_of_large (fl : Fl F) {dt : Option Text} (hc : getPython dt = .ok (.basic .float)) (i : Int) (h : fl.ofInt i = none) :
    convertTo fl dt (.atom (.int i)) = .error .overflowError := by
  simp only [convertTo, hc, convTo, toFloat, floatOfInt, h]
  rfl

/-- **C90.** Reading an attribute that has no value is an AttributeError, and nothing but the number of reads changes. -/
theorem get_missing (o : Obj F) (a : Attr) (h : ∀ l, (a.iri, l) ∉ o.graph) : getattr o a = (.error .attributeError, { o with reads := o.reads + 1 }) := by
  have : o.graph.find? (fun x => x.1 == a.iri) = none := by
    rw [List.find?_eq_none]
    rintro ⟨p, l⟩ hm hp
    have : p = a.iri := by simpa using hp
    exact h l (this ▸ hm)
  simp only [getattr, this]

end Osp.Value
