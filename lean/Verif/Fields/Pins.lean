import Verif.Fields.Graph
/-!
# Attributes of a class: constants, truth of terms, the datatype of a restriction (C93)
-/
namespace Osp.Fields
open Osp.Ymlp

/-- **C93.** The terms of OWL and RDFS that are looked for are those of the standards. -/
theorem terms_standard :
    ([owlThing, owlNothing, owlNamedIndividual, topData, bottomData] = ["Thing", "Nothing", "NamedIndividual", "topDataProperty", "bottomDataProperty"].map fun n => "http://www.w3.org/2002/07/owl#".toList ++ n.toList) ∧
      domain = .other ("http://www.w3.org/2000/01/rdf-schema#".toList ++ "domain".toList) ∧
      [someValues, allValues] = ["someValuesFrom", "allValuesFrom"].map fun n => Pred.other ("http://www.w3.org/2002/07/owl#".toList ++ n.toList) := by decide +kernel

/-- **C93.** The only terms that count as false are empty IRIs and texts, and values that are false. -/
theorem truthy_exact (n : Node) : truthy n = false ↔ n = .iri [] ∨ n = .label [] ∨ ∃ v, n = .value v ∧ truth v = false := by
  cases n <;> simp [truthy]

/-- **C93.** The datatype a restriction states: what it says with owl:someValuesFrom, otherwise what it says with owl:allValuesFrom, otherwise nothing. -/
theorem restriction_datatype_exact (g : Gr) (r : Onto.Node Text) :
    (∀ t, (∀ x, Has g (toNode r) someValues x ↔ x = t) → truthy t = true → restrictionDatatype g r = some t) ∧
    ((∀ x, ¬ Has g (toNode r) someValues x) → (∀ t, (∀ x, Has g (toNode r) allValues x ↔ x = t) → restrictionDatatype g r = some t) ∧
      ((∀ x, ¬ Has g (toNode r) allValues x) → restrictionDatatype g r = none)) := by
  refine ⟨fun t h ht => ?_, fun h => ⟨fun t h' => ?_, fun h' => ?_⟩⟩
  · unfold restrictionDatatype Onto.pyOr
    rw [valueOf_unique ((h t).2 rfl) (fun o ho => (h o).1 ho)]
    simp only [ht, if_true]
  · unfold restrictionDatatype Onto.pyOr
    rw [valueOf_none.2 h, valueOf_unique ((h' t).2 rfl) (fun o ho => (h' o).1 ho)]
  · unfold restrictionDatatype Onto.pyOr
    rw [valueOf_none.2 h, valueOf_none.2 h']

end Osp.Fields
