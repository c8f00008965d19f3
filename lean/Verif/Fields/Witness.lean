import Verif.Fields.Props
import Verif.Ymlp.Witness
/-!
# C93: an example that meets the hypotheses, and findings
-/
namespace Osp.Fields
open Osp.Ymlp
open Osp.Yaml (Yaml s)
open Osp.Onto (AttrInfo)

namespace Ex
open Osp.Ymlp.Ex

/-- Example: the graph after parsing, if it succeeds. -/
def result (l : List (Yaml × Yaml)) : Option Gr := match parse E 40 (ontology l) g0 with
  | some (.ok g) => some g
  | _ => none

/-- Example: orders of iteration. -/
def first : List (Onto.Node Text) → Nat := fun _ => 0

/-- Example: a default, if it is a text or a number. -/
def plain : Node → Option (Sum Text Int)
  | .value (.str t) => some (.inl t)
  | .value (.int n) => some (.inr n)
  | _ => none

/-- Example: an attribute with its default, and whether it is obligatory. -/
structure Row where
  id : Text
  default : Option (Sum Text Int)
  obligatory : Bool
deriving DecidableEq

/-- Example: the attributes of a class of the document. -/
def attrs (order : List Text → List Text) (l : List (Yaml × Yaml)) (c : String) : Option (Option (List Row)) :=
  match result l with
  | some g => match attributes g order first 60 (city c) with
    | some (.ok as) => some (some (as.map (fun p => (⟨p.1, p.2.default.bind plain, p.2.obligatory⟩ : Row))))
    | some (.error _) => some none
    | none => none
  | none => none

theorem parsedD : ∃ g', parseOntology E 20 D g0 = .ok g' := by
  obtain ⟨g', h⟩ := Osp.Ymlp.Ex.parsed
  refine ⟨g', ?_⟩
  unfold parse at h
  rw [valid, viewed] at h
  exact Option.some.inj h

/-- The names of the document do not occur in the graph: every IRI in it starts with another namespace. -/
theorem unseen : Unseen D g0 := by
  rintro c ⟨e, _, rfl⟩ t ht
  have hc : ∃ n, iriOf D g0 e = "http://www.osp-core.com/city#".toList ++ n := by
    refine ⟨e.name, ?_⟩
    unfold iriOf
    rw [base_city]
    rfl
  obtain ⟨n, hn⟩ := hc
  have ne : ∀ x : Text, x.take 29 ≠ "http://www.osp-core.com/city#".toList → Node.iri x ≠ .iri (iriOf D g0 e) := by
    intro x hx h
    injection h with h
    refine hx ?_
    rw [h, hn, List.take_append_of_le_length (by decide +kernel)]
    decide +kernel
  simp only [g0, List.mem_cons, List.not_mem_nil, or_false] at ht
  rcases ht with rfl | rfl | rfl | rfl | rfl <;> exact ⟨ne _ (by decide +kernel), ne _ (by decide +kernel)⟩

/-- There are no restrictions in the graph before. -/
theorem tidy : Tidy g0 := by
  have hno : ∀ o, ¬ Has g0 o .type (.iri Owl.restriction.iri) := by
    intro o h
    have : g0.triples.any (fun t => t.p == .type && t.o.isIri Owl.restriction.iri) = true := by
      rw [List.any_eq_true]
      exact ⟨_, h, by simp [Node.isIri]⟩
    rw [show g0.triples.any (fun t => t.p == .type && t.o.isIri Owl.restriction.iri) = false by decide +kernel] at this
    cases this
  exact ⟨fun i => hno _, fun o h => absurd h (hno o)⟩

/-- No class of the document is below owl:Nothing. -/
theorem not_nothing (c : Text) (hc : c ≠ owlNothing) : ¬ Above D g0 c owlNothing := by
  have hs : ∀ x y, Sub D g0 x y → y ≠ owlNothing := by
    rintro x y (⟨e, he, _, _, r, hr, hy⟩ | h) rfl
    · have hall : D.entities.all (fun e => e.supers.all (fun r => match r with
        | some r => match refers D g0 r with
          | .ok i => i != owlNothing
          | .error _ => true
        | none => true)) = true := by decide +kernel
      have k := List.all_eq_true.1 (List.all_eq_true.1 hall e he) _ hr
      simp [hy] at k
    · have : g0.triples.any (fun t => t.p == .subClassOf) = true := by
        rw [List.any_eq_true]
        exact ⟨_, h, by simp⟩
      rw [show g0.triples.any (fun t => t.p == .subClassOf) = false by decide +kernel] at this
      cases this
  intro h
  rcases Relation.ReflTransGen.cases_tail h with h | ⟨y, _, h⟩
  · exact hc h.symm
  · exact hs _ _ h rfl

/-- The hypotheses of C93 hold for the example: Town has the attributes that Place lists, and position is obligatory. -/
example : ∃ g', parseOntology E 20 D g0 = .ok g' ∧ ∀ n, (og g').nodes.length + 2 ≤ n → ∃ as, attributes g' id first n (city "Town") = some (.ok as) ∧
    ∀ a, a ∈ as.map (·.1) ↔ ∃ d, Contributes D g0 (city "Town") d ∧ Gives D g0 d a := by
  obtain ⟨g', h⟩ := parsedD
  refine ⟨g', h, fun n hn => ?_⟩
  obtain ⟨as, h1, _, h2, _⟩ := yaml_attributes_exact proper ready unseen tidy h (city "Town") (not_nothing _ (by decide +kernel)) id (fun l => .refl l) first n hn
  exact ⟨as, h1, h2⟩

/-- Example: the entities of the document above. -/
def es : List (Yaml × Yaml) := [(s "Town", town), (s "Place", place), (s "hasPart", hasPart), (s "isPartOf", isPartOf), (s "name", name), (s "position", position)]

/-- The result, computed. -/
theorem town_attributes : attrs id es "Town" = some (some [⟨city "name", some (.inl "nowhere".toList), false⟩, ⟨city "position", none, true⟩]) := by decide +kernel

/-- Example: a class and a subclass that list the same attribute. -/
def two (d1 d2 : Yaml) : List (Yaml × Yaml) :=
  [(s "A", .dict [(s "subclass_of", .list [s "cuba.Class"]), (s "attributes", .dict [(s "city.name", d1)])]),
   (s "B", .dict [(s "subclass_of", .list [s "city.A"]), (s "attributes", .dict [(s "city.name", d2)])]),
   (s "name", name)]

/-- Finding: a default in the subclass does not lift the obligation of the superclass: the attribute has a default, and still leaving it out raises TypeError. -/
theorem default_no_help : attrs id (two .null (s "x")) "B" = some (some [⟨city "name", some (.inl "x".toList), true⟩]) := by decide +kernel

/-- Finding: if class and superclass list different defaults, the order in which a set is iterated decides; the subclass does not override. -/
theorem order_decides : attrs id (two (s "x") (s "y")) "B" ≠ attrs List.reverse (two (s "x") (s "y")) "B" := by decide +kernel

/-- Finding: the default 0 of a subclass loses against the superclass's in every order. -/
theorem zero_loses : attrs id (two (.int 1) (.int 0)) "B" = some (some [⟨city "name", some (.inr 1), false⟩]) ∧
    attrs List.reverse (two (.int 1) (.int 0)) "B" = some (some [⟨city "name", some (.inr 1), false⟩]) := by decide +kernel

/-- Example: a class in an OWL ontology, with an attribute and a restriction, of which one triple is left out. -/
def owl (r : List Triple) : Gr := ⟨[⟨.iri (city "A"), .type, .iri Owl.class_.iri⟩, ⟨.iri (city "name"), .type, .iri Owl.datatypeProperty.iri⟩,
  ⟨.iri (city "A"), .subClassOf, .blank 0⟩, ⟨.blank 0, .type, .iri Owl.restriction.iri⟩] ++ r, [], 1⟩

/-- Example: reads the own attributes. -/
def ownOf (g : Gr) : Option (List Row) := match own g (city "A") with
  | .ok as => some (as.map (fun p => (⟨p.1, p.2.default.bind plain, p.2.obligatory⟩ : Row)))
  | .error _ => none

/-- Finding: a restriction that has no owl:onProperty makes reading the attributes raise TypeError, if there is any attribute at all. -/
theorem dangling_raises : ownOf (owl []) = none := by decide +kernel

/-- Finding: a restriction that says that *all* values are of some type makes the attribute obligatory. -/
theorem all_values_demanded : ownOf (owl [⟨.blank 0, .onProperty, .iri (city "name")⟩, ⟨.blank 0, allValues, .iri (city "t")⟩]) = some [⟨city "name", none, true⟩] := by decide +kernel

end Ex
end Osp.Fields
