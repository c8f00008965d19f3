import Verif.Camel.Props
/-!
# Documents the conversion refuses (C77)
-/
namespace Osp.Camel
open Osp.Yaml

/-- **C77.** A document without an ontology or without a namespace is refused with a KeyError; one whose namespace is not a text, or whose ontology is not a mapping, with an
AttributeError. In neither case is the user asked anything. -/
theorem convert_refused (answers : Nat → Bool) (limit : Nat) (doc : Entries) :
    (Yaml.get doc "ontology".toList = none ∨ Yaml.get doc "namespace".toList = none → convert answers limit doc = .error (.raised .keyError)) ∧
    (∀ o ns, Yaml.get doc "ontology".toList = some o → Yaml.get doc "namespace".toList = some ns → (∀ t, ns ≠ .str t) ∨ (∀ l, o ≠ .dict l) →
      convert answers limit doc = .error (.raised .attributeError)) := by
  have ek : ontoKey = "ontology".toList := rfl
  have en : nsKey = "namespace".toList := rfl
  rw [← ek, ← en]
  constructor
  · intro h
    have : init answers limit doc = .error (.raised .keyError) := by
      unfold init
      rcases h with h | h
      · rw [h]
      · rw [h]
        cases Yaml.get doc ontoKey with
        | none => rfl
        | some o => cases o <;> rfl
    unfold convert
    rw [this]
  · intro o ns ho hns h
    have : init answers limit doc = .error (.raised .attributeError) := by
      unfold init
      rw [ho, hns]
      cases o <;> cases ns <;> first | rfl | (rcases h with h | h <;> exact absurd rfl (h _))
    unfold convert
    rw [this]

example : convert (fun _ => true) 5 [(.str "namespace".toList, .str "CITY".toList)] = .error (.raised .keyError) :=
  (convert_refused _ 5 _).1 (Or.inl (by decide +kernel))

/-- **C77.** The names of cuba with a fixed spelling, written out: the relationships and attributes begin with a small letter and the classes with a capital, and the user is never asked
about them. -/
theorem cuba_words (C : Conv) (k : Nat) (internal : Bool) (s : Asked) :
    (∀ w ∈ ["CUBA.RELATIONSHIP", "CUBA.ACTIVE_RELATIONSHIP", "CUBA.PASSIVE_RELATIONSHIP", "CUBA.ATTRIBUTE", "CUBA.PATH"], caps C (k + 1) internal w.toList s = .ok (some false, s)) ∧
    (∀ w ∈ ["CUBA.WRAPPER", "CUBA.NOTHING", "CUBA.FILE"], caps C (k + 1) internal w.toList s = .ok (some true, s)) ∧
    caps C (k + 1) false "CUBA.ENTITY".toList s = .ok (some true, s) ∧ caps C (k + 1) true "CUBA.ENTITY".toList s = .ok (none, s) := by
  have hl : ∀ w ∈ ["CUBA.RELATIONSHIP", "CUBA.ACTIVE_RELATIONSHIP", "CUBA.PASSIVE_RELATIONSHIP", "CUBA.ATTRIBUTE", "CUBA.PATH"], w.toList ∈ cubaLower := by decide +kernel
  have hu : ∀ w ∈ ["CUBA.WRAPPER", "CUBA.NOTHING", "CUBA.FILE"], w.toList ∉ cubaLower ∧ w.toList ∈ cubaUpper := by decide +kernel
  have he : "CUBA.ENTITY".toList ∉ cubaLower ∧ "CUBA.ENTITY".toList ∉ cubaUpper ∧ "CUBA.ENTITY".toList = cubaEntity := by decide +kernel
  refine ⟨fun w hw => ?_, fun w hw => ?_, ?_, ?_⟩
  · simp only [caps, if_pos (hl w hw)]
  · simp only [caps, if_neg (hu w hw).1, if_pos (hu w hw).2]
  · rw [caps, if_neg he.1, if_neg he.2.1, if_pos he.2.2]; rfl
  · rw [caps, if_neg he.1, if_neg he.2.1, if_pos he.2.2]; rfl

theorem lowerAll_texts : ∀ (ts : List Text), lowerAll (ts.map .str) = .ok (ts.map fun t => .str (Names.lower t))
  | [] => rfl
  | t :: ts => by
    show (match lowerAll (ts.map .str) with
      | .error e => Except.error e
      | .ok l' => Except.ok (Yaml.str (Names.lower t) :: l')) = _
    rw [lowerAll_texts ts]
    rfl

theorem lowerAll_bad : ∀ (ts : List Text) (v : Yaml) (l : List Yaml), (∀ t, v ≠ .str t) → lowerAll (ts.map .str ++ v :: l) = .error (.raised .attributeError)
  | [], v, l, h => by
    show lowerAll (v :: l) = _
    cases v <;> first | rfl | exact absurd rfl (h _)
  | t :: ts, v, l, h => by
    show (match lowerAll (ts.map .str ++ v :: l) with
      | .error e => Except.error e
      | .ok l' => Except.ok (Yaml.str (Names.lower t) :: l')) = _
    rw [lowerAll_bad ts v l h]

/-- **C77.** Requirements that are no list are refused with a TypeError, a list with an entry that is no text with an AttributeError; nobody is asked anything. -/
theorem convert_bad_requirements (answers : Nat → Bool) (limit : Nat) (doc o : Entries) (ns : Text) (ho : Yaml.get doc "ontology".toList = some (.dict o))
    (hns : Yaml.get doc "namespace".toList = some (.str ns)) :
    (∀ r, Yaml.get doc "requirements".toList = some r → (∀ l, r ≠ .list l) → convert answers limit doc = .error (.raised .typeError)) ∧
    (∀ (ts : List Text) (v : Yaml) (l : List Yaml), Yaml.get doc "requirements".toList = some (.list (ts.map .str ++ v :: l)) → (∀ t, v ≠ .str t) →
      convert answers limit doc = .error (.raised .attributeError)) := by
  have ek : ontoKey = "ontology".toList := rfl
  have en : nsKey = "namespace".toList := rfl
  have er : reqKey = "requirements".toList := rfl
  rw [← ek] at ho
  rw [← en] at hns
  rw [← er]
  have hi : init answers limit doc = .ok ⟨Names.lower ns, o, answers, limit⟩ := by
    unfold init
    rw [ho, hns]
  constructor
  · intro r hr h
    unfold convert
    rw [hi]
    dsimp only
    rw [hr]
    cases r <;> first | rfl | exact absurd rfl (h _)
  · intro ts v l hr h
    unfold convert
    rw [hi]
    dsimp only
    rw [hr]
    dsimp only
    rw [lowerAll_bad ts v l h]

example : convert (fun _ => true) 5 [(.str "namespace".toList, .str "CITY".toList), (.str "ontology".toList, .dict []), (.str "requirements".toList, .list [.str "CUBA".toList, .int 3])] =
    .error (.raised .attributeError) :=
  (convert_bad_requirements _ 5 _ [] "CITY".toList rfl rfl).2 ["CUBA".toList] (.int 3) [] rfl (fun _ h => nomatch h)

end Osp.Camel
