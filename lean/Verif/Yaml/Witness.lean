import Verif.Yaml.Ontology
/-!
# C55: examples, and what the format lets through
-/
namespace Osp.Yaml

/-- Text of a string constant. -/
def s (x : String) : Yaml := .str x.toList

namespace Ex

def cls : Yaml := .dict [(s "description", s "a class"), (s "subclass_of", .list [s "cuba.Class", .dict [(s "city.hasPart", .dict [(s "range", .dict [(s "not", s "city.Street")]), (s "cardinality", s "1-4")])]]),
  (s "attributes", .dict [(s "city.name", .null), (s "city.coordinates", .list [.int 0, .int 1])])]
def rel : Yaml := .dict [(s "subclass_of", .list [s "cuba.activeRelationship"]), (s "inverse", s "city.isPartOf"), (s "default_rel", .bool true), (s "characteristics", .list [s "transitive"])]
def attr : Yaml := .dict [(s "subclass_of", .list [s "cuba.attribute"]), (s "datatype", s "VECTOR:INT:2")]
def doc : Yaml := .dict [(s "version", s "0.0.3"), (s "namespace", s "city"), (s "author", s "someone"), (s "requirements", .list [s "cuba"]),
  (s "ontology", .dict [(s "City", cls), (s "hasPart", rel), (s "coordinates", attr)])]

theorem doc_accepted : validateDoc isDig 12 doc = .ok () := by decide +kernel
theorem doc_depth : depth doc = 7 := by decide +kernel
/-- The example is a YAML ontology in the sense of the specification. -/
example : Document isDig doc := accepted_is_ontology isDig 12 doc doc_accepted
example : validateDoc isDig 16 doc = .ok () := (accepts_exactly_ontologies isDig 16 doc (by rw [doc_depth]; decide)).2 (accepted_is_ontology isDig 12 doc doc_accepted)

/-- A document with this entity and these other fields. -/
def mk (fields : Entries) (name : Yaml) (entity : Yaml) : Yaml := .dict (fields ++ [(s "ontology", .dict [(name, entity)])])
def head : Entries := [(s "version", s "0.0.3"), (s "namespace", s "city")]

/-- Missing keys, unknown keys and wrong types are refused. -/
theorem refused :
    validateDoc isDig 20 (mk [(s "version", s "0.0.3")] (s "City") cls) = .error .valueError ∧
    validateDoc isDig 20 (mk (head ++ [(s "licence", s "x")]) (s "City") cls) = .error .valueError ∧
    validateDoc isDig 20 (mk head (s "City Centre") cls) = .error .valueError ∧
    validateDoc isDig 20 (mk head (s "City") (.dict [])) = .error .valueError ∧
    validateDoc isDig 20 (mk head (s "City") (.dict [(s "subclass_of", s "cuba.Class")])) = .error .valueError ∧
    validateDoc isDig 20 (mk head (s "City") (.dict [(s "subclass_of", .list [s "Class"])])) = .error .valueError ∧
    validateDoc isDig 20 (.list []) = .error .valueError := by decide +kernel

/-- Findings: what is let through. A namespace with dots and blanks after the first letter (the pattern is not anchored); a line feed at the end of names; a version that is a float; YAML's `true` as the
name of an entity, of a namespace or of a requirement; 1 for a truth value; the empty dictionary as a class expression; two operators in one class expression. -/
theorem let_through :
    validateDoc isDig 20 (mk [(s "version", s "0.0.3"), (s "namespace", s "a.b c/../d")] (s "City") cls) = .ok () ∧
    validateDoc isDig 20 (mk head (.str "City\n".toList) cls) = .ok () ∧
    validateDoc isDig 20 (mk [(s "version", .float "1.0".toList), (s "namespace", s "city")] (s "City") cls) = .ok () ∧
    validateDoc isDig 20 (mk head (.bool true) cls) = .ok () ∧
    validateDoc isDig 20 (mk [(s "version", s "0.0.3"), (s "namespace", .bool false)] (s "City") cls) = .ok () ∧
    validateDoc isDig 20 (mk (head ++ [(s "requirements", .list [.bool true])]) (s "City") cls) = .ok () ∧
    validateDoc isDig 20 (mk head (s "hasPart") (.dict [(s "subclass_of", .list []), (s "default_rel", .int 1)])) = .ok () ∧
    validateDoc isDig 20 (mk head (s "City") (.dict [(s "subclass_of", .list [.dict []])])) = .ok () ∧
    validateDoc isDig 20 (mk head (s "City") (.dict [(s "subclass_of", .list [.dict [(s "or", .list []), (s "and", .list [])]])])) = .ok () := by decide +kernel

/-- Findings: what is refused. An upper bound of two digits in a cardinality; a version that is an integer; the datatype `UUID`, which the datatypes module knows. -/
theorem not_let_through :
    validateDoc isDig 20 (mk head (s "City") (.dict [(s "subclass_of", .list [.dict [(s "city.hasPart", .dict [(s "range", s "city.Street"), (s "cardinality", s "1-23")])]])])) = .error .valueError ∧
    validateDoc isDig 20 (mk [(s "version", .int 1), (s "namespace", s "city")] (s "City") cls) = .error .valueError ∧
    validateDoc isDig 20 (mk head (s "id") (.dict [(s "subclass_of", .list [s "cuba.attribute"]), (s "datatype", s "UUID")])) = .error .valueError := by decide +kernel

end Ex

/-- Finding, for all documents: the namespace may be any text that starts with a letter. -/
theorem any_namespace_text (dig : Char → Bool) (l : Entries) (c : Char) (t : Text) (hc : isLetter c = true) (h : Document dig (.dict l))
    (l' : Entries) (hn : get l' "namespace".toList = some (.str (c :: t))) (ho : ∀ k, k ≠ "namespace".toList → get l' k = get l k) (hk : l'.map (·.1) = l.map (·.1)) : Document dig (.dict l') := by
  obtain ⟨l0, h0, hv, -, hon, hd, ha, hr, hon'⟩ := h
  cases h0
  have ne : ∀ k : String, k.toList ≠ "namespace".toList → get l' k.toList = get l k.toList := fun k hk => ho _ hk
  have key : Only l' ["version", "namespace", "ontology", "default_rel", "author", "requirements"] := by
    intro e he
    have : e.1 ∈ l.map (·.1) := by rw [← hk]; exact List.mem_map.2 ⟨e, he, rfl⟩
    obtain ⟨e', he', hee⟩ := List.mem_map.1 this
    rw [← hee]; exact hon' e' he'
  refine ⟨l', rfl, ?_, ⟨_, hn, c, t, rfl, hc⟩, ?_, ?_, ?_, ?_, key⟩
  · unfold Mand; rw [ne "version" (by decide)]; exact hv
  · unfold Mand; rw [ne "ontology" (by decide)]; exact hon
  · unfold Opt; rw [ne "default_rel" (by decide)]; exact hd
  · unfold Opt; rw [ne "author" (by decide)]; exact ha
  · unfold Opt; rw [ne "requirements" (by decide)]; exact hr

/-- `not` nested n times. -/
def nots : Nat → Yaml
  | 0 => s "cuba.Class"
  | n + 1 => .dict [(s "not", nots n)]

theorem nots_valid (dig : Char → Bool) (n : Nat) : ClassExpr dig (nots n) := by
  induction n with
  | zero => exact .name ⟨_, rfl, Or.inl ((qualified_iff _).1 ((accepts_iff _ _).1 (by decide)))⟩
  | succ n ih =>
    refine .neg ?_ ?_
    · intro e he
      simp only [List.mem_cons, List.not_mem_nil, or_false] at he
      subst he
      exact ⟨_, rfl, Or.inl rfl⟩
    · intro e he
      simp only [List.mem_cons, List.not_mem_nil, or_false] at he
      subst he
      exact ih

/-- Finding: however large the limit on nested calls is, there are class expressions in the right format that end with a RecursionError: the limit in the theorems above is needed. -/
theorem deep_expression_recursion_error (dig : Char → Bool) (limit : Nat) : ∀ k, limit ≤ k → validate (formats dig) limit (nots k) classExpression = .error .runtimeError := by
  induction limit using Nat.strongRecOn with
  | _ n ih =>
    intro k hk
    match n, ih, hk with
    | 0, _, _ => rfl
    | 1, _, _ => rfl
    | n + 2, ih, hk =>
      obtain ⟨k, rfl⟩ : ∃ j, k = j + 1 := ⟨k - 1, by omega⟩
      have hrec := ih n (by omega) k (by omega)
      have hq : Rx.matches qualifiedName "not".toList = false := by decide
      have hw : Rx.matches (.whole (.words ["or".toList, "and".toList])) "not".toList = false := by decide
      have hn : Rx.matches (.whole (.word "not".toList)) "not".toList = true := by decide
      cases n with
      | zero => rfl
      | succ n =>
        rw [classExpression, validate]
        simp only [find_ce, validateFormat, tryAll]
        have h1 : validate (formats dig) (n + 2) (nots (k + 1)) (.regex qualifiedName) = .error .valueError := rfl
        have key : ∀ r, validate (formats dig) (n + 1) (s "not") (.regex r) = if r.matches "not".toList then .ok () else .error .valueError := fun r => rfl
        have h2 : validate (formats dig) (n + 2) (nots (k + 1)) (.entries (.regex qualifiedName) (.named "relationship_class_expression".toList)) = .error .valueError := by
          rw [nots, validate]
          simp only [each, key, hq, Bool.false_eq_true, if_false]
        have h3 : validate (formats dig) (n + 2) (nots (k + 1)) (.entries (.regex (.whole (.words ["or".toList, "and".toList]))) (.items classExpression)) = .error .valueError := by
          rw [nots, validate]
          simp only [each, key, hw, Bool.false_eq_true, if_false]
        have h4 : validate (formats dig) (n + 2) (nots (k + 1)) (.entries (.regex (.whole (.word "not".toList))) classExpression) = .error .runtimeError := by
          rw [nots, validate]
          simp only [each, key, hn, if_true, hrec]
        rw [h1]; simp only
        rw [h2]; simp only
        rw [h3]; simp only
        rw [h4]

end Osp.Yaml
