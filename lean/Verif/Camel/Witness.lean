import Verif.Camel.Names
/-!
# C77: an example that meets the hypotheses, and what goes wrong otherwise
-/
namespace Osp.Camel

open Osp.Yaml Osp.Names

namespace Ex

/-- A text in a document. Example. -/
def s (t : String) : Yaml := .str t.toList

/-- Example. -/
def onto : Entries :=
  [(s "HAS_PART", .dict [(s "subclass_of", .list [s "CUBA.ACTIVE_RELATIONSHIP"]), (s "inverse", s "CITY.IS_PART_OF")]),
   (s "IS_PART_OF", .dict [(s "subclass_of", .list [s "CUBA.PASSIVE_RELATIONSHIP"])]),
   (s "NAME", .dict [(s "subclass_of", .list [s "CUBA.ATTRIBUTE"])]),
   (s "CITY_OBJ", .dict [(s "subclass_of", .list [s "CUBA.ENTITY", s "GEO.PLACE2"]), (s "attributes", .dict [(s "CITY.NAME", s "A.B")])]),
   (s "OLD_TOWN", .dict [(s "subclass_of", .list [s "CITY.CITY_OBJ", .dict [(s "CITY.HAS_PART", .dict [(s "range", s "CITY.CITY_OBJ"), (s "cardinality", s "1+")])]])])]

/-- Example. -/
def doc : Entries := [(s "version", s "0.1"), (s "namespace", s "CITY"), (s "requirements", .list [s "GEO"]), (s "default_rel", s "CITY.HAS_PART"), (s "ontology", .dict onto)]

/-- The names of the entities. Example. -/
def names : List Text := ["HAS_PART".toList, "IS_PART_OF".toList, "NAME".toList, "CITY_OBJ".toList, "OLD_TOWN".toList]

theorem reaches : ∀ w ∈ mentions true (.dict onto), Reaches "city".toList onto 6 w := by
  have d1 : Defined onto "HAS_PART".toList [s "CUBA.ACTIVE_RELATIONSHIP"] := ⟨_, rfl, rfl⟩
  have d2 : Defined onto "IS_PART_OF".toList [s "CUBA.PASSIVE_RELATIONSHIP"] := ⟨_, rfl, rfl⟩
  have d3 : Defined onto "NAME".toList [s "CUBA.ATTRIBUTE"] := ⟨_, rfl, rfl⟩
  have d4 : Defined onto "CITY_OBJ".toList [s "CUBA.ENTITY", s "GEO.PLACE2"] := ⟨_, rfl, rfl⟩
  have d5 : Defined onto "OLD_TOWN".toList [s "CITY.CITY_OBJ", .dict [(s "CITY.HAS_PART", .dict [(s "range", s "CITY.CITY_OBJ"), (s "cardinality", s "1+")])]] := ⟨_, rfl, rfl⟩
  have c : ∀ k w, w ∈ cubaWords → Reaches "city".toList onto k w := fun k w => .cuba
  have g : ∀ k, Reaches "city".toList onto k "GEO.PLACE2".toList := fun k => .foreign (p := "GEO".toList) (n := "PLACE2".toList) (by decide) (by decide) (by decide)
  have inv : ∀ (t : String) (w : Text), Yaml.str w = s t → w = t.toList := fun t w h => by injection h
  have n1 : ∀ k, Reaches "city".toList onto (k + 1) "HAS_PART".toList := fun k => .super (by decide) d1 (by decide) (fun w hw => by
    rw [inv _ w (List.mem_singleton.1 hw)]; exact c _ _ (by decide))
  have n2 : ∀ k, Reaches "city".toList onto (k + 1) "IS_PART_OF".toList := fun k => .super (by decide) d2 (by decide) (fun w hw => by
    rw [inv _ w (List.mem_singleton.1 hw)]; exact c _ _ (by decide))
  have n3 : ∀ k, Reaches "city".toList onto (k + 1) "NAME".toList := fun k => .super (by decide) d3 (by decide) (fun w hw => by
    rw [inv _ w (List.mem_singleton.1 hw)]; exact c _ _ (by decide))
  have n4 : ∀ k, Reaches "city".toList onto (k + 1) "CITY_OBJ".toList := fun k => .super (by decide) d4 (by decide) (fun w hw => by
    rcases List.mem_cons.1 hw with hw | hw
    · rw [inv _ w hw]; exact c _ _ (by decide)
    · rw [inv _ w (List.mem_singleton.1 hw)]; exact g _)
  have q : ∀ k (p n : Text), '.' ∉ p → '.' ∉ n → lower p = "city".toList → Reaches "city".toList onto k n → Reaches "city".toList onto (k + 1) (p ++ '.' :: n) := fun k p n => .own
  have q1 : ∀ k, Reaches "city".toList onto (k + 2) "CITY.HAS_PART".toList := fun k => q _ "CITY".toList _ (by decide) (by decide) (by decide) (n1 k)
  have q2 : ∀ k, Reaches "city".toList onto (k + 2) "CITY.IS_PART_OF".toList := fun k => q _ "CITY".toList _ (by decide) (by decide) (by decide) (n2 k)
  have q3 : ∀ k, Reaches "city".toList onto (k + 2) "CITY.NAME".toList := fun k => q _ "CITY".toList _ (by decide) (by decide) (by decide) (n3 k)
  have q4 : ∀ k, Reaches "city".toList onto (k + 2) "CITY.CITY_OBJ".toList := fun k => q _ "CITY".toList _ (by decide) (by decide) (by decide) (n4 k)
  have n5 : ∀ k, Reaches "city".toList onto (k + 3) "OLD_TOWN".toList := fun k => .super (by decide) d5 (by decide) (fun w hw => by
    rcases List.mem_cons.1 hw with hw | hw
    · rw [inv _ w hw]; exact q4 k
    · cases List.mem_singleton.1 hw)
  have hm : mentions true (.dict onto) = ["HAS_PART".toList, "CUBA.ACTIVE_RELATIONSHIP".toList, "CITY.IS_PART_OF".toList, "IS_PART_OF".toList, "CUBA.PASSIVE_RELATIONSHIP".toList,
      "NAME".toList, "CUBA.ATTRIBUTE".toList, "CITY_OBJ".toList, "GEO.PLACE2".toList, "CITY.NAME".toList, "OLD_TOWN".toList, "CITY.CITY_OBJ".toList, "CITY.HAS_PART".toList,
      "CITY.CITY_OBJ".toList] := by decide +kernel
  rw [hm]
  intro w hw
  simp only [List.mem_cons, List.not_mem_nil, or_false] at hw
  rcases hw with rfl | rfl | rfl | rfl | rfl | rfl | rfl | rfl | rfl | rfl | rfl | rfl | rfl | rfl
  · exact n1 _
  · exact c _ _ (by decide)
  · exact q2 _
  · exact n2 _
  · exact c _ _ (by decide)
  · exact n3 _
  · exact c _ _ (by decide)
  · exact n4 _
  · exact g _
  · exact q3 _
  · exact n5 _
  · exact q4 _
  · exact q1 _
  · exact q4 _

end Ex
open Ex

/-- `converts_partial` is not empty: with any answers and any recursion limit above 6. -/
theorem example_converts (answers : Nat → Bool) (limit : Nat) (h : 6 < limit) : ∃ r, convert answers limit doc = .ok r :=
  converts_partial answers limit doc "CITY".toList onto rfl rfl (Or.inr ⟨_, rfl, by decide⟩) 6 h (by
    have e : lower "CITY".toList = "city".toList := by decide
    rw [e]; exact reaches)

/-- `convert_spec` and `asked_once` are not empty: the conversion above. -/
theorem example_spec (answers : Nat → Bool) (limit : Nat) (h : 6 < limit) : ∃ doc' q, convert answers limit doc = .ok (doc', q) ∧ (q.map (·.1)).Nodup ∧
    ∃ ns, Yaml.get doc nsKey = some (.str ns) ∧ Yaml.get doc' nsKey = some (.str (lower ns)) := by
  obtain ⟨r, hr⟩ := example_converts answers limit h
  obtain ⟨ns, _, h1, _, h3, _⟩ := convert_spec answers limit doc r.1 r.2 hr
  exact ⟨r.1, r.2, hr, (asked_once answers limit doc r.1 r.2 hr).1, ns, h1, h3⟩

/-- `entities_kept_partial` is not empty. -/
example (ans : Text → Bool) : ∃ onto', rename (newName "city".toList onto ans) true (.dict onto) = .dict onto' ∧
    onto'.map (·.1) = names.map (fun k => .str (newName "city".toList onto ans k)) ∧
    ∀ k v, (.str k, v) ∈ onto → Yaml.get onto' (newName "city".toList onto ans k) = some (rename (newName "city".toList onto ans) false v) :=
  entities_kept_partial onto names rfl (by decide) (by decide +kernel)

/-- `references_match` is not empty. -/
example (ans : Text → Bool) : newName "city".toList onto ans ("CITY".toList ++ '.' :: "HAS_PART".toList) = "city".toList ++ '.' :: newName "city".toList onto ans "HAS_PART".toList :=
  references_match (p := "CITY".toList) (by decide) (by decide) (by decide) (by decide)

open Classical in
/-- What the new names are: a relationship, and a class whose superclass the user says is a class. -/
theorem example_names (ans : Text → Bool) (h : ans "GEO.PLACE2".toList = true) :
    newName "city".toList onto ans "HAS_PART".toList = "hasPart".toList ∧ newName "city".toList onto ans "CITY_OBJ".toList = "CityObj".toList := by
  have d1 : Defined onto "HAS_PART".toList [s "CUBA.ACTIVE_RELATIONSHIP"] := ⟨_, rfl, rfl⟩
  have d4 : Defined onto "CITY_OBJ".toList [s "CUBA.ENTITY", s "GEO.PLACE2"] := ⟨_, rfl, rfl⟩
  have p1 : IsProp "city".toList onto ans "HAS_PART".toList := .super (w := "CUBA.ACTIVE_RELATIONSHIP".toList) (by decide) d1 (by decide) (List.mem_singleton.2 rfl) (.cuba (by decide))
  have p4 : ¬ IsProp "city".toList onto ans "CITY_OBJ".toList := by
    rw [isProp_name (by decide) d4]
    rintro ⟨_, w, hw, hp⟩
    have inv : ∀ (t : String) (w : Text), Yaml.str w = s t → w = t.toList := fun t w h => by injection h
    rcases List.mem_cons.1 hw with hw | hw
    · rw [inv _ w hw, isProp_cuba (by decide)] at hp
      exact absurd hp (by decide)
    · rw [inv _ w (List.mem_singleton.1 hw)] at hp
      have := (isProp_foreign (p := "GEO".toList) (n := "PLACE2".toList) (by decide) (by decide) (by decide) (by decide)).1 hp
      have h' : ans ("GEO".toList ++ '.' :: "PLACE2".toList) = true := h
      rw [h'] at this
      cases this
  constructor
  · have e : newName "city".toList onto ans "HAS_PART".toList = camel (@decide (¬ IsProp "city".toList onto ans "HAS_PART".toList) _) "HAS_PART".toList := rfl
    rw [e, decide_eq_false (by simpa using p1)]
    decide
  · have e : newName "city".toList onto ans "CITY_OBJ".toList = camel (@decide (¬ IsProp "city".toList onto ans "CITY_OBJ".toList) _) "CITY_OBJ".toList := rfl
    rw [e, decide_eq_true p4]
    decide

/-! ### findings -/

/-- Finding: the default relationship of the document is not renamed; after the conversion it names an entity that is not defined. -/
theorem default_rel_not_renamed : convert (fun _ => true) 3 [(s "namespace", s "C"), (s "default_rel", s "C.HAS"), (s "ontology", .dict [(s "HAS", .dict [(s "subclass_of", .list [s "CUBA.RELATIONSHIP"])])])] =
    .ok ([(s "namespace", s "c"), (s "default_rel", s "C.HAS"), (s "ontology", .dict [(s "has", .dict [(s "subclass_of", .list [s "cuba.relationship"])])])], []) := by
  rfl

/-- Finding: names that differ in an underscore before a digit fall together, and one of the two definitions is lost. -/
theorem definition_lost : convert (fun _ => true) 3 [(s "namespace", s "C"), (s "ontology", .dict [(s "A_1", .dict [(s "subclass_of", .list [s "CUBA.ENTITY"])]), (s "A1", .dict [(s "subclass_of", .list [s "CUBA.FILE"])])])] =
    .ok ([(s "namespace", s "c"), (s "ontology", .dict [(s "A1", .dict [(s "subclass_of", .list [s "cuba.File"])])])], []) := by
  rfl

/-- Finding: a description that looks like a qualified name is taken for an entity; here it ends the conversion with ValueError. -/
theorem description_taken_for_entity : convert (fun _ => true) 5 [(s "namespace", s "C"), (s "ontology", .dict [(s "A", .dict [(s "description", s "C.X"), (s "subclass_of", .list [s "CUBA.ENTITY"])])])] =
    .error (.raised .valueError) := by
  rfl

/-- Finding: the hypothesis of `references_match` that the namespace is not cuba is needed: the relationship defined as RELATIONSHIP in an ontology with the namespace cuba gets the
name Relationship, references to it become cuba.relationship. -/
theorem cuba_itself_inconsistent : convert (fun _ => true) 5 [(s "namespace", s "CUBA"), (s "ontology", .dict [(s "RELATIONSHIP", .dict [(s "subclass_of", .list [])]), (s "HAS", .dict [(s "subclass_of", .list [s "CUBA.RELATIONSHIP"])])])] =
    .ok ([(s "namespace", s "cuba"), (s "ontology", .dict [(s "Relationship", .dict [(s "subclass_of", .list [])]), (s "has", .dict [(s "subclass_of", .list [s "cuba.relationship"])])])], []) := by
  rfl

/-- An ontology whose only entity is its own superclass. Example. -/
def loop : Entries := [(s "A", .dict [(s "subclass_of", .list [s "C.A"])])]

theorem caps_loop (answers : Nat → Bool) (limit : Nat) : ∀ k i q, caps ⟨"c".toList, loop, answers, limit⟩ k i "A".toList q = .error .recursion ∧
    caps ⟨"c".toList, loop, answers, limit⟩ k i "C.A".toList q = .error .recursion := by
  intro k
  induction k with
  | zero => exact fun i q => ⟨rfl, rfl⟩
  | succ k ih =>
    intro i q
    have hd : superclasses ⟨"c".toList, loop, answers, limit⟩ "A".toList = .ok [.str "C.A".toList] := rfl
    constructor
    · have h : anyIs (caps ⟨"c".toList, loop, answers, limit⟩ k true) false [.str "C.A".toList] q = .error .recursion := by
        rw [anyIs, (ih true q).2]
      unfold caps
      rw [if_neg (by decide), if_neg (by decide), if_neg (by decide), if_neg (by decide), hd]
      simp only
      rw [if_neg (by decide), h]
    · have hs : splitOn '.' "C.A".toList = ["C".toList, "A".toList] := by decide
      unfold caps
      rw [if_neg (by decide), if_neg (by decide), if_neg (by decide), if_pos (by decide), hs]
      simp only
      rw [if_pos (by decide), (ih true q).1]

/-- Finding: with a cycle of superclasses the conversion ends in RecursionError, however many calls Python allows. -/
theorem cycle_not_converted (answers : Nat → Bool) (limit : Nat) : convert answers limit [(s "namespace", s "C"), (s "ontology", .dict loop)] = .error .recursion := by
  have h : toCamelCase ⟨"c".toList, loop, answers, limit⟩ "A".toList [] = .error .recursion := by
    unfold toCamelCase
    rw [(caps_loop answers limit limit false []).1]
  have h2 : nestedE ⟨"c".toList, loop, answers, limit⟩ true loop [] = .error .recursion := by
    show nestedE _ true [(s "A", _)] [] = _
    rw [nestedE]
    have : ∀ v rec, entry ⟨"c".toList, loop, answers, limit⟩ true (s "A") v [] rec = .error .recursion := by
      intro v rec
      have hk : keyName true (s "A") = some "A".toList := by decide
      unfold entry
      rw [hk]
      simp only [h]
    rw [this]
  have hi : init answers limit [(s "namespace", s "C"), (s "ontology", .dict loop)] = .ok ⟨"c".toList, loop, answers, limit⟩ := rfl
  have hr : Yaml.get [(s "namespace", s "C"), (s "ontology", .dict loop)] reqKey = none := rfl
  unfold convert
  rw [hi]
  simp only [hr]
  rw [nested, h2]

end Osp.Camel
