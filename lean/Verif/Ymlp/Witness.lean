import Verif.Ymlp.Accepted
import Verif.Ymlp.Order
import Verif.Yaml.Witness
/-!
# C67 - C70: when the hypotheses hold, an example, and findings
-/
namespace Osp.Ymlp
open Osp.Yaml (Yaml s)

theorem hash_split {a b n m : Text} (ha : '#' ∉ a) (hb : '#' ∉ b) (h : a ++ '#' :: n = b ++ '#' :: m) : a = b ∧ n = m := by
  induction a generalizing b with
  | nil =>
    cases b with
    | nil => injection h with _ h; exact ⟨rfl, h⟩
    | cons c b => injection h with h _; exact absurd (h ▸ List.mem_cons_self) hb
  | cons c a ih =>
    cases b with
    | nil => injection h with h _; exact absurd (h ▸ List.mem_cons_self) ha
    | cons d b =>
      injection h with h1 h2
      obtain ⟨h3, h4⟩ := ih (fun x => ha (List.mem_cons_of_mem _ x)) (fun x => hb (List.mem_cons_of_mem _ x)) h2
      rw [h1, h3]; exact ⟨rfl, h4⟩

/-- The usual situation: the IRIs of all namespaces have exactly one `#`, at the end, and no other namespace has the IRI of the document's. -/
theorem ready_of_hash {D : Doc} {g : Gr} (hD : Proper D) (hh : ∀ ns, Plain ns → ∃ a, nsIri g ns = a ++ ['#'] ∧ '#' ∉ a) (hne : ∀ ns, ns ≠ D.own → nsIri g ns ≠ base D g)
    (hnl : ¬ Has g (.iri (base D g)) .referenceByLabel .yes) (hf : ∀ t ∈ g.triples, ∀ k, (t.s = .blank k ∨ t.o = .blank k) → k < g.next) : Ready D g := by
  obtain ⟨b, hb, hb'⟩ := hh D.own hD.own.2
  have hb : base D g = b ++ ['#'] := hb
  have hdt : ∀ (a n u : Text), '#' ∉ a → Plain n → a ++ '#' :: n ≠ Yaml.dtPrefix ++ u := by
    intro a n u ha hn h
    have hd : Yaml.dtPrefix ++ u = "http://www.osp-core.com/cuba".toList ++ '#' :: ("_datatypes/".toList ++ u) := by
      have : Yaml.dtPrefix = "http://www.osp-core.com/cuba".toList ++ '#' :: "_datatypes/".toList := by decide +kernel
      rw [this, List.append_assoc]; rfl
    rw [hd] at h
    obtain ⟨_, rfl⟩ := hash_split ha (by decide +kernel) h
    exact hn.2 (List.mem_append_left _ (by decide +kernel))
  refine ⟨hnl, ?_, ?_, hf⟩
  · intro ns hns ho n m hn hm
    obtain ⟨a, ha, ha'⟩ := hh ns hns
    have hna := hne ns ho
    rw [ha, hb]
    rw [ha, hb] at hna
    simp only [List.append_assoc, List.cons_append, List.nil_append]
    refine ⟨fun h => ?_, ?_, fun u => hdt a n u ha' hn⟩
    · exact hna (by rw [(hash_split ha' hb' h).1])
    · rintro ⟨x, hx⟩
      simp only [List.append_assoc, List.cons_append, List.nil_append] at hx
      exact hna (by rw [(hash_split ha' hb' hx).1])
  · intro m u hm
    rw [hb]
    simp only [List.append_assoc, List.cons_append, List.nil_append]
    exact hdt b m u hb' hm

namespace Ex

def cuba (t : String) : Text := "http://www.osp-core.com/cuba#".toList ++ t.toList
def city (t : String) : Text := "http://www.osp-core.com/city#".toList ++ t.toList

/-- The part of CUBA that is needed. -/
def g0 : Gr := ⟨[⟨.iri (cuba "Class"), .type, .iri Owl.class_.iri⟩, ⟨.iri (cuba "relationship"), .type, .iri Owl.objectProperty.iri⟩, ⟨.iri (cuba "activeRelationship"), .type, .iri Owl.objectProperty.iri⟩,
  ⟨.iri (cuba "attribute"), .type, .iri Owl.datatypeProperty.iri⟩, ⟨.iri (cuba "attribute"), .type, .iri Owl.functionalProperty.iri⟩],
  [("cuba".toList, "http://www.osp-core.com/cuba#".toList), ("owl".toList, "http://www.w3.org/2002/07/owl#".toList)], 5⟩

def E : Env := ⟨Yaml.isDig, 30, fun n => if n = "cuba".toList then some (fun m => m == "activeRelationship".toList) else none⟩

def place : Yaml := .dict [(s "subclass_of", .list [s "cuba.Class"]), (s "attributes", .dict [(s "CITY.name", s "nowhere"), (s "city.position", .null)])]
def town : Yaml := .dict [(s "description", s "a town"), (s "subclass_of", .list [s "city.Place"])]
def hasPart : Yaml := .dict [(s "subclass_of", .list [s "cuba.activeRelationship"]), (s "inverse", s "city.isPartOf"), (s "default_rel", .bool true)]
def isPartOf : Yaml := .dict [(s "subclass_of", .list [s "cuba.relationship"]), (s "inverse", s "city.hasPart")]
def name : Yaml := .dict [(s "subclass_of", .list [s "cuba.attribute"])]
def position : Yaml := .dict [(s "subclass_of", .list [s "cuba.attribute"]), (s "datatype", s "VECTOR:INT:2")]
def ontology (es : List (Yaml × Yaml)) : Yaml := .dict [(s "version", s "0.0.3"), (s "namespace", s "CITY"), (s "ontology", .dict es)]
def doc : Yaml := ontology [(s "Town", town), (s "Place", place), (s "hasPart", hasPart), (s "isPartOf", isPartOf), (s "name", name), (s "position", position)]

/-- Its parts. -/
def D : Doc := ⟨"CITY".toList, none, [⟨"Town".toList, town, some "a town".toList, [some "city.Place".toList], none, none, none, none⟩,
  ⟨"Place".toList, place, none, [some "cuba.Class".toList], none, none, none, some [("CITY.name".toList, s "nowhere"), ("city.position".toList, .null)]⟩,
  ⟨"hasPart".toList, hasPart, none, [some "cuba.activeRelationship".toList], some "city.isPartOf".toList, some true, none, none⟩,
  ⟨"isPartOf".toList, isPartOf, none, [some "cuba.relationship".toList], some "city.hasPart".toList, none, none, none⟩,
  ⟨"name".toList, name, none, [some "cuba.attribute".toList], none, none, none, none⟩,
  ⟨"position".toList, position, none, [some "cuba.attribute".toList], none, none, some "VECTOR:INT:2".toList, none⟩]⟩

theorem viewed : view doc = some D := by rfl
theorem valid : Yaml.validateDoc E.dig E.limit doc = .ok () := by decide +kernel

theorem proper : Proper D :=
  accepted_proper (Yaml.accepted_is_ontology _ _ _ valid) viewed (by decide +kernel) ⟨by decide +kernel, by decide +kernel⟩

theorem iris (ns : Text) : nsIri g0 ns = if ns = "cuba".toList then "http://www.osp-core.com/cuba#".toList else if ns = "owl".toList then "http://www.w3.org/2002/07/owl#".toList
    else "http://www.osp-core.com/".toList ++ ns ++ "#".toList := by
  unfold nsIri g0
  by_cases h1 : ns = "cuba".toList
  · subst h1; rw [if_pos rfl]; rfl
  · rw [if_neg h1]
    by_cases h2 : ns = "owl".toList
    · subst h2; rw [if_pos rfl]; rfl
    · rw [if_neg h2]
      have b1 : ("cuba".toList == ns) = false := by simpa using fun h => h1 h.symm
      have b2 : ("owl".toList == ns) = false := by simpa using fun h => h2 h.symm
      simp only [List.find?_cons, b1, b2, List.find?_nil]

theorem base_city : base D g0 = "http://www.osp-core.com/".toList ++ "city".toList ++ "#".toList := by
  show nsIri g0 D.own = _
  rw [iris, if_neg (by decide +kernel), if_neg (by decide +kernel)]
  have : D.own = "city".toList := by decide +kernel
  rw [this]

theorem ready : Ready D g0 := by
  refine ready_of_hash proper ?_ ?_ ?_ ?_
  · intro ns hns
    rw [iris]
    split
    · exact ⟨"http://www.osp-core.com/cuba".toList, by decide +kernel, by decide +kernel⟩
    · split
      · exact ⟨"http://www.w3.org/2002/07/owl".toList, by decide +kernel, by decide +kernel⟩
      · refine ⟨"http://www.osp-core.com/".toList ++ ns, rfl, ?_⟩
        rw [List.mem_append]
        rintro (h | h)
        · revert h; decide +kernel
        · exact hns.1 h
  · intro ns hne
    rw [base_city, iris]
    split
    · decide +kernel
    · split
      · decide +kernel
      · intro h
        rw [List.append_left_inj, List.append_right_inj] at h
        exact hne (by rw [h]; decide +kernel)
  · rintro h
    simp [Has, g0] at h
  · intro t ht k hk
    simp only [g0, List.mem_cons, List.not_mem_nil, or_false] at ht
    rcases ht with rfl | rfl | rfl | rfl | rfl <;> rcases hk with hk | hk <;> cases hk

def done : Option (Run Gr) → Bool
  | some (.ok _) => true
  | _ => false

theorem done_iff {r : Option (Run Gr)} (h : done r = true) : ∃ g, r = some (.ok g) := by
  unfold done at h
  split at h
  · exact ⟨_, rfl⟩
  · cases h

/-- The example is parsed. -/
theorem parsed : ∃ g', parse E 20 doc g0 = some (.ok g') := done_iff (by decide +kernel)

theorem distinct : (D.entities.map (·.name)).Nodup := by decide +kernel

/-- The conditions of C68 hold for the example. -/
theorem fine : Fine E D g0 := by
  obtain ⟨g', h⟩ := parsed
  exact ((document_parsed_iff viewed distinct ⟨by decide +kernel, by decide +kernel⟩ ready).1 ⟨20, g', h⟩).2

/-- The graph has these two IRIs in a triple. -/
def hasIri (g : Gr) (s : Text) (p : Pred) (o : Text) : Bool := g.triples.any (fun t => t.s.isIri s && t.p == p && t.o.isIri o)

theorem isIri_iff {n : Node} {i : Text} : n.isIri i = true ↔ n = .iri i := by
  cases n <;> simp [Node.isIri]

theorem hasIri_has {g : Gr} {s o : Text} {p : Pred} (h : hasIri g s p o = true) : Has g (.iri s) p (.iri o) := by
  unfold hasIri at h
  rw [List.any_eq_true] at h
  obtain ⟨⟨s', p', o'⟩, ht, h⟩ := h
  simp only [Bool.and_eq_true, beq_iff_eq, isIri_iff] at h
  obtain ⟨⟨rfl, rfl⟩, rfl⟩ := h
  exact ht

def check : Option (Run Gr) → (Gr → Bool) → Bool
  | some (.ok g), f => f g
  | _, _ => false

/-- Some of what the example's graph has: the kind that comes from above, the superclass, the inverse, the default relationship, the range of the attribute. -/
theorem parsed_says : ∃ g', parse E 20 doc g0 = some (.ok g') ∧ Has g' (.iri (city "Town")) .type (.iri Owl.class_.iri) ∧ Has g' (.iri (city "Town")) .subClassOf (.iri (city "Place")) ∧
    Has g' (.iri (city "hasPart")) .inverseOf (.iri (city "isPartOf")) ∧ Has g' (.iri (city "")) .defaultRel (.iri (city "hasPart")) ∧
    Has g' (.iri (city "position")) .range (.iri "http://www.osp-core.com/cuba#_datatypes/VECTOR-INT-2".toList) := by
  have h : check (parse E 20 doc g0) (fun g => hasIri g (city "Town") .type Owl.class_.iri && hasIri g (city "Town") .subClassOf (city "Place") && hasIri g (city "hasPart") .inverseOf (city "isPartOf") &&
    hasIri g (city "") .defaultRel (city "hasPart") && hasIri g (city "position") .range "http://www.osp-core.com/cuba#_datatypes/VECTOR-INT-2".toList) = true := by decide +kernel
  unfold check at h
  split at h
  · rename_i g hg
    simp only [Bool.and_eq_true] at h
    obtain ⟨⟨⟨⟨h1, h2⟩, h3⟩, h4⟩, h5⟩ := h
    exact ⟨g, hg, hasIri_has h1, hasIri_has h2, hasIri_has h3, hasIri_has h4, hasIri_has h5⟩
  · cases h

/-- The same entities in another order, with the same result up to the numbers of blank nodes. -/
def D' : Doc := { D with entities := D.entities.reverse }
theorem reordered : Reordered D D' := ⟨rfl, rfl, (List.reverse_perm _).symm⟩
example : ∃ fuel g2, parseOntology E fuel D' g0 = .ok g2 := by
  obtain ⟨fuel, g1, h⟩ := (parse_succeeds_iff proper ready).2 fine
  obtain ⟨f, g2, h2, _⟩ := order_irrelevant proper ready reordered h
  exact ⟨f, g2, h2⟩

/-! ### findings -/

def failed : Option (Run Gr) → Option Fail
  | some (.error e) => some e
  | _ => none

def sub (r : String) : Yaml := .dict [(s "subclass_of", .list [s r])]
def run (l : List (Yaml × Yaml)) : Option (Run Gr) := parse E 40 (ontology l) g0
def withDefault (r : String) : Yaml := .dict [(s "version", s "0.0.3"), (s "namespace", s "CITY"), (s "default_rel", s r), (s "ontology", .dict [(s "hasPart", sub "cuba.activeRelationship")])]

/-- Finding: a superclass of the document in the other spelling ends in a `KeyError`; in attributes it is understood. -/
theorem other_spelling :
    failed (run [(s "CITY_PART", sub "cuba.Class"), (s "Town", sub "city.CityPart")]) = some (.raised .keyError) ∧
    done (run [(s "Town", .dict [(s "subclass_of", .list [s "cuba.Class"]), (s "attributes", .dict [(s "city.MyAttr", .null)])]), (s "MY_ATTR", sub "cuba.attribute")]) = true := by decide +kernel

/-- Finding: `default_rel: false` counts as a default relationship. -/
theorem false_counts :
    failed (run [(s "a", .dict [(s "subclass_of", .list [s "cuba.relationship"]), (s "default_rel", .bool false)]), (s "b", .dict [(s "subclass_of", .list [s "cuba.relationship"]), (s "default_rel", .bool true)])]) =
      some (.raised .valueError) := by decide +kernel

/-- Finding: the default relationship of the document cannot be one of the document, and its namespace must be written as it is installed, unlike in all other references. -/
theorem default_elsewhere :
    failed (parse E 40 (withDefault "city.hasPart") g0) = some (.raised .valueError) ∧ failed (parse E 40 (withDefault "CUBA.activeRelationship") g0) = some (.raised .valueError) ∧
    done (parse E 40 (withDefault "cuba.activeRelationship") g0) = true ∧ done (run [(s "Town", sub "CUBA.Class")]) = true := by decide +kernel

/-- Accepted by the format, refused by the parser: no superclass; superclasses of two kinds; an attribute that is none. -/
theorem refused_later :
    failed (run [(s "Town", .dict [(s "subclass_of", .list [])])]) = some (.raised .valueError) ∧
    failed (run [(s "Town", .dict [(s "subclass_of", .list [s "cuba.Class", s "cuba.relationship"])])]) = some (.raised .runtimeError) ∧
    failed (run [(s "Town", .dict [(s "subclass_of", .list [s "cuba.Class"]), (s "attributes", .dict [(s "city.Town", .null)])])]) = some (.raised .valueError) := by decide +kernel

end Ex

/-! ### a cycle -/
namespace Cycle
open Ex (sub E g0)

/-- A class and its superclass, each below the other. -/
def a : Yaml := .dict [(s "subclass_of", .list [s "cuba.Class", s "city.B"])]
def doc : Yaml := Ex.ontology [(s "A", a), (s "B", sub "city.A")]
def eA : Entity := ⟨"A".toList, a, none, [some "cuba.Class".toList, some "city.B".toList], none, none, none, none⟩
def eB : Entity := ⟨"B".toList, sub "city.A", none, [some "city.A".toList], none, none, none, none⟩
def D : Doc := ⟨"CITY".toList, none, [eA, eB]⟩

theorem viewed : view doc = some D := by rfl
theorem valid : Yaml.validateDoc E.dig E.limit doc = .ok () := by decide +kernel
theorem proper : Proper D := accepted_proper (Yaml.accepted_is_ontology _ _ _ valid) viewed (by decide +kernel) ⟨by decide +kernel, by decide +kernel⟩
theorem ready : Ready D g0 := ⟨Ex.ready.notByLabel, Ex.ready.apart, Ex.ready.ownApart, Ex.ready.fresh⟩

def top : Text × Text := ("cuba".toList, "Class".toList)
def nA : Text × Text := ("city".toList, "A".toList)
def nB : Text × Text := ("city".toList, "B".toList)
theorem own : D.own = "city".toList := by decide +kernel

theorem ups {x y : Text × Text} : Up D x y ↔ (x = nA ∧ (y = top ∨ y = nB)) ∨ (x = nB ∧ y = nA) := by
  have s1 : Splits "cuba.Class".toList top.1 top.2 := (splitName_iff _ _ _).1 (by rfl)
  have s2 : Splits "city.B".toList nB.1 nB.2 := (splitName_iff _ _ _).1 (by rfl)
  have s3 : Splits "city.A".toList nA.1 nA.2 := (splitName_iff _ _ _).1 (by rfl)
  constructor
  · intro h
    cases h with
    | @step e r ns n he hr hs =>
      rw [own]
      simp only [D, List.mem_cons, List.not_mem_nil, or_false] at he
      rcases he with rfl | rfl
      · simp only [Super, eA, List.mem_cons, List.not_mem_nil, or_false, Option.some.injEq] at hr
        refine Or.inl ⟨rfl, ?_⟩
        rcases hr with rfl | rfl
        · obtain ⟨h1, h2⟩ := splits_unique hs s1; exact Or.inl (Prod.ext h1 h2)
        · obtain ⟨h1, h2⟩ := splits_unique hs s2; exact Or.inr (Prod.ext h1 h2)
      · simp only [Super, eB, List.mem_cons, List.not_mem_nil, or_false, Option.some.injEq] at hr
        subst hr
        obtain ⟨h1, h2⟩ := splits_unique hs s3
        exact Or.inr ⟨rfl, Prod.ext h1 h2⟩
  · have hA : eA ∈ D.entities := List.mem_cons_self
    have hB : eB ∈ D.entities := List.mem_cons_of_mem _ List.mem_cons_self
    rintro (⟨rfl, rfl | rfl⟩ | ⟨rfl, rfl⟩)
    · have := Up.step hA (by simp [Super, eA] : Super eA "cuba.Class".toList) s1; rw [own] at this; exact this
    · have := Up.step hA (by simp [Super, eA] : Super eA "city.B".toList) s2; rw [own] at this; exact this
    · have := Up.step hB (by simp [Super, eB] : Super eB "city.A".toList) s3; rw [own] at this; exact this

theorem cyclic : ¬ Acyclic D := by
  intro h
  refine h eA List.mem_cons_self ⟨nB, ?_, .step (ups.2 (Or.inr ⟨rfl, rfl⟩)) ?_⟩
  · rw [own]; exact ups.2 (Or.inl ⟨rfl, Or.inr rfl⟩)
  · rw [own]; exact .refl

theorem ancs {x y : Text × Text} (h : Anc D x y) (hx : x = nA ∨ x = nB ∨ x = top) : y = nA ∨ y = nB ∨ y = top := by
  induction h with
  | refl => exact hx
  | step hu _ ih =>
    refine ih ?_
    rcases ups.1 hu with ⟨_, rfl | rfl⟩ | ⟨_, rfl⟩
    · exact Or.inr (Or.inr rfl)
    · exact Or.inr (Or.inl rfl)
    · exact Or.inl rfl

theorem isClass (e : Entity) (he : e = eA ∨ e = eB) : IsKind D g0 e .class_ := by
  have hs : (D.own, e.name) = nA ∨ (D.own, e.name) = nB := by
    rw [own]
    rcases he with rfl | rfl
    · exact Or.inl rfl
    · exact Or.inr rfl
  have no : ∀ (i : Text) (k : Owl), hasType g0 i k = false → ¬ Has g0 (.iri i) .type (.iri k.iri) := fun i k h hh => by
    rw [(hasType_iff g0 i k).2 hh] at h; cases h
  intro k'
  constructor
  · rintro ⟨hk, q, hq, i, hi, ht⟩
    have hq' := ancs hq (by rcases hs with h | h <;> simp [h])
    have gA : getIri D g0 nA.1 nA.2 = .ok (Ex.city "A") := by rfl
    have gB : getIri D g0 nB.1 nB.2 = .ok (Ex.city "B") := by rfl
    have gT : getIri D g0 top.1 top.2 = .ok (Ex.cuba "Class") := by rfl
    rcases hq' with rfl | rfl | rfl
    · rw [gA] at hi; injection hi with hi; subst hi
      exact absurd ht (no _ _ (by cases k' <;> decide +kernel))
    · rw [gB] at hi; injection hi with hi; subst hi
      exact absurd ht (no _ _ (by cases k' <;> decide +kernel))
    · rw [gT] at hi; injection hi with hi; subst hi
      cases k' with
      | class_ => rfl
      | _ => exact absurd ht (no _ _ (by decide +kernel))
  · rintro rfl
    refine ⟨by decide, top, ?_, Ex.cuba "Class", by rfl, (hasType_iff _ _ .class_).1 (by decide +kernel)⟩
    rcases hs with h | h
    · rw [h]; exact .step (ups.2 (Or.inl ⟨rfl, Or.inl rfl⟩)) .refl
    · rw [h]; exact .step (ups.2 (Or.inr ⟨rfl, rfl⟩)) (.step (ups.2 (Or.inl ⟨rfl, Or.inl rfl⟩)) .refl)

/-- Finding: this document is accepted by the format, all references exist, and parsing it does not end after any number of turns. -/
theorem never_ends (fuel : Nat) : parse E fuel doc g0 = some (.error .unfinished) := by
  have := cyclic_never_ends (E := E) proper ready ?_ ?_ cyclic fuel
  · unfold parse
    rw [valid, viewed]
    exact congrArg some this
  · intro e he r hr
    simp only [D, List.mem_cons, List.not_mem_nil, or_false] at he
    have s1 : Splits "cuba.Class".toList top.1 top.2 := (splitName_iff _ _ _).1 (by rfl)
    have s2 : Splits "city.B".toList nB.1 nB.2 := (splitName_iff _ _ _).1 (by rfl)
    have s3 : Splits "city.A".toList nA.1 nA.2 := (splitName_iff _ _ _).1 (by rfl)
    rcases he with rfl | rfl
    · simp only [Super, eA, List.mem_cons, List.not_mem_nil, or_false, Option.some.injEq] at hr
      rcases hr with rfl | rfl
      · refine ⟨⟨Ex.cuba "Class", by rfl⟩, fun n hn => absurd (splits_unique hn s1).1 ?_⟩
        rw [own]; decide +kernel
      · exact ⟨⟨Ex.city "B", by rfl⟩, fun n hn => ⟨eB, List.mem_cons_of_mem _ List.mem_cons_self, (splits_unique hn s2).2.symm⟩⟩
    · simp only [Super, eB, List.mem_cons, List.not_mem_nil, or_false, Option.some.injEq] at hr
      subst hr
      exact ⟨⟨Ex.city "A", by rfl⟩, fun n hn => ⟨eA, List.mem_cons_self, (splits_unique hn s3).2.symm⟩⟩
  · intro e he
    simp only [D, List.mem_cons, List.not_mem_nil, or_false] at he
    refine ⟨.class_, isClass e he, ?_⟩
    rcases he with rfl | rfl <;> decide +kernel

end Cycle
end Osp.Ymlp
