import Verif.Rdfp.Restart
/-!
# Examples and findings for C71, C72
-/
namespace Osp.Rdfp
open Osp.Yaml (Yaml Entries get)
open Osp.Names (lower Reg)

namespace Ex

/-- Modelling device: a text as a YAML value. -/
def y (s : String) : Yaml := .str s.toList

/-- A package with two namespaces, an active relationship, a default relationship and reference by label. -/
def doc : Entries := [(y "identifier", y "parts"), (y "ontology_file", y "parts.owl"), (y "reference_by_label", .bool true),
  (y "namespaces", .dict [(y "parts", y "http://ex.org/parts"), (y "units", y "http://ex.org/units/")]),
  (y "active_relationships", .list [y "http://ex.org/parts#hasPart"]), (y "default_relationship", y "http://ex.org/parts#hasPart")]

/-- What it says. -/
def P : Package := ⟨[("parts".toList, "http://ex.org/parts".toList), ("units".toList, "http://ex.org/units/".toList)], ["http://ex.org/parts#hasPart".toList],
  some "http://ex.org/parts#hasPart".toList, true⟩

theorem says : Says doc P := by
  refine ⟨rfl, Or.inl rfl, Or.inl rfl, Or.inl rfl, ?_⟩
  intro e he
  simp only [doc, List.mem_cons, List.not_mem_nil, or_false] at he
  rcases he with rfl | rfl | rfl | rfl | rfl | rfl <;> simp [DocumentedKey, y]

/-- The file. -/
def file : List Triple := [⟨.iri "http://ex.org/parts#hasPart".toList, rdfType, .iri objectProperty⟩, ⟨.iri "http://ex.org/parts#Part".toList, rdfType, .other 0⟩]

/-- A new graph. -/
def g0 : Gr := ⟨[], Binds.new⟩

/-- The hypotheses of `rdf_exact` hold for the package. -/
example : Says doc P ∧ '.' ∉ "parts".toList ∧ ∀ r ∈ P.active, IsRel g0.triples r ∨ IsRel file r :=
  ⟨says, by decide, by intro r hr; simp only [P, List.mem_singleton] at hr; subst hr; exact Or.inr (by unfold IsRel; decide)⟩

/-- The hypotheses of `package_names` hold for it. -/
example : (∀ e ∈ P.namespaces, ∀ j, Binds.new.Named e.1 j → NamespaceIri e.2 j) ∧ (∀ e ∈ P.namespaces, ∀ e' ∈ P.namespaces, e.1 = e'.1 → withHash e.2 = withHash e'.2) := by
  refine ⟨?_, by decide +kernel⟩
  intro e he j hj
  exfalso
  have : ∀ e ∈ P.namespaces, ∀ x ∈ Binds.new.ns, x.1 ≠ e.1 := by decide +kernel
  exact this e he _ hj rfl

/-- The result: the names of the graph and the number of triples. -/
example : (parseRdf g0 doc "parts".toList (some file)).1.triples.length = 7 ∧ (parseRdf g0 doc "parts".toList (some file)).2 = none ∧
    ((parseRdf g0 doc "parts".toList (some file)).1.binds.ns.drop 4) = [("parts".toList, "http://ex.org/parts#".toList), ("units".toList, "http://ex.org/units/".toList)] := by
  decide +kernel

/-- The namespaces after the package: a state for `restart_names_partial`. -/
def b1 : Binds := (parseRdf g0 doc "parts".toList (some file)).1.binds

theorem b1_reached : b1.Reached := by
  obtain ⟨g', e, _, _, hb⟩ := rdf_exact g0 says (identifier := "parts".toList) (by decide) file
    (by intro r hr; simp only [P, List.mem_singleton] at hr; subst hr; exact Or.inr (by unfold IsRel; decide))
  unfold b1
  rw [e, hb]
  exact foldl_reached _ _ .new

/-- The hypotheses of `restart_names_partial` hold for it, with a header that declares `units`. -/
example : b1.Reached ∧ (∀ p i, b1.Named p i → Field p ∧ Field i) ∧ Header b1 (Binds.new.bind "units".toList "http://ex.org/units/".toList false) := by
  refine ⟨b1_reached, ?_, [("units".toList, "http://ex.org/units/".toList)], ?_, rfl⟩
  · have : ∀ x ∈ b1.ns, ('\t' ∉ x.1 ∧ '\n' ∉ x.1 ∧ '\r' ∉ x.1) ∧ ('\t' ∉ x.2 ∧ '\n' ∉ x.2 ∧ '\r' ∉ x.2) := by decide +kernel
    exact fun p i h => this (p, i) h
  · intro e he
    rw [List.mem_singleton] at he
    subst he
    unfold Binds.Named
    decide +kernel

end Ex

/-! ### Findings -/

/-- Two packages with namespaces of the same name: the second is bound as `parts1`, although the log says that it can be imported as `parts`, and `parts` still is the first. -/
theorem second_package_renamed :
    let b := (Binds.new.bind "parts".toList "http://ex.org/parts#".toList).bind "parts".toList "http://other.org/parts#".toList
    b.Named "parts".toList "http://ex.org/parts#".toList ∧ b.Named "parts1".toList "http://other.org/parts#".toList := by
  unfold Binds.Named
  decide +kernel

/-- A package can lose its name to itself: with `a` taken, its namespaces `a` and `a1` become `a1` and `a11`. -/
theorem name_stolen_by_own_package :
    let b := ((Binds.new.bind "a".toList "http://x#".toList).bind "a".toList "http://y#".toList).bind "a1".toList "http://z#".toList
    b.Named "a1".toList "http://y#".toList ∧ b.Named "a11".toList "http://z#".toList := by
  unfold Binds.Named
  decide +kernel

/-- A refused package is in the graph of the running process nevertheless: its triples and namespaces. -/
theorem refused_package_loaded :
    let r := parseRdf Ex.g0 [(Ex.y "identifier", Ex.y "p"), (Ex.y "ontology_file", Ex.y "p.owl"), (Ex.y "namespaces", .dict [(Ex.y "p", Ex.y "http://p")]),
      (Ex.y "active_relationships", .list [Ex.y "http://p#no"])] "p".toList (some Ex.file)
    r.2 = some .valueError ∧ r.1.triples = Ex.file ∧ r.1.binds.Named "p".toList "http://p#".toList := by
  unfold Binds.Named
  decide +kernel

/-- A single active relationship written without brackets is refused: the code goes through its letters. -/
theorem text_active_refused (g : Gr) (doc : Entries) (identifier t : Text) (ts : List Triple) (nss : List (Text × Text)) (hid : '.' ∉ identifier) (ht : t ≠ [])
    (hk : ∀ e ∈ doc, DocumentedKey e.1) (hn : get doc "namespaces".toList = some (.dict (nss.map (fun e => (.str e.1, .str e.2)))))
    (ha : get doc "active_relationships".toList = some (.str t)) (h1 : ∀ c : Char, ¬ IsRel g.triples [c] ∧ ¬ IsRel ts [c]) :
    (parseRdf g doc identifier (some ts)).2 = some .valueError := by
  have hany : doc.any (fun e => !knownKey e.1) = false := by
    rw [List.any_eq_false]
    intro e he
    rw [(knownKey_iff e.1).2 (hk e he)]
    simp
  unfold parseRdf
  rw [if_neg hid, hn]
  simp only [hany, Bool.false_eq_true, if_false, bindAll_ok, ha, Option.getD_some, iterate]
  cases t with
  | nil => exact absurd rfl ht
  | cons c t =>
    rw [List.map_cons, addActive, if_neg]
    intro k
    obtain ⟨f1, _⟩ := fold_add id ts g
    rw [← fold_ids] at f1
    rcases (f1 _).1 k with k | ⟨a, ha, k⟩
    · exact (h1 c).1 k
    · exact (h1 c).2 (by unfold IsRel; rw [k]; exact ha)

/-- A name with a tab makes the saved table unreadable: loading the registry raises ValueError. -/
theorem tab_breaks_loading :
    (loadNamespaces Binds.new (writeNamespaces (Binds.new.bind ("a\tb".toList) "http://x#".toList))).2 = some .valueError := by
  decide +kernel

/-- If one namespace is the beginning of another, the order of the table decides, and the header of the graph file changes the order: after the restart the class belongs to `sub` and is called
`X`, before it belonged to `ex` and was called `s#X`. -/
theorem restart_changes_namespace :
    let b := (Binds.new.bind "ex".toList "http://e/".toList).bind "sub".toList "http://e/s#".toList
    let b' := (loadNamespaces (Binds.new.bind "sub".toList "http://e/s#".toList false) (writeNamespaces b)).1
    let R : Reg := ⟨b.ns, [], [], [], []⟩
    let R' : Reg := ⟨b'.ns, [], [], [], []⟩
    R.resolve "http://e/s#X".toList = ("ex".toList, "http://e/".toList) ∧ R'.resolve "http://e/s#X".toList = ("sub".toList, "http://e/s#".toList) := by
  decide +kernel

/-- Two names that differ in case only: the registry knows one of them, and which one can change with a restart. -/
theorem restart_changes_case_clash :
    let b := (Binds.new.bind "Ex".toList "http://x#".toList).bind "ex".toList "http://y#".toList
    let b' := (loadNamespaces (Binds.new.bind "ex".toList "http://y#".toList false) (writeNamespaces b)).1
    let R : Reg := ⟨b.ns, [], [], [], []⟩
    let R' : Reg := ⟨b'.ns, [], [], [], []⟩
    (R.update.find "ex".toList) = some "http://y#".toList ∧ (R'.update.find "ex".toList) = some "http://x#".toList := by
  decide +kernel

end Osp.Rdfp
