import Verif.Full.Spec
/-!
# Export and import of graphs
-/
namespace Osp.Full

/-- **C86.** The names of the namespace cuba: its entities, the hidden ones, and the custom datatypes. -/
theorem names_inCuba (n : Text) : Names.inCuba n = true ↔
    n ∈ ["activeRelationship", "Entity", "File", "Nothing", "passiveRelationship", "path", "Wrapper", "attribute", "relationship", "Class", "_default", "_default_attribute",
      "_default_value", "_default_rel", "_length", "_shape", "_dtype", "_reference_by_label"].map String.toList ∨
    ∃ r, n = "_datatypes/STRING-".toList ++ r ∨ n = "_datatypes/VECTOR-".toList ++ r := by
  have hp : ∀ a : Text, a.isPrefixOf n = true ↔ ∃ r, n = a ++ r := fun a => by
    rw [List.isPrefixOf_iff_prefix]
    exact ⟨fun ⟨r, h⟩ => ⟨r, h.symm⟩, fun ⟨r, h⟩ => ⟨r, h.symm⟩⟩
  have hl : ["activeRelationship", "Entity", "File", "Nothing", "passiveRelationship", "path", "Wrapper", "attribute", "relationship", "Class", "_default", "_default_attribute",
      "_default_value", "_default_rel", "_length", "_shape", "_dtype", "_reference_by_label"].map String.toList = Names.cubaEntities ++ Names.cubaHidden := rfl
  rw [hl, List.mem_append]
  simp only [Names.inCuba, Bool.or_eq_true, decide_eq_true_eq, hp, exists_or]
  rw [or_assoc (b := ∃ r, n = "_datatypes/STRING-".toList ++ r)]

/-- **C86.** The IRIs of the namespace cuba. -/
theorem inCuba_iri (t : Text) : inCuba (.iri t) = true ↔ ∃ n, t = "http://www.osp-core.com/cuba#".toList ++ n ∧ Names.inCuba n = true := by
  show (if cubaIri.isPrefixOf t then Names.inCuba (t.drop cubaIri.length) else false) = true ↔ _
  split
  · rename_i h
    obtain ⟨r, rfl⟩ := List.isPrefixOf_iff_prefix.1 h
    rw [List.drop_left]
    constructor
    · exact fun h => ⟨r, rfl, h⟩
    · rintro ⟨n, e, h⟩
      rwa [List.append_cancel_left e]
  · rename_i h
    refine ⟨fun h => (by cases h), ?_⟩
    rintro ⟨n, rfl, _⟩
    exact absurd (List.isPrefixOf_iff_prefix.2 (List.prefix_append _ _)) h

theorem mem_customDatatypes {onto : Graph} {d : Term} : d ∈ customDatatypes onto ↔ (⟨d, rdfType, rdfsDatatype⟩ : Triple) ∈ onto ∧ inCuba d = true := by
  simp only [customDatatypes, List.mem_map, List.mem_filter, decide_eq_true_eq]
  constructor
  · rintro ⟨⟨s, p, o⟩, ⟨⟨h1, h2, h3⟩, h4⟩, rfl⟩
    dsimp only at h2 h3 h4 ⊢
    subst h2 h3
    exact ⟨h1, h4⟩
  · rintro ⟨h1, h2⟩
    exact ⟨_, ⟨⟨h1, rfl, rfl⟩, h2⟩, rfl⟩

/-- **C86.** The triples of custom datatypes are exactly the declarations of the datatypes of the namespace cuba and the statements that an attribute has one of them as range. -/
theorem customTriples_exact (onto : Graph) (x : Triple) : x ∈ customTriples onto ↔ Custom onto x := by
  simp only [customTriples, List.mem_flatMap, mem_customDatatypes, List.mem_cons, List.mem_filter, decide_eq_true_eq, Custom]
  constructor
  · rintro ⟨d, ⟨h1, h2⟩, rfl | ⟨h3, h4, h5⟩⟩
    · exact ⟨h1, Or.inl ⟨rfl, rfl, h2⟩⟩
    · subst h5
      exact ⟨h3, Or.inr ⟨h4, h2, h1⟩⟩
  · obtain ⟨s, p, o⟩ := x
    rintro ⟨h, ⟨h1, h2, h3⟩ | ⟨h1, h2, h3⟩⟩
    · dsimp only at h1 h2 h3
      subst h1 h2
      exact ⟨s, ⟨h, h3⟩, Or.inl rfl⟩
    · exact ⟨o, ⟨h3, h2⟩, Or.inr ⟨h, h1, rfl⟩⟩

/-- **C86.** The exported graph has exactly the triples of the session and of the ontology, if wanted without those of custom datatypes. -/
theorem export_exact (onto core g : Graph) (skip : Bool) :
    ∃ r, getRdfGraph onto core (.session (.ok g)) skip = .ok r ∧ ∀ x, x ∈ r ↔ (x ∈ g ∨ x ∈ onto) ∧ (skip = true → ¬ Custom onto x) := by
  cases skip with
  | false => exact ⟨g ++ onto, rfl, fun x => by simp⟩
  | true =>
    refine ⟨_, rfl, fun x => ?_⟩
    simp only [List.mem_filter, List.mem_append, decide_eq_true_eq, customTriples_exact, true_imp_iff]

/-- **C86.** Without a session the core session is exported; something that is no session raises a TypeError; an exception of the session is raised. -/
theorem export_args (onto core : Graph) (skip : Bool) (e : PyErr) :
    getRdfGraph onto core .absent skip = getRdfGraph onto core (.session (.ok core)) skip ∧ getRdfGraph onto core .other skip = .error .typeError ∧
      getRdfGraph onto core (.session (.error e)) skip = .error e := ⟨rfl, rfl, rfl⟩

theorem prefix_iff {t : Text} : Iri.cudsPrefix.isPrefixOf t = true ↔ ∃ r, t = "http://www.osp-core.com/cuds/#".toList ++ r := by
  rw [List.isPrefixOf_iff_prefix]
  exact ⟨fun ⟨r, h⟩ => ⟨r, h.symm⟩, fun ⟨r, h⟩ => ⟨r, h.symm⟩⟩

/-- **C86.** An import replaces the graph of the session by exactly the imported triples whose subject is a CUDS object; the registry stays as it is. -/
theorem import_exact (graph : Graph) (s : Ses) : (∀ x, x ∈ (rdfImport graph s).g ↔ x ∈ graph ∧ OfObject x) ∧ (rdfImport graph s).reg = s.reg := by
  refine ⟨fun x => ?_, rfl⟩
  simp only [rdfImport, List.mem_filter, prefix_iff, OfObject]

/-- No triple of the ontology has a CUDS object as subject. -/
def OntoOnly (onto : Graph) : Prop := ∀ x ∈ onto, ¬ OfObject x

/-- **C86.** Leaving out custom datatypes leaves out no triple of an object. -/
theorem skip_keeps_objects {onto : Graph} (h : OntoOnly onto) (core g : Graph) (skip : Bool) {r : Graph} (hr : getRdfGraph onto core (.session (.ok g)) skip = .ok r) :
    ∀ x, OfObject x → (x ∈ r ↔ x ∈ g) := by
  intro x hx
  obtain ⟨r', h1, h2⟩ := export_exact onto core g skip
  rw [hr] at h1
  cases h1
  rw [h2]
  constructor
  · rintro ⟨h3 | h3, _⟩
    · exact h3
    · exact absurd hx (h x h3)
  · exact fun h3 => ⟨Or.inl h3, fun _ hc => h x hc.1 hx⟩

/-- **C86.** Export, with or without custom datatypes, and import into any session gives it exactly the graph of the exported session. -/
theorem import_export {onto : Graph} (h : OntoOnly onto) (core g : Graph) (hg : ∀ x ∈ g, OfObject x) (skip : Bool) {r : Graph}
    (hr : getRdfGraph onto core (.session (.ok g)) skip = .ok r) (s : Ses) : ∀ x, x ∈ (rdfImport r s).g ↔ x ∈ g := by
  intro x
  rw [(import_exact r s).1]
  constructor
  · rintro ⟨h1, h2⟩
    exact (skip_keeps_objects h core g skip hr x h2).1 h1
  · exact fun h1 => ⟨(skip_keeps_objects h core g skip hr x (hg x h1)).2 h1, hg x h1⟩

/-- **C86, finding.** The objects of an imported graph cannot be loaded: which uids the session can load is not changed by an import. -/
theorem import_not_loaded (graph : Graph) (s : Ses) (u : Nat) : load u (rdfImport graph s) = load u s := rfl

end Osp.Full
