import Verif.Install.Model
/-!
# Which exception an unreadable file raises
-/
namespace Osp.Install
open Osp.Names (lower)

variable {G B R : Type}

/-- **C34.** The identifier of an ontology file: that of the package in it; a file that does not exist raises a FileNotFoundError, an empty file or one without namespace and
identifier a SyntaxError, and a file that is no YAML an exception of the YAML reader. -/
theorem getIdentifier_exact (E : Env G B R) (w : World G B R) (t : Text) :
    (∀ d, w.read E (filePath E w t) = some (.pkg d) → getIdentifier E w t = .ok d.ident) ∧
    (w.read E (filePath E w t) = none → getIdentifier E w t = .error .fileNotFoundError) ∧
    (w.read E (filePath E w t) = some .empty ∨ w.read E (filePath E w t) = some .noPkg → getIdentifier E w t = .error .syntaxError) ∧
    (w.read E (filePath E w t) = some .other → getIdentifier E w t = .error .exception) := by
  refine ⟨fun d h => ?_, fun h => ?_, ?_, fun h => ?_⟩
  · simp only [getIdentifier, readDoc, h]
  · simp only [getIdentifier, readDoc, h]
  · rintro (h | h) <;> simp only [getIdentifier, readDoc, h]
  · simp only [getIdentifier, readDoc, h]

/-- **C34.** The RDF file of a package is looked for beside the package unless it is a web address; only the two schemes with `//` count as such. -/
theorem rdfPath_exact (file : Text) (d : Doc B) :
    rdfPath file d = d.file ↔ (∃ r, d.file = "http://".toList ++ r ∨ d.file = "https://".toList ++ r) ∨ join (dirname file) d.file = d.file := by
  have hp : ∀ a : Text, a.isPrefixOf d.file = true ↔ ∃ r, d.file = a ++ r := fun a => by
    rw [List.isPrefixOf_iff_prefix]
    exact ⟨fun ⟨r, h⟩ => ⟨r, h.symm⟩, fun ⟨r, h⟩ => ⟨r, h.symm⟩⟩
  unfold rdfPath
  split
  · rename_i h
    rw [Bool.or_eq_true, hp, hp] at h
    exact ⟨fun _ => Or.inl (exists_or.2 h), fun _ => rfl⟩
  · rename_i h
    rw [Bool.or_eq_true, hp, hp, ← exists_or] at h
    exact ⟨Or.inr, fun h' => h'.resolve_left h⟩

/-- A web address, and a local file whose name looks nearly like one. -/
theorem ex_rdfPath (d : Doc B) : rdfPath "/a/p.yml".toList { d with file := "https://x".toList } = "https://x".toList ∧
    rdfPath "/a/p.yml".toList { d with file := "https:/x".toList } = "/a/https:/x".toList := by
  constructor <;> rfl

/-- **C34.** Which file an argument of the installation means: one that ends in `.yml` is a path; another is the name of an ontology shipped with the package, first tried with the
ending `.ontology.yml`, then with `.yml`. -/
theorem filePath_exact (E : Env G B R) (w : World G B R) (t : Text) :
    (endsWith t ".yml".toList = true → filePath E w t = t) ∧
    (endsWith t ".yml".toList = false → w.read E (join E.docs (lower t ++ ".ontology.yml".toList)) ≠ none → filePath E w t = join E.docs (lower t ++ ".ontology.yml".toList)) ∧
    (endsWith t ".yml".toList = false → w.read E (join E.docs (lower t ++ ".ontology.yml".toList)) = none → filePath E w t = join E.docs (lower t ++ ".yml".toList)) := by
  refine ⟨fun h => ?_, fun h h2 => ?_, fun h h2 => ?_⟩ <;> unfold filePath
  · exact if_pos h
  · rw [if_neg (by rw [show dotYml = ".yml".toList from rfl, h]; decide)]
    exact if_pos (Option.isSome_iff_ne_none.2 h2)
  · rw [if_neg (by rw [show dotYml = ".yml".toList from rfl, h]; decide)]
    exact if_neg (by rw [h2]; exact Bool.false_ne_true)

/-- **C34.** Requirements that are no list raise a ValueError. -/
theorem requirements_exact (d : Doc B) : (d.reqs = .absent → d.requirements = .ok []) ∧ (∀ l, d.reqs = .list l → d.requirements = .ok l) ∧ (d.reqs = .other → d.requirements = .error .valueError) := by
  refine ⟨fun h => ?_, fun l h => ?_, fun h => ?_⟩ <;> simp only [Doc.requirements, h]

/-- **C34.** An ontology file that cannot be parsed to the end leaves in the registry's graph what was parsed before the exception, and the exception reaches the user: nothing is rolled back. -/
theorem parse_failed (E : Env G B R) (w : World G B R) (P : Parser G B R) (t : Text) (d : Doc B) (g : G) (e : PyErr) (hd : readDoc E w t = .ok d) :
    (d.owl = false → E.yml P.graph d = (g, some e) → parse E w P t = ({ P with graph := g }, some e)) ∧
    (d.owl = true → '.' ∉ d.name → d.reqs = .absent → ∀ c, w.read E (rdfPath (filePath E w t) d) = some (.rdf (d.format.getD xml) c) → E.rdf P.graph d c = (g, some e) →
      parse E w P t = ({ P with graph := g }, some e)) := by
  constructor
  · intro h1 h2
    unfold parse
    simp only [hd, h1, h2, Bool.false_eq_true, if_false]
  · intro h1 h2 h3 c h4 h5
    unfold parse
    simp only [hd, h1, if_true, if_neg h2, h3, ne_eq, not_true_eq_false, if_false, h4, h5]

end Osp.Install
