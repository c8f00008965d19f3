import Verif.Sql.Names
/-!
# The names of the tables
-/
namespace Osp.Sql

/-- **C37.** The tables of the datatypes, written out. -/
theorem tables_written_out (n : Text) :
    dataTableName ("http://www.w3.org/2001/XMLSchema#".toList ++ n) = .ok ("DATA_V1_XSD_".toList ++ n) ∧
    dataTableName ("http://www.w3.org/2002/07/owl#".toList ++ n) = .ok ("DATA_V1_OWL_".toList ++ n) ∧
    dataTableName ("http://www.w3.org/1999/02/22-rdf-syntax-ns#".toList ++ n) = .ok ("DATA_V1_RDF_".toList ++ n) ∧
    dataTableName ("http://www.w3.org/2000/01/rdf-schema#".toList ++ n) = .ok ("DATA_V1_RDFS_".toList ++ n) ∧
    dataTableName ("http://www.osp-core.com/cuba#_datatypes/".toList ++ n) = .ok ("DATA_V1_".toList ++ n) := by
  refine ⟨table_xsd n, table_owl n, table_rdf n, table_rdfs n, ?_⟩
  have := table_cuba n
  rw [← List.append_assoc] at this
  exact this

/-- **C37.** Every other datatype raises a NotImplementedError. -/
theorem no_other_table (dt : Text)
    (h : ∀ p ∈ ["http://www.w3.org/2001/XMLSchema#", "http://www.w3.org/2002/07/owl#", "http://www.w3.org/1999/02/22-rdf-syntax-ns#", "http://www.w3.org/2000/01/rdf-schema#",
      "http://www.osp-core.com/cuba#_datatypes/"], ∀ n, dt ≠ p.toList ++ n) : dataTableName dt = .error .notImplementedError := by
  have k : ∀ p : String, p ∈ ["http://www.w3.org/2001/XMLSchema#", "http://www.w3.org/2002/07/owl#", "http://www.w3.org/1999/02/22-rdf-syntax-ns#", "http://www.w3.org/2000/01/rdf-schema#",
      "http://www.osp-core.com/cuba#_datatypes/"] → p.toList.isPrefixOf dt = false := by
    intro p hp
    rw [← Bool.not_eq_true, List.isPrefixOf_iff_prefix]
    rintro ⟨n, e⟩
    exact h p hp n e.symm
  have k1 : xsdIri.isPrefixOf dt = false := k "http://www.w3.org/2001/XMLSchema#" (by simp)
  have k2 : owlIri.isPrefixOf dt = false := k "http://www.w3.org/2002/07/owl#" (by simp)
  have k3 : rdfIri.isPrefixOf dt = false := k "http://www.w3.org/1999/02/22-rdf-syntax-ns#" (by simp)
  have k4 : rdfsIri.isPrefixOf dt = false := k "http://www.w3.org/2000/01/rdf-schema#" (by simp)
  have k5 : (cubaIri ++ dtPart).isPrefixOf dt = false := k "http://www.osp-core.com/cuba#_datatypes/" (by simp)
  simp only [dataTableName, k1, k2, k3, k4, k5, Bool.false_eq_true, if_false]

/-- **C36.** A row with a column without datatype raises a KeyError, if the values before it can be converted. -/
theorem row_without_datatype {V : Type} [Inhabited V] (cv : Option Text → V → Except PyErr V) (pre post : List ((DTs × Text) × V)) (x : (DTs × Text) × V)
    (hpre : ∀ y ∈ pre, ∃ dt v, y.1.1 y.1.2 = some dt ∧ cv dt y.2 = .ok v) (hx : x.1.1 x.1.2 = none) : contractRow cv (pre ++ x :: post) = .error .keyError := by
  have h : (pre ++ x :: post).mapM (convertCell cv) = .error .keyError := by
    induction pre with
    | nil =>
      rw [List.nil_append, List.mapM_cons]
      simp only [convertCell, hx]
      rfl
    | cons y pre ih =>
      obtain ⟨dt, v, h1, h2⟩ := hpre y List.mem_cons_self
      rw [List.cons_append, List.mapM_cons, ih (fun z hz => hpre z (List.mem_cons_of_mem _ hz))]
      simp only [convertCell, h1, h2]
      rfl
  simp only [contractRow, h]
  rfl

/-- **C38.** The characters that the check of names was written for, by code point: semicolon, NUL, carriage return, backspace, tab, SUB, line feed, both quotes, backtick, backslash and
percent. -/
theorem forbidden_exact (c : Char) : c ∈ forbidden ↔ c.toNat ∈ [59, 0, 13, 8, 9, 26, 10, 34, 39, 96, 92, 37] := by
  have e : forbidden.map Char.toNat = [59, 0, 13, 8, 9, 26, 10, 13, 34, 39, 96, 92, 37] := by decide +kernel
  have i : c ∈ forbidden ↔ c.toNat ∈ forbidden.map Char.toNat := by
    constructor
    · exact fun h => List.mem_map_of_mem h
    · intro h
      obtain ⟨d, hd, hcd⟩ := List.mem_map.mp h
      have : d = c := Char.ext (UInt32.toNat_inj.mp hcd)
      exact this ▸ hd
  rw [i, e]
  simp only [List.mem_cons, List.not_mem_nil, or_false]
  omega

/-- **C36.** A vector datatype without dimensions has no columns: a TypeError. -/
theorem no_dimensions (c iri dt : Text) (hv : isVec iri = true) (h : parseVecIri iri = .ok (dt, [])) : expandedCols c iri = .error .typeError := by
  simp [expandedCols, hv, h]

end Osp.Sql
