import Verif.Tables.Props
/-!
# Looking up namespaces (C39)
-/
namespace Osp.Tables

variable {D V : Type}

/-- **C39.** Looking up the namespace of an index: an index that is not cached is looked up in the table, which is cached as a whole, also if it does not contain the index; then a KeyError is raised. The database is not changed. -/
theorem getNs_miss (i : Idx) (st : St D V) (h : st.cache.lookup i = none) :
    (getNs i st).2 = { st with cache := st.db.ns } ∧ (∀ n, (getNs i st).1 = .ok n ↔ st.db.ns.lookup i = some n) ∧ (st.db.ns.lookup i = none → (getNs i st).1 = .error .keyError) := by
  unfold getNs
  rw [h]
  cases hl : st.db.ns.lookup i with
  | none => simp
  | some n => simp

/-- **C39.** An index that is cached is not looked up. -/
theorem getNs_hit (i : Idx) (st : St D V) (n : Iri) (h : st.cache.lookup i = some n) : getNs i st = (.ok n, st) := by
  unfold getNs
  rw [h]

/-- **C39.** Which table a pattern or triple without a typed object belongs to: the predicate decides; without a predicate a TypeError is raised, for a predicate that is neither the type
nor a known relationship or attribute a KeyError. -/
theorem table_of_predicate (O : Onto D) (o : Option (Obj D V)) (ho : o = none ∨ ∃ v, o = some (.lit none v)) :
    determineTable O none o = .error .typeError ∧ determineTable O (some O.rdfType) o = .ok .types ∧
    (∀ p, p ≠ O.rdfType → O.kind p = none → determineTable O (some p) o = .error .keyError) ∧
    (∀ p, p ≠ O.rdfType → O.kind p = some .rel → determineTable O (some p) o = .ok .rels) ∧
    (∀ p d, p ≠ O.rdfType → O.kind p = some (.attr (some d)) → determineTable O (some p) o = .ok (.data d)) ∧
    (∀ p, p ≠ O.rdfType → O.kind p = some (.attr none) → determineTable O (some p) o = .ok (.data O.xsdString)) := by
  rcases ho with rfl | ⟨v, rfl⟩ <;>
  exact ⟨rfl, by simp only [determineTable, if_true], fun p h k => by simp only [determineTable, if_neg h, k], fun p h k => by simp only [determineTable, if_neg h, k],
    fun p d h k => by simp only [determineTable, if_neg h, k, Option.getD], fun p h k => by simp only [determineTable, if_neg h, k, Option.getD]⟩

end Osp.Tables
