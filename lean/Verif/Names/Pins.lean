import Verif.Names.Model
/-!
# Iteration over a namespace
-/
namespace Osp.Names

/-- The entity of each suffix in order, found by the IRI of the namespace with the suffix. Specification. -/
def Listed (R : Reg) (N : Ns) : List Text → List Entity → Prop
  | [], [] => True
  | s :: ss, a :: as => s ≠ [] ∧ R.fromIri all (N.iri ++ s) none = .ok a ∧ Listed R N ss as
  | _, _ => False

/-- **C53.** Iteration over a namespace gives, one for one and in order, the entities whose IRI is that of the namespace followed by the suffix; it raises exactly if one of them
cannot be found or is the namespace itself. -/
theorem iterate_exact (R : Reg) (N : Ns) : ∀ (ss : List Text) (as : List Entity), iterate R N ss = .ok as ↔ Listed R N ss as
  | [], as => by cases as <;> simp [iterate, Listed]
  | s :: ss, as => by
    have ih := iterate_exact R N ss
    unfold iterate
    split
    · rename_i h
      cases as <;> simp [Listed, h]
    · rename_i h
      split
      · rename_i e he
        cases as <;> simp [Listed, he]
      · rename_i a ha
        split
        · rename_i e he
          cases as with
          | nil => simp [Listed]
          | cons b bs =>
            simp only [Listed, ← ih, he]
            simp
        · rename_i bs hb
          cases as with
          | nil => simp [Listed]
          | cons c cs =>
            simp only [Listed, ← ih, hb, ha, ne_eq, h, not_false_iff, true_and, Except.ok.injEq, List.cons.injEq]

/-- **C53.** The first subject that cannot be found decides which exception iteration raises. -/
theorem iterate_raises (R : Reg) (N : Ns) (ss : List Text) (as : List Entity) (s : Text) (rest : List Text) (h : Listed R N ss as) :
    (s = [] → iterate R N (ss ++ s :: rest) = .error .typeError) ∧
    ∀ e, s ≠ [] → R.fromIri all (N.iri ++ s) none = .error e → iterate R N (ss ++ s :: rest) = .error e := by
  induction ss generalizing as with
  | nil =>
    refine ⟨fun h => by simp [iterate, h], fun e h1 h2 => by simp [iterate, h1, h2]⟩
  | cons t ts ih =>
    cases as with
    | nil => cases h
    | cons a as =>
      obtain ⟨h1, h2, h3⟩ := h
      obtain ⟨i1, i2⟩ := ih as h3
      refine ⟨fun hs => ?_, fun e he1 he2 => ?_⟩
      · simp only [List.cons_append, iterate, h1, if_false, h2, i1 hs]
      · simp only [List.cons_append, iterate, h1, if_false, h2, i2 e he1 he2]

/-- **C53.** Iteration over a namespace visits exactly the attributes, relationships and classes of the ontology whose IRI starts with that of the namespace. -/
theorem members_iff (R : Reg) (N : Ns) (s : Text) :
    s ∈ members R N ↔ (N.iri ++ s, some Kind.attribute) ∈ R.types ∨ (N.iri ++ s, some Kind.relationship) ∈ R.types ∨ (N.iri ++ s, some Kind.class_) ∈ R.types := by
  have key : ∀ k : Kind, s ∈ ((R.types.filter (fun t => decide (t.2 = some k) && N.iri.isPrefixOf t.1)).map (fun t => t.1.drop N.iri.length)) ↔ (N.iri ++ s, some k) ∈ R.types := by
    intro k
    rw [List.mem_map]
    constructor
    · rintro ⟨⟨i, x⟩, hm, rfl⟩
      rw [List.mem_filter, Bool.and_eq_true, decide_eq_true_iff, List.isPrefixOf_iff_prefix] at hm
      obtain ⟨hm, rfl, r, hr⟩ := hm
      dsimp only at hr hm ⊢
      subst hr
      rw [List.drop_left]
      exact hm
    · intro h
      refine ⟨_, List.mem_filter.2 ⟨h, ?_⟩, ?_⟩
      · rw [Bool.and_eq_true, decide_eq_true_iff, List.isPrefixOf_iff_prefix]
        exact ⟨rfl, s, rfl⟩
      · dsimp only
        rw [List.drop_left]
  unfold members
  simp only [List.mem_flatMap, List.mem_cons, List.not_mem_nil, or_false, key]
  constructor
  · rintro ⟨k, rfl | rfl | rfl, h⟩
    · exact .inl h
    · exact .inr (.inl h)
    · exact .inr (.inr h)
  · rintro (h | h | h)
    · exact ⟨_, .inl rfl, h⟩
    · exact ⟨_, .inr (.inl rfl), h⟩
    · exact ⟨_, .inr (.inr rfl), h⟩

/-- **C53.** In a graph without repeated triples an entity that has one kind is visited once. -/
theorem members_nodup (R : Reg) (N : Ns) (h : R.types.Nodup) (h1 : ∀ i j k, (i, some j) ∈ R.types → (i, some k) ∈ R.types → j = k) : (members R N).Nodup := by
  have hd : ∀ k : Kind, ((R.types.filter (fun t => decide (t.2 = some k) && N.iri.isPrefixOf t.1)).map (fun t => t.1.drop N.iri.length)).Nodup := by
    intro k
    apply List.Pairwise.map (R := fun a b => a.1 ≠ b.1 ∧ N.iri <+: a.1 ∧ N.iri <+: b.1)
    · rintro a b ⟨hab, ⟨x, hx⟩, ⟨y, hy⟩⟩ e
      apply hab
      rw [← hx, ← hy] at e ⊢
      rw [List.drop_left, List.drop_left] at e
      rw [e]
    · have := (h.filter (fun t => decide (t.2 = some k) && N.iri.isPrefixOf t.1))
      refine this.imp_of_mem ?_
      intro a b ha hb hab
      rw [List.mem_filter, Bool.and_eq_true, decide_eq_true_iff, List.isPrefixOf_iff_prefix] at ha hb
      exact ⟨fun e => hab (Prod.ext e (by rw [ha.2.1, hb.2.1])), ha.2.2, hb.2.2⟩
  have dis : ∀ j k : Kind, j ≠ k → ∀ x ∈ ((R.types.filter (fun t => decide (t.2 = some j) && N.iri.isPrefixOf t.1)).map (fun t => t.1.drop N.iri.length)),
      ∀ y ∈ ((R.types.filter (fun t => decide (t.2 = some k) && N.iri.isPrefixOf t.1)).map (fun t => t.1.drop N.iri.length)), x ≠ y := by
    intro j k hjk x hx y hy e
    obtain ⟨a, ha, rfl⟩ := List.mem_map.1 hx
    obtain ⟨b, hb, rfl⟩ := List.mem_map.1 hy
    rw [List.mem_filter, Bool.and_eq_true, decide_eq_true_iff, List.isPrefixOf_iff_prefix] at ha hb
    obtain ⟨ha, ha2, x, hx⟩ := ha
    obtain ⟨hb, hb2, y, hy⟩ := hb
    rw [← hx, ← hy, List.drop_left, List.drop_left] at e
    obtain ⟨a1, a2⟩ := a
    obtain ⟨b1, b2⟩ := b
    dsimp only at *
    subst ha2 hb2 e
    rw [hx] at hy
    subst hy
    exact hjk (h1 _ _ _ ha hb)
  unfold members
  simp only [List.flatMap_cons, List.flatMap_nil, List.append_nil]
  refine List.nodup_append.2 ⟨hd _, List.nodup_append.2 ⟨hd _, hd _, dis _ _ (by decide)⟩, ?_⟩
  intro x hx y hy
  rcases List.mem_append.1 hy with hy | hy
  · exact dis _ _ (by decide) x hx y hy
  · exact dis _ _ (by decide) x hx y hy

end Osp.Names
