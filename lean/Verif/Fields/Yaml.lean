import Verif.Fields.Graph
import Verif.Ymlp.Props
/-!
# The own attributes of the classes of a YAML ontology (C93)
-/
namespace Osp.Fields
open Osp.Ymlp
open Osp.Yaml (Yaml)
open Osp.Onto (AttrInfo)

variable {E : Env} {D : Doc} {g g' : Gr}

/-- What is known after parsing. Specification. -/
structure Parsed (D : Doc) (g g' : Gr) (made : List (Attr × Nat)) (new : List Triple) : Prop where
  isMade : Made D g made
  triples : g'.triples = g.triples ++ new
  isNew : ∀ t, t ∈ new ↔ Says D g t ∨ ∃ m ∈ made, AttrSays m.1 m.2 t
  isAttr : ∀ a, Declares D g a → IsAttribute D g a.attr
  kind : ∀ e ∈ D.entities, ∃ k, IsKind D g e k

theorem parsed (hD : Proper D) (hg : Ready D g) {fuel : Nat} (h : parseOntology E fuel D g = .ok g') : ∃ made new, Parsed D g g' made new := by
  have hf : Fine E D g := (parse_succeeds_iff hD hg).1 ⟨fuel, g', h⟩
  obtain ⟨ks, h3, _, _, _, _, _, _, _, a, gr⟩ := parse_steps hD hg h
  have hnext : h3.next = g.next := a.next.trans (bindOwn_ext D g).2.2
  obtain ⟨ts, e1, m1⟩ := a.new
  refine ⟨number g.next (declared D g), ts ++ (number h3.next (declared D g)).flatMap (fun m => attributeTriples m.1.cls m.1.attr m.1.dflt m.2),
    ⟨number_fst _ _, number_ge _ _, number_apart _ _⟩, ?_, fun t => ?_, ?_, ?_⟩
  · rw [gr.triples, e1, (bindOwn_ext D g).2.1, List.append_assoc]
  · rw [List.mem_append, m1, List.mem_flatMap, hnext]
    simp only [attrSays_iff]
  · rintro ⟨c, a, v⟩ ⟨e, he, hk, _, l, r, h1, h2, h3⟩
    obtain ⟨i, h4, h5⟩ := hf.attributes e he hk l h1 r v h2
    rw [h3] at h4
    cases h4
    exact h5
  · intro e he
    obtain ⟨k, hk, _⟩ := hf.kinds e he
    exact ⟨k, hk⟩

variable {made : List (Attr × Nat)} {new : List Triple}

theorem Parsed.has (h : Parsed D g g' made new) (s : Node) (p : Pred) (o : Node) :
    Has g' s p o ↔ Has g s p o ∨ Says D g ⟨s, p, o⟩ ∨ ∃ m ∈ made, AttrSays m.1 m.2 ⟨s, p, o⟩ := by
  unfold Has
  rw [h.triples, List.mem_append, h.isNew]

theorem Parsed.unique (h : Parsed D g g' made new) {m m' : Attr × Nat} (hm : m ∈ made) (hm' : m' ∈ made) : (m.2 = m'.2 → m = m') ∧ m.2 + 1 ≠ m'.2 := by
  have : ∀ (l : List (Attr × Nat)), l.Pairwise (fun m m' => m.2 + 1 < m'.2) → m ∈ l → m' ∈ l → (m.2 = m'.2 → m = m') ∧ m.2 + 1 ≠ m'.2 := by
    intro l
    induction l with
    | nil => intro _ h; cases h
    | cons x l ih =>
      intro hp h1 h2
      rw [List.pairwise_cons] at hp
      rcases List.mem_cons.1 h1 with e1 | k1 <;> rcases List.mem_cons.1 h2 with e2 | k2
      · rw [e1, e2]; exact ⟨fun _ => rfl, by omega⟩
      · have := hp.1 m' k2; rw [← e1] at this; exact ⟨fun _ => by omega, by omega⟩
      · have := hp.1 m k1; rw [← e2] at this; exact ⟨fun _ => by omega, by omega⟩
      · exact ih hp.2 k1 k2
  exact this made h.isMade.own hm hm'

theorem Parsed.mem_made (h : Parsed D g g' made new) (a : Attr) : (∃ b, (a, b) ∈ made) ↔ Declares D g a := by
  rw [← mem_declared, ← h.isMade.which, List.mem_map]
  constructor
  · rintro ⟨b, hb⟩; exact ⟨_, hb, rfl⟩
  · rintro ⟨⟨a', b⟩, hb, rfl⟩; exact ⟨b, hb⟩

/-- New blank nodes do not occur in the old graph. -/
theorem Parsed.old_blank (h : Parsed D g g' made new) (hg : Ready D g) {m : Attr × Nat} (hm : m ∈ made) {k : Nat} (hk : m.2 ≤ k) (s o : Node) (p : Pred) :
    ¬ Has g (.blank k) p o ∧ ¬ Has g s p (.blank k) := by
  have := h.isMade.new m hm
  constructor
  · intro hh
    have := hg.fresh _ hh k (Or.inl rfl)
    omega
  · intro hh
    have := hg.fresh _ hh k (Or.inr rfl)
    omega

theorem declares_doc {a : Attr} (h : Declares D g a) : OfDoc D g a.cls := by
  obtain ⟨e, he, _, hc, _⟩ := h
  exact ⟨e, he, hc⟩

/-- Subjects of new triples: entities of the document, new blank nodes; besides these only the type of datatypes and the default relationship. -/
theorem says_subject {t : Triple} (h : Says D g t) : (∃ c, OfDoc D g c ∧ t.s = .iri c) ∨ (∃ i, t.s = .iri i ∧ t.p = .type ∧ t.o = .iri Owl.datatype.iri) ∨ t.p = .defaultRel := by
  cases h with
  | datatype => exact Or.inr (Or.inl ⟨_, rfl, rfl, rfl⟩)
  | defaultHere => exact Or.inr (Or.inr rfl)
  | defaultThere => exact Or.inr (Or.inr rfl)
  | label he => exact Or.inl ⟨_, ⟨_, he, rfl⟩, rfl⟩
  | description he => exact Or.inl ⟨_, ⟨_, he, rfl⟩, rfl⟩
  | type he => exact Or.inl ⟨_, ⟨_, he, rfl⟩, rfl⟩
  | subClass he => exact Or.inl ⟨_, ⟨_, he, rfl⟩, rfl⟩
  | subProperty he => exact Or.inl ⟨_, ⟨_, he, rfl⟩, rfl⟩
  | inverse he => exact Or.inl ⟨_, ⟨_, he, rfl⟩, rfl⟩
  | range he => exact Or.inl ⟨_, ⟨_, he, rfl⟩, rfl⟩

theorem says_iri {t : Triple} (h : Says D g t) : ∃ i, t.s = .iri i := by
  cases h <;> exact ⟨_, rfl⟩

theorem inherited_iri {k : Owl} (h : k ∈ inherited) : k.iri ≠ Owl.restriction.iri ∧ k.iri ≠ Owl.datatype.iri := by
  have : ∀ k ∈ inherited, k.iri ≠ Owl.restriction.iri ∧ k.iri ≠ Owl.datatype.iri := by decide +kernel
  exact this k h

theorem owl_inj {k k' : Owl} (h : k.iri = k'.iri) : k = k' := by
  revert k k'
  have : ∀ k ∈ [Owl.class_, .objectProperty, .datatypeProperty, .functionalProperty, .restriction, .datatype],
    ∀ k' ∈ [Owl.class_, .objectProperty, .datatypeProperty, .functionalProperty, .restriction, .datatype], k.iri = k'.iri → k = k' := by decide +kernel
  intro k k'
  exact this k (by cases k <;> simp) k' (by cases k' <;> simp)

/-! ### one class of the document -/

/-- The triples about the class, with blank nodes as objects. -/
theorem Parsed.restriction_of (h : Parsed D g g' made new) (hu : Unseen D g) (hT : Tidy g) (hg : Ready D g) {c : Text} (hc : OfDoc D g c) (o : Onto.Node Text) (a : Text) :
    (Has g' (.iri c) .subClassOf (toNode o) ∧ Restricts g' o a) ↔ ∃ m ∈ made, m.1.cls = c ∧ m.1.attr = a ∧ o = .bnode m.2 := by
  constructor
  · rintro ⟨h1, h2, h3, h4⟩
    rw [h.has] at h1
    rcases h1 with h1 | h1 | ⟨m, hm, h1⟩
    · exact absurd rfl (hu c hc _ h1).1
    · exfalso
      have : ∃ i, o = .iri i := by
        cases o with
        | iri i => exact ⟨i, rfl⟩
        | bnode b => simp only [toNode] at h1; cases h1
      obtain ⟨i, rfl⟩ := this
      rw [h.has] at h2
      rcases h2 with h2 | h2 | ⟨m, hm, h2⟩
      · exact hT.blank i h2
      · generalize ht : (⟨toNode (.iri i), .type, .iri Owl.restriction.iri⟩ : Triple) = t at h2
        cases h2 <;> simp only [Triple.mk.injEq, toNode, Node.iri.injEq, reduceCtorEq, false_and, and_false] at ht
        · rename_i k _ hk
          exact (inherited_iri hk.1).1 ht.2.2.symm
        · exact absurd (owl_inj ht.2.2) (by decide)
      · simp only [toNode] at h2; cases h2
    · generalize ht : (⟨.iri c, .subClassOf, toNode o⟩ : Triple) = t at h1
      cases h1 <;> simp only [Triple.mk.injEq, Node.iri.injEq, reduceCtorEq, false_and, and_false] at ht
      obtain ⟨rfl, _, ho⟩ := ht
      have ho : o = .bnode m.2 := by
        cases o <;> simp [toNode] at ho
        exact congrArg _ ho
      subst ho
      refine ⟨m, hm, rfl, ?_, rfl⟩
      have h3 := valueOf_some h3
      rw [h.has] at h3
      rcases h3 with h3 | h3 | ⟨m', hm', h3⟩
      · exact absurd h3 (h.old_blank hg hm (Nat.le_refl _) (.iri m.1.cls) _ _).1
      · obtain ⟨i, hi⟩ := says_iri h3; cases hi
      · generalize ht : (⟨toNode (.bnode m.2), .onProperty, .iri a⟩ : Triple) = t at h3
        cases h3 <;> simp only [Triple.mk.injEq, toNode, Node.iri.injEq, Node.blank.injEq, reduceCtorEq, false_and, and_false] at ht
        rw [(h.unique hm hm').1 ht.1]
        exact ht.2.2.symm
  · rintro ⟨m, hm, rfl, rfl, rfl⟩
    refine ⟨(h.has _ _ _).2 (Or.inr (Or.inr ⟨m, hm, .restriction⟩)), (h.has _ _ _).2 (Or.inr (Or.inr ⟨m, hm, .type⟩)), ?_, ?_⟩
    · refine valueOf_unique ((h.has _ _ _).2 (Or.inr (Or.inr ⟨m, hm, .property⟩))) fun o' ho' => ?_
      rw [h.has] at ho'
      rcases ho' with h3 | h3 | ⟨m', hm', h3⟩
      · exact absurd h3 (h.old_blank hg hm (Nat.le_refl _) (.iri m.1.cls) _ _).1
      · obtain ⟨i, hi⟩ := says_iri h3; cases hi
      · generalize ht : (⟨toNode (.bnode m.2), .onProperty, o'⟩ : Triple) = t at h3
        cases h3 <;> simp only [Triple.mk.injEq, toNode, Node.blank.injEq, reduceCtorEq, false_and, and_false] at ht
        rw [(h.unique hm hm').1 ht.1]
        exact ht.2.2
    · rcases h.isAttr m.1 ((h.mem_made m.1).1 ⟨m.2, hm⟩) with h1 | ⟨e, he, h1, h2⟩
      · exact (h.has _ _ _).2 (Or.inl h1)
      · rw [h1]
        exact (h.has _ _ _).2 (Or.inr (Or.inl (.type he h2)))

theorem Parsed.not_dangling (h : Parsed D g g' made new) (hT : Tidy g) (c : Text) : ¬ Dangling g' c := by
  rintro ⟨o, h1, h2, h3⟩
  rw [h.has] at h2
  rcases h2 with h2 | h2 | ⟨m, hm, h2⟩
  · obtain ⟨p, hp⟩ := hT.property _ h2
    exact h3 p ((h.has _ _ _).2 (Or.inl hp))
  · generalize ht : (⟨toNode o, .type, .iri Owl.restriction.iri⟩ : Triple) = t at h2
    cases h2 <;> simp only [Triple.mk.injEq, Node.iri.injEq, reduceCtorEq, false_and, and_false] at ht
    · rename_i k _ hk
      exact (inherited_iri hk.1).1 ht.2.2.symm
    · exact absurd (owl_inj ht.2.2) (by decide)
  · generalize ht : (⟨toNode o, .type, .iri Owl.restriction.iri⟩ : Triple) = t at h2
    cases h2 <;> simp only [Triple.mk.injEq, reduceCtorEq, false_and, and_false] at ht
    exact h3 (.iri m.1.attr) (by rw [ht.1]; exact (h.has _ _ _).2 (Or.inr (Or.inr ⟨m, hm, .property⟩)))

theorem Parsed.not_domain (h : Parsed D g g' made new) (hu : Unseen D g) {c : Text} (hc : OfDoc D g c) (a : Text) : ¬ InDomain g' c a := by
  rintro ⟨h1, _⟩
  rw [h.has] at h1
  rcases h1 with h1 | h1 | ⟨m, hm, h1⟩
  · exact absurd rfl (hu c hc _ h1).2
  · unfold domain at h1; cases h1
  · unfold domain at h1; cases h1

/-- The nodes that carry defaults of the class. -/
theorem Parsed.default_of (h : Parsed D g g' made new) (hu : Unseen D g) (hg : Ready D g) {c : Text} (hc : OfDoc D g c) (b : Onto.Node Text) (a : Text) :
    (Has g' (.iri c) .default (toNode b) ∧ Has g' (toNode b) .defaultAttribute (.iri a)) ↔ ∃ m ∈ made, m.1.cls = c ∧ m.1.attr = a ∧ m.1.dflt ≠ .null ∧ b = .bnode (m.2 + 1) := by
  constructor
  · rintro ⟨h1, h2⟩
    rw [h.has] at h1
    rcases h1 with h1 | h1 | ⟨m, hm, h1⟩
    · exact absurd rfl (hu c hc _ h1).1
    · cases h1
    · generalize ht : (⟨.iri c, .default, toNode b⟩ : Triple) = t at h1
      cases h1 with
      | default hd =>
        simp only [Triple.mk.injEq, Node.iri.injEq] at ht
        obtain ⟨rfl, _, ho⟩ := ht
        have ho : b = .bnode (m.2 + 1) := by
          cases b <;> simp [toNode] at ho
          exact congrArg _ ho
        subst ho
        refine ⟨m, hm, rfl, ?_, hd, rfl⟩
        rw [h.has] at h2
        rcases h2 with h3 | h3 | ⟨m', hm', h3⟩
        · exact absurd h3 (h.old_blank hg hm (Nat.le_succ _) (.iri m.1.cls) _ _).1
        · obtain ⟨i, hi⟩ := says_iri h3; cases hi
        · generalize ht : (⟨toNode (.bnode (m.2 + 1)), .defaultAttribute, .iri a⟩ : Triple) = t at h3
          cases h3 <;> simp only [Triple.mk.injEq, toNode, Node.iri.injEq, Node.blank.injEq, reduceCtorEq, false_and, and_false] at ht
          rw [(h.unique hm hm').1 (by omega)]
          exact ht.2.2.symm
      | _ => simp only [Triple.mk.injEq, reduceCtorEq, false_and, and_false] at ht
  · rintro ⟨m, hm, rfl, rfl, hd, rfl⟩
    exact ⟨(h.has _ _ _).2 (Or.inr (Or.inr ⟨m, hm, .default hd⟩)), (h.has _ _ _).2 (Or.inr (Or.inr ⟨m, hm, .defaultOf hd⟩))⟩

theorem Parsed.value_of (h : Parsed D g g' made new) (hg : Ready D g) {m : Attr × Nat} (hm : m ∈ made) (d : Node) :
    Has g' (.blank (m.2 + 1)) .defaultValue d ↔ m.1.dflt ≠ .null ∧ d = .value m.1.dflt := by
  rw [h.has]
  constructor
  · rintro (h3 | h3 | ⟨m', hm', h3⟩)
    · exact absurd h3 (h.old_blank hg hm (Nat.le_succ _) (.iri m.1.cls) _ _).1
    · obtain ⟨i, hi⟩ := says_iri h3; cases hi
    · generalize ht : (⟨.blank (m.2 + 1), .defaultValue, d⟩ : Triple) = t at h3
      cases h3 with
      | defaultIs hd =>
        simp only [Triple.mk.injEq, Node.blank.injEq] at ht
        rw [(h.unique hm hm').1 (by omega)]
        exact ⟨hd, ht.2.2⟩
      | _ => simp only [Triple.mk.injEq, reduceCtorEq, false_and, and_false] at ht
  · rintro ⟨hd, rfl⟩
    exact Or.inr (Or.inr ⟨m, hm, .defaultIs hd⟩)

theorem Parsed.no_values (h : Parsed D g g' made new) (hg : Ready D g) {m : Attr × Nat} (hm : m ∈ made) (t : Text) : valueOf g' (.bnode m.2) (.other t) = none := by
  rw [valueOf_none]
  intro o ho
  rw [h.has] at ho
  rcases ho with h3 | h3 | ⟨m', hm', h3⟩
  · exact (h.old_blank hg hm (Nat.le_refl _) (.iri m.1.cls) _ _).1 h3
  · obtain ⟨i, hi⟩ := says_iri h3; cases hi
  · generalize ht : (⟨toNode (.bnode m.2), .other t, o⟩ : Triple) = u at h3
    cases h3 <;> simp only [Triple.mk.injEq, reduceCtorEq, false_and, and_false] at ht

/-- The own attributes of an entity of the document. -/
theorem Parsed.own_doc (h : Parsed D g g' made new) (hu : Unseen D g) (hT : Tidy g) (hg : Ready D g) {c : Text} (hc : OfDoc D g c) :
    ∃ l, own g' c = .ok l ∧ (l.map (·.1)).Nodup ∧ (∀ a, a ∈ l.map (·.1) ↔ ∃ v, Declares D g ⟨c, a, v⟩) ∧
      ∀ a x, (a, x) ∈ l → x.datatype = none ∧ (x.obligatory = true ↔ x.default = none) ∧
        (∀ d, x.default = some d → ∃ v, Declares D g ⟨c, a, v⟩ ∧ v ≠ .null ∧ d = .value v) ∧ (x.default = none → ∀ v, Declares D g ⟨c, a, v⟩ → v = .null) := by
  obtain ⟨l, e, hn, hk, hx⟩ := (own_exact g' c).2 (fun k => h.not_dangling hT c k.1)
  have hres : ∀ a, (∃ o, Has g' (.iri c) .subClassOf (toNode o) ∧ Restricts g' o a) ↔ ∃ v, Declares D g ⟨c, a, v⟩ := by
    intro a
    simp only [h.restriction_of hu hT hg hc, ← h.mem_made]
    constructor
    · rintro ⟨o, ⟨⟨c', a', v⟩, b⟩, hm, rfl, rfl, rfl⟩; exact ⟨v, b, hm⟩
    · rintro ⟨v, b, hm⟩; exact ⟨_, _, hm, rfl, rfl, rfl⟩
  have hkeys : ∀ a, a ∈ l.map (·.1) ↔ ∃ v, Declares D g ⟨c, a, v⟩ := by
    intro a
    rw [hk a, hres a]
    exact ⟨fun k => k.resolve_left (h.not_domain hu hc a), Or.inr⟩
  refine ⟨l, e, hn, hkeys, fun a x hax => ?_⟩
  obtain ⟨k1, k2, _⟩ := hx a x hax
  obtain ⟨k3, o, k4, k5, k6⟩ := k2 ((hres a).2 ((hkeys a).1 (List.mem_map.2 ⟨_, hax, rfl⟩)))
  obtain ⟨m, hm, _, _, rfl⟩ := (h.restriction_of hu hT hg hc o a).1 ⟨k4, k5⟩
  refine ⟨?_, by rw [k3, k1], fun d hd => ?_, fun hd v hv => ?_⟩
  · rw [k6]
    unfold restrictionDatatype someValues allValues
    rw [h.no_values hg hm, h.no_values hg hm]
    rfl
  · rw [k1] at hd
    obtain ⟨b, d1, d2, d3⟩ := getDefault_some hd
    obtain ⟨⟨⟨c', a', v⟩, n⟩, hm', rfl, rfl, d4, rfl⟩ := (h.default_of hu hg hc b a).1 ⟨d1, d2⟩
    exact ⟨v, (h.mem_made _).1 ⟨n, hm'⟩, d4, ((h.value_of hg hm' d).1 d3).2⟩
  · rw [k1] at hd
    obtain ⟨n, hm'⟩ := (h.mem_made ⟨c, a, v⟩).2 hv
    rcases getDefault_none hd with d1 | ⟨b, d1, d2, d3⟩
    · refine Classical.byContradiction fun hvn => ?_
      have := (h.default_of hu hg hc (.bnode (n + 1)) a).2 ⟨_, hm', rfl, rfl, hvn, rfl⟩
      exact d1 _ this.1 this.2
    · obtain ⟨m', hm'', _, _, d4, rfl⟩ := (h.default_of hu hg hc b a).1 ⟨d1, d2⟩
      exact absurd ((h.value_of hg hm'' _).2 ⟨d4, rfl⟩) (d3 _)

end Osp.Fields
