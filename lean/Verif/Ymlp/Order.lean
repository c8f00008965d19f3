import Verif.Ymlp.Props
/-!
# C69: the order of the entities does not matter
-/
namespace Osp.Ymlp
open Osp.Yaml (Yaml)

/-- Two documents that differ only in the order of their entities. -/
structure Reordered (D D' : Doc) : Prop where
  ns : D'.namespace_ = D.namespace_
  dflt : D'.defaultRel = D.defaultRel
  entities : D.entities.Perm D'.entities

theorem Reordered.symm {D D' : Doc} (h : Reordered D D') : Reordered D' D := ⟨h.ns.symm, h.dflt.symm, h.entities.symm⟩
theorem Reordered.own {D D' : Doc} (h : Reordered D D') : D'.own = D.own := by unfold Doc.own; rw [h.ns]
theorem Reordered.mem {D D' : Doc} (h : Reordered D D') {e : Entity} (he : e ∈ D.entities) : e ∈ D'.entities := h.entities.mem_iff.1 he
theorem Reordered.base {D D' : Doc} (h : Reordered D D') (g : Gr) : base D' g = base D g := by unfold Ymlp.base; rw [h.own]
theorem Reordered.iriOf {D D' : Doc} (h : Reordered D D') (g : Gr) (e : Entity) : iriOf D' g e = iriOf D g e := by unfold Ymlp.iriOf; rw [h.base]

theorem Reordered.known {D D' : Doc} (h : Reordered D D') (g : Gr) (ns n : Text) : known D' g ns n = known D g ns n := by
  unfold Ymlp.known
  rw [h.own]
  split
  · rw [Bool.eq_iff_iff, find_isSome, find_isSome]
    exact ⟨fun ⟨e, he, hn⟩ => ⟨e, h.symm.mem he, hn⟩, fun ⟨e, he, hn⟩ => ⟨e, h.mem he, hn⟩⟩
  · rfl

theorem Reordered.getIri {D D' : Doc} (h : Reordered D D') (g : Gr) (ns n : Text) : getIri D' g ns n = getIri D g ns n := by
  unfold Ymlp.getIri
  simp only [h.own, h.known]
theorem Reordered.refers {D D' : Doc} (h : Reordered D D') (g : Gr) (r : Text) : refers D' g r = refers D g r := by
  unfold Ymlp.refers
  simp only [h.getIri]

theorem Reordered.up {D D' : Doc} (h : Reordered D D') {x y : Text × Text} (hu : Up D x y) : Up D' x y := by
  cases hu with
  | step he hr hs => rw [← h.own]; exact .step (h.mem he) hr hs
theorem Reordered.anc {D D' : Doc} (h : Reordered D D') {x y : Text × Text} (hu : Anc D x y) : Anc D' x y := by
  induction hu with
  | refl => exact .refl
  | step hu _ ih => exact .step (h.up hu) ih
theorem Reordered.inherits {D D' : Doc} (h : Reordered D D') {g : Gr} {e : Entity} {k : Owl} (hi : Inherits D g e k) : Inherits D' g e k := by
  obtain ⟨hk, q, hq, i, hi, ht⟩ := hi
  refine ⟨hk, q, ?_, i, by rw [h.getIri]; exact hi, ht⟩
  rw [h.own]; exact h.anc hq
theorem Reordered.isKind {D D' : Doc} (h : Reordered D D') {g : Gr} {e : Entity} {k : Kind} (hk : IsKind D g e k) : IsKind D' g e k := by
  intro k'
  rw [← hk k']
  exact ⟨h.symm.inherits, h.inherits⟩

theorem Reordered.says {D D' : Doc} (h : Reordered D D') {g : Gr} {t : Triple} (hs : Says D g t) : Says D' g t := by
  cases hs with
  | label he => rw [← h.iriOf]; exact .label (h.mem he)
  | description he hd => rw [← h.iriOf]; exact .description (h.mem he) hd
  | type he hi => rw [← h.iriOf]; exact .type (h.mem he) (h.inherits hi)
  | subClass he hk hr hi => rw [← h.iriOf]; exact .subClass (h.mem he) (h.isKind hk) hr (by rw [h.refers]; exact hi)
  | subProperty he hk hn hr hi => rw [← h.iriOf]; exact .subProperty (h.mem he) (h.isKind hk) hn hr (by rw [h.refers]; exact hi)
  | inverse he hk hr hi => rw [← h.iriOf]; exact .inverse (h.mem he) (h.isKind hk) hr (by rw [h.refers]; exact hi)
  | range he hk hr hi => rw [← h.iriOf]; exact .range (h.mem he) (h.isKind hk) hr hi
  | datatype he hk hr hi hp => exact .datatype (h.mem he) (h.isKind hk) hr hi hp
  | defaultHere he hk hd => rw [← h.iriOf, ← h.base]; exact .defaultHere (h.mem he) (h.isKind hk) hd
  | defaultThere hd hi => rw [← h.base]; exact .defaultThere (by rw [h.dflt]; exact hd) (by rw [h.refers]; exact hi)

theorem Reordered.isAttribute {D D' : Doc} (h : Reordered D D') {g : Gr} {i : Text} (ha : IsAttribute D g i) : IsAttribute D' g i := by
  rcases ha with ha | ⟨e, he, hi, hinh⟩
  · exact Or.inl ha
  · exact Or.inr ⟨e, h.mem he, by rw [h.iriOf]; exact hi, h.inherits hinh⟩

theorem Reordered.proper {D D' : Doc} (h : Reordered D D') (hD : Proper D) : Proper D' := by
  refine ⟨(h.entities.map _).nodup hD.distinct, fun e he => hD.names e (h.symm.mem he), ?_, by rw [h.own]; exact hD.own⟩
  intro r hr
  refine hD.refs r ?_
  cases hr with
  | super he hs => exact .super (h.symm.mem he) hs
  | inverse he hi => exact .inverse (h.symm.mem he) hi
  | «attribute» he ha hm => exact .attribute (h.symm.mem he) ha hm
  | default hd => exact .default (by rw [← h.dflt]; exact hd)

theorem Reordered.ready {D D' : Doc} (h : Reordered D D') {g : Gr} (hg : Ready D g) : Ready D' g :=
  ⟨by rw [h.base]; exact hg.notByLabel, by rw [h.base, h.own]; exact hg.apart, by rw [h.base]; exact hg.ownApart, hg.fresh⟩

theorem Reordered.fine {D D' : Doc} (h : Reordered D D') {E : Env} {g : Gr} (hf : Fine E D g) : Fine E D' g := by
  refine ⟨?_, ?_, ?_, ?_, ?_, ?_, ?_, ?_⟩
  · intro e he r hr
    obtain ⟨h1, h2⟩ := hf.supers e (h.symm.mem he) r hr
    refine ⟨by rw [h.refers]; exact h1, fun n hn => ?_⟩
    rw [h.own] at hn
    obtain ⟨e', he', hn'⟩ := h2 n hn
    exact ⟨e', h.mem he', hn'⟩
  · rintro e he ⟨q, hq, ha⟩
    refine hf.acyclic e (h.symm.mem he) ⟨q, ?_, ?_⟩
    · rw [← h.own]; exact h.symm.up hq
    · rw [← h.own]; exact h.symm.anc ha
  · intro e he
    obtain ⟨k, hk, hv⟩ := hf.kinds e (h.symm.mem he)
    exact ⟨k, h.isKind hk, hv⟩
  · rw [h.dflt, (h.entities.symm.filter _).length_eq]
    exact hf.single
  · intro r hr
    rw [h.dflt] at hr
    rw [h.refers]
    exact hf.default r hr
  · intro e he hk r hr
    rw [h.refers]
    exact hf.inverses e (h.symm.mem he) (h.symm.isKind hk) r hr
  · intro e he hk
    exact hf.datatypes e (h.symm.mem he) (h.symm.isKind hk)
  · intro e he hk l hl r v hrv
    obtain ⟨i, hi, ha⟩ := hf.attributes e (h.symm.mem he) (h.symm.isKind hk) l hl r v hrv
    exact ⟨i, by rw [h.refers]; exact hi, h.isAttribute ha⟩

theorem Reordered.declared {D D' : Doc} (h : Reordered D D') (g : Gr) : (declared D g).Perm (declared D' g) := by
  unfold Ymlp.declared
  have : (fun e => open Classical in if IsKind D g e .class_ then (e.attributes.getD []).filterMap (entry D g e) else []) =
      (fun e => open Classical in if IsKind D' g e .class_ then (e.attributes.getD []).filterMap (entry D' g e) else []) := by
    funext e
    have hk : IsKind D g e .class_ ↔ IsKind D' g e .class_ := ⟨h.isKind, h.symm.isKind⟩
    have he : entry D g e = entry D' g e := by funext rv; unfold entry; rw [h.refers, h.iriOf]
    rw [he]
    by_cases hh : IsKind D g e .class_
    · rw [if_pos hh, if_pos (hk.1 hh)]
    · rw [if_neg hh, if_neg (fun x => hh (hk.2 x))]
  rw [this]
  exact h.entities.flatMap_right _

/-- Triples without blank nodes. -/
def Ground (t : Triple) : Prop := (∀ b, t.s ≠ .blank b) ∧ ∀ b, t.o ≠ .blank b

theorem says_ground {D : Doc} {g : Gr} {t : Triple} (h : Says D g t) : Ground t := by
  cases h <;> exact ⟨fun b h => (by cases h), fun b h => (by cases h)⟩
theorem attrSays_blank {a : Attr} {b : Nat} {t : Triple} (h : AttrSays a b t) : ¬ Ground t := by
  rintro ⟨h1, h2⟩
  cases h with
  | restriction => exact h2 _ rfl
  | type => exact h1 _ rfl
  | cardinality => exact h1 _ rfl
  | property => exact h1 _ rfl
  | default _ => exact h2 _ rfl
  | defaultOf _ => exact h1 _ rfl
  | defaultIs _ => exact h1 _ rfl

/-- C69: the order of the entities does not matter. Parsing the reordered document succeeds as well, gives the same triples without blank nodes, and the same restrictions for attributes. -/
theorem order_irrelevant {E : Env} {D D' : Doc} {g g1 : Gr} (hD : Proper D) (hg : Ready D g) (hr : Reordered D D') {fuel : Nat} (h : parseOntology E fuel D g = .ok g1) :
    ∃ fuel' g2, parseOntology E fuel' D' g = .ok g2 ∧ (∀ t, Ground t → (t ∈ g1.triples ↔ t ∈ g2.triples)) ∧
      ∃ made1 made2, Made D g made1 ∧ Made D' g made2 ∧ (made1.map (·.1)).Perm (made2.map (·.1)) ∧
        (∀ t, ¬ Ground t → (t ∈ g1.triples ↔ t ∈ g.triples ∨ ∃ m ∈ made1, AttrSays m.1 m.2 t)) ∧ ∀ t, ¬ Ground t → (t ∈ g2.triples ↔ t ∈ g.triples ∨ ∃ m ∈ made2, AttrSays m.1 m.2 t) := by
  obtain ⟨fuel', g2, h2⟩ := (parse_succeeds_iff (E := E) (hr.proper hD) (hr.ready hg)).2 (hr.fine ((parse_succeeds_iff hD hg).1 ⟨fuel, g1, h⟩))
  obtain ⟨made1, m1, t1⟩ := parse_exact hD hg h
  obtain ⟨made2, m2, t2⟩ := parse_exact (hr.proper hD) (hr.ready hg) h2
  refine ⟨fuel', g2, h2, ?_, made1, made2, m1, m2, ?_, ?_, ?_⟩
  · intro t ht
    rw [t1, t2]
    constructor
    · rintro (h | h | ⟨m, _, h⟩)
      · exact Or.inl h
      · exact Or.inr (Or.inl (hr.says h))
      · exact absurd ht (attrSays_blank h)
    · rintro (h | h | ⟨m, _, h⟩)
      · exact Or.inl h
      · exact Or.inr (Or.inl (hr.symm.says h))
      · exact absurd ht (attrSays_blank h)
  · rw [m1.which, m2.which]; exact hr.declared g
  · intro t ht
    rw [t1]
    constructor
    · rintro (h | h | h)
      · exact Or.inl h
      · exact absurd (says_ground h) ht
      · exact Or.inr h
    · rintro (h | h)
      · exact Or.inl h
      · exact Or.inr (Or.inr h)
  · intro t ht
    rw [t2]
    constructor
    · rintro (h | h | h)
      · exact Or.inl h
      · exact absurd (says_ground h) ht
      · exact Or.inr h
    · rintro (h | h)
      · exact Or.inl h
      · exact Or.inr (Or.inr h)

end Osp.Ymlp
