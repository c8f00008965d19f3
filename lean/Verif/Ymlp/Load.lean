import Verif.Ymlp.Walk
/-!
# The first loop: labels, types and superclasses of the entities
-/
namespace Osp.Ymlp
open Osp.Yaml (Yaml)
open Osp.Names (lower)

theorem iriOf_inj {D : Doc} {g : Gr} (hD : Proper D) {e e' : Entity} (he : e ∈ D.entities) (he' : e' ∈ D.entities) (h : iriOf D g e = iriOf D g e') : e = e' :=
  name_inj hD.distinct he he' (List.append_cancel_left h)

theorem labelled_prefix {g : Gr} {ns name s : Text} {l : List Triple} (h : labelled g ns name l = some s) : ns <+: s := by
  induction l with
  | nil => cases h
  | cons t l ih =>
    rw [labelled] at h
    cases hs : t.s with
    | iri u =>
      rw [hs] at h
      simp only at h
      split at h
      · rename_i hc
        cases h
        simp only [Bool.and_eq_true, List.isPrefixOf_iff_prefix] at hc
        exact hc.2
      · exact ih h
    | _ =>
      rw [hs] at h
      exact ih h

theorem candidate_outside {D : Doc} {g : Gr} (hg : Ready D g) {ns n m : Text} (hns : Plain ns) (hn : Plain n) (hm : Plain m) (ho : ns ≠ D.own) : candidate g (nsIri g ns) n ≠ base D g ++ m := by
  have ha := hg.apart ns hns ho n m hn hm
  unfold candidate
  split
  · cases hl : labelled g (nsIri g ns) n g.triples with
    | none => exact ha.1
    | some s =>
      rw [Option.getD_some]
      rintro rfl
      exact ha.2.1 (labelled_prefix hl)
  · exact ha.1

/-- References to other namespaces never mean an entity of the document. -/
theorem getIri_outside {D : Doc} {g : Gr} (hg : Ready D g) {x : Text × Text} (hx : Ref x) (ho : x.1 ≠ D.own) {i m : Text} (hm : Plain m) (h : getIri D g x.1 x.2 = .ok i) : i ≠ base D g ++ m := by
  obtain ⟨h1, h2, h3, h4, h5⟩ := hx
  have he1 : x.1.isEmpty = false := by
    cases hh : x.1 with
    | nil => exact absurd hh h4
    | cons _ _ => rfl
  have he2 : x.2.isEmpty = false := by
    cases hh : x.2 with
    | nil => exact absurd hh h3
    | cons _ _ => rfl
  simp only [getIri, he1, he2, Bool.false_eq_true, if_false, h5] at h
  split at h
  · cases h; exact candidate_outside hg h1 h2 hm ho
  · split at h
    · cases h
    · cases h
    · rename_i a ha
      split at h
      · cases h; exact candidate_outside hg h1 (plain_alt h2 ha).1 hm ho
      · cases h

/-! ### growing -/

/-- The second graph has these triples in addition. -/
structure Adds (h h' : Gr) (P : Triple → Prop) : Prop where
  binds : h'.binds = h.binds
  next : h'.next = h.next
  new : ∃ ts, h'.triples = h.triples ++ ts ∧ ∀ t, t ∈ ts ↔ P t

theorem Adds.none {h : Gr} {P : Triple → Prop} (hP : ∀ t, ¬ P t) : Adds h h P := ⟨rfl, rfl, [], by simp, fun t => by simp [hP t]⟩
theorem Adds.one (h : Gr) (t : Triple) : Adds h (h.add t) (fun u => u = t) := ⟨rfl, rfl, [t], rfl, fun u => by simp⟩
theorem Adds.trans {h h' h'' : Gr} {P Q : Triple → Prop} (h1 : Adds h h' P) (h2 : Adds h' h'' Q) : Adds h h'' (fun t => P t ∨ Q t) := by
  obtain ⟨ts, e1, m1⟩ := h1.new
  obtain ⟨us, e2, m2⟩ := h2.new
  exact ⟨h2.binds.trans h1.binds, h2.next.trans h1.next, ts ++ us, by rw [e2, e1, List.append_assoc], fun t => by rw [List.mem_append, m1, m2]⟩
theorem Adds.congr {h h' : Gr} {P Q : Triple → Prop} (h1 : Adds h h' P) (hPQ : ∀ t, P t ↔ Q t) : Adds h h' Q := by
  obtain ⟨ts, e1, m1⟩ := h1.new
  exact ⟨h1.binds, h1.next, ts, e1, fun t => (m1 t).trans (hPQ t)⟩
theorem Adds.mem {h h' : Gr} {P : Triple → Prop} (h1 : Adds h h' P) (t : Triple) : t ∈ h'.triples ↔ t ∈ h.triples ∨ P t := by
  obtain ⟨ts, e1, m1⟩ := h1.new
  rw [e1, List.mem_append, m1]

theorem Adds.ext {D : Doc} {g h h' : Gr} {P : Triple → Prop} (h1 : Adds h h' P) (hx : Ext D g h) (hn : ∀ t, P t → New D g t) : Ext D g h' := by
  obtain ⟨ts, e1, m1⟩ := h1.new
  exact hx.trans (fun ns => by unfold nsIri; rw [h1.binds]) e1 (fun t ht => hn t ((m1 t).1 ht))

/-- The graph has grown by triples of the document, and types only where the document gives them. -/
structure Tame (D : Doc) (g h : Gr) : Prop where
  ext : Ext D g h
  types : ∀ i k, k ∈ kindTypes → hasType h i k = true → hasType g i k = true ∨ ∃ e ∈ D.entities, i = iriOf D g e ∧ Inherits D g e k

theorem Tame.refl (D : Doc) (g : Gr) : Tame D g g := ⟨Ext.refl D g, fun _ _ _ h => Or.inl h⟩

theorem Tame.adds {D : Doc} {g h h' : Gr} {P : Triple → Prop} (ht : Tame D g h) (h1 : Adds h h' P) (hn : ∀ t, P t → New D g t)
    (hty : ∀ i k, k ∈ kindTypes → P ⟨.iri i, .type, .iri k.iri⟩ → ∃ e ∈ D.entities, i = iriOf D g e ∧ Inherits D g e k) : Tame D g h' := by
  refine ⟨h1.ext ht.ext hn, fun i k hk hh => ?_⟩
  rw [hasType_iff] at hh
  rcases (h1.mem _).1 hh with hh | hh
  · exact ht.types i k hk ((hasType_iff _ _ _).2 hh)
  · exact Or.inr (hty i k hk hh)

theorem owl_inj {k k' : Owl} (h : k.iri = k'.iri) : k = k' := by
  cases k <;> cases k' <;> first | rfl | (exact absurd h (by decide +kernel))

theorem new_entity {D : Doc} {g : Gr} (hD : Proper D) {e : Entity} (he : e ∈ D.entities) {p : Pred} (hp : p ≠ .referenceByLabel) (o : Node) : New D g ⟨.iri (iriOf D g e), p, o⟩ :=
  ⟨hp, Or.inl ⟨e.name, (hD.names e he).2, rfl⟩⟩

theorem named_ext {D : Doc} {g h : Gr} (hD : Proper D) (hg : Ready D g) (hx : Ext D g h) {x : Text × Text} (hr : Ref x) : Named D h x ↔ Named D g x := by
  unfold Named
  rw [getIri_ext hD hg hx hr.1 hr.2.1]

/-- The types that the loop finds are those inherited in the graph before. -/
theorem inherits_iff {D : Doc} {g h : Gr} (hD : Proper D) (hg : Ready D g) (ht : Tame D g h) {e : Entity} (he : e ∈ D.entities) (hn : ∀ y, Anc D (D.own, e.name) y → Named D g y) (k : Owl) :
    (∃ y, Anc D (D.own, e.name) y ∧ ∃ i, getIri D h y.1 y.2 = .ok i ∧ k ∈ kindTypes ∧ hasType h i k = true) ↔ Inherits D g e k := by
  have hr := ref_entity hD he
  constructor
  · rintro ⟨y, hy, i, hi, hk, hty⟩
    have hry := ref_anc hD hy hr
    rw [getIri_ext hD hg ht.ext hry.1 hry.2.1] at hi
    rcases ht.types i k hk hty with hty | ⟨e', he', hie, hinh⟩
    · exact ⟨hk, y, hy, i, hi, (hasType_iff _ _ _).1 hty⟩
    · obtain ⟨_, q, hq, j, hj, hjt⟩ := hinh
      by_cases ho : y.1 = D.own
      · obtain ⟨e2, he2, hne⟩ := (hn y hy).2 ho
        have hye : y = (D.own, e2.name) := by rw [← ho, hne]
        have h2 := (getIri_entity hD hg (Ext.refl D g) he2).2
        rw [hye] at hi
        simp only at hi
        rw [h2] at hi
        injection hi with hi
        have := iriOf_inj hD he2 he' (hi.trans hie)
        subst this
        rw [hye] at hy
        exact ⟨hk, q, hy.trans hq, j, hj, hjt⟩
      · exact absurd hie (getIri_outside hg hry ho (hD.names e' he').2 hi)
  · rintro ⟨hk, q, hq, i, hi, hty⟩
    have hrq := ref_anc hD hq hr
    refine ⟨q, hq, i, ?_, hk, ?_⟩
    · rw [getIri_ext hD hg ht.ext hrq.1 hrq.2.1]; exact hi
    · rw [hasType_iff]; exact ext_mem ht.ext hty

/-! ### the steps for one entity -/

theorem hasType_add {h : Gr} {t : Triple} (hp : t.p ≠ .type) (i : Text) (k : Owl) : hasType (h.add t) i k = hasType h i k := by
  unfold hasType Gr.add
  simp only [List.any_append, List.any_cons, List.any_nil, Bool.or_false]
  rw [show (t.p == Pred.type) = false from by simpa using hp]
  simp

/-- The predicate between an entity and its superclasses. -/
def superPred (b : Bool) : Pred := if b then .subClassOf else .subPropertyOf

theorem superPred_ne (b : Bool) : superPred b ≠ .referenceByLabel ∧ superPred b ≠ .type := by cases b <;> simp [superPred]

theorem addSupers_ok {D : Doc} {g : Gr} (hD : Proper D) (hg : Ready D g) {e : Entity} (he : e ∈ D.entities) {b : Bool} {l : List (Option Text)} {h h' : Gr}
    (hl : ∀ r, some r ∈ l → Super e r) (hx : Ext D g h) (hb : hasType h (iriOf D g e) .class_ = b) (hw : addSupers D (iriOf D g e) l h = .ok h') :
    Adds h h' (fun t => ∃ r i, some r ∈ l ∧ refers D g r = .ok i ∧ t = ⟨.iri (iriOf D g e), superPred b, .iri i⟩) ∧ ∀ r, some r ∈ l → ∃ i, refers D g r = .ok i := by
  induction l generalizing h with
  | nil =>
    cases hw
    exact ⟨Adds.none (fun t => by rintro ⟨r, i, hr, _⟩; cases hr), fun r hr => by cases hr⟩
  | cons o l ih =>
    have hl' : ∀ r, some r ∈ l → Super e r := fun r hr => hl r (List.mem_cons_of_mem _ hr)
    cases o with
    | none =>
      obtain ⟨h1, h2⟩ := ih hl' hx hb hw
      refine ⟨h1.congr (fun t => ?_), fun r hr => ?_⟩
      · constructor
        · rintro ⟨r, i, hr, hh⟩; exact ⟨r, i, List.mem_cons_of_mem _ hr, hh⟩
        · rintro ⟨r, i, hr, hh⟩
          rcases List.mem_cons.1 hr with hr | hr
          · cases hr
          · exact ⟨r, i, hr, hh⟩
      · rcases List.mem_cons.1 hr with hr | hr
        · cases hr
        · exact h2 r hr
    | some r0 =>
      rw [addSupers, bind_ok] at hw
      obtain ⟨i0, hi0, hw⟩ := hw
      rw [refers_ext hD hg hx (InDoc.super he (hl r0 List.mem_cons_self)), ] at hi0
      rw [hb] at hw
      change addSupers D (iriOf D g e) l (h.add ⟨.iri (iriOf D g e), superPred b, .iri i0⟩) = .ok h' at hw
      have hone := Adds.one h ⟨.iri (iriOf D g e), superPred b, .iri i0⟩
      obtain ⟨h1, h2⟩ := ih hl' (hone.ext hx (fun t ht => by rw [ht]; exact new_entity hD he (superPred_ne b).1 _)) (by rw [hasType_add (superPred_ne b).2]; exact hb) hw
      refine ⟨(hone.trans h1).congr (fun t => ?_), fun r hr => ?_⟩
      · constructor
        · rintro (rfl | ⟨r, i, hr, hh⟩)
          · exact ⟨r0, i0, List.mem_cons_self, hi0, rfl⟩
          · exact ⟨r, i, List.mem_cons_of_mem _ hr, hh⟩
        · rintro ⟨r, i, hr, hi, rfl⟩
          rcases List.mem_cons.1 hr with hr | hr
          · cases hr; rw [hi0] at hi; cases hi; exact Or.inl rfl
          · exact Or.inr ⟨r, i, hr, hi, rfl⟩
      · rcases List.mem_cons.1 hr with hr | hr
        · cases hr; exact ⟨i0, hi0⟩
        · exact h2 r hr

theorem addSupers_total {D : Doc} {g : Gr} (hD : Proper D) (hg : Ready D g) {e : Entity} (he : e ∈ D.entities) {l : List (Option Text)} {h : Gr}
    (hl : ∀ r, some r ∈ l → Super e r) (hx : Ext D g h) (hr : ∀ r, some r ∈ l → ∃ i, refers D g r = .ok i) : ∃ h', addSupers D (iriOf D g e) l h = .ok h' := by
  induction l generalizing h with
  | nil => exact ⟨h, rfl⟩
  | cons o l ih =>
    have hl' : ∀ r, some r ∈ l → Super e r := fun r hr => hl r (List.mem_cons_of_mem _ hr)
    have hr' : ∀ r, some r ∈ l → ∃ i, refers D g r = .ok i := fun r h => hr r (List.mem_cons_of_mem _ h)
    cases o with
    | none => exact ih hl' hx hr'
    | some r0 =>
      obtain ⟨i0, hi0⟩ := hr r0 List.mem_cons_self
      rw [addSupers, refers_ext hD hg hx (InDoc.super he (hl r0 List.mem_cons_self)), hi0]
      refine ih hl' ((Adds.one h _).ext hx (fun t ht => ?_)) hr'
      rw [ht]
      exact new_entity hD he (by split <;> simp) _

/-- The triples that the first loop adds for an entity. -/
inductive LoadSays (D : Doc) (g : Gr) (e : Entity) : Triple → Prop where
  | label : LoadSays D g e ⟨.iri (iriOf D g e), .prefLabel, .label e.name⟩
  | description {d : Text} : e.description = some d → LoadSays D g e ⟨.iri (iriOf D g e), .isDefinedBy, .label d⟩
  | type {k : Owl} : Inherits D g e k → LoadSays D g e ⟨.iri (iriOf D g e), .type, .iri k.iri⟩
  | super {b : Bool} {r i : Text} : (b = true ↔ Inherits D g e .class_) → Super e r → refers D g r = .ok i → LoadSays D g e ⟨.iri (iriOf D g e), superPred b, .iri i⟩

/-- What the first loop needs for an entity. -/
structure Loadable (D : Doc) (g : Gr) (e : Entity) : Prop where
  named : ∀ y, Anc D (D.own, e.name) y → Named D g y
  acc : Acc (fun b a => Up D a b) (D.own, e.name)
  typed : ∃ k, Inherits D g e k

theorem loadable_refers {D : Doc} {g : Gr} {e : Entity} (hD : Proper D) (he : e ∈ D.entities) (hl : ∀ y, Anc D (D.own, e.name) y → Named D g y) {r : Text} (hr : Super e r) : ∃ i, refers D g r = .ok i := by
  obtain ⟨ns, n, hs⟩ := splits_doc hD (InDoc.super he hr)
  obtain ⟨⟨i, hi⟩, _⟩ := hl (ns, n) (.step (.step he hr hs) .refl)
  refine ⟨i, ?_⟩
  unfold refers
  rw [(splitName_iff _ _ _).2 hs]
  exact hi

/-- Labels and description. -/
def describe (g : Gr) (iri : Text) (e : Entity) : Gr :=
  (match e.description with
    | some d => g.add ⟨.iri iri, .isDefinedBy, .label d⟩
    | none => g).add ⟨.iri iri, .prefLabel, .label e.name⟩

theorem loadEntity_eq {D : Doc} {g h : Gr} (hD : Proper D) (hg : Ready D g) (hx : Ext D g h) {e : Entity} (he : e ∈ D.entities) (fuel : Nat) :
    loadEntity D fuel h e = (addTypes D fuel (describe h (iriOf D g e) e) e.name (iriOf D g e) >>= fun h => addSupers D (iriOf D g e) e.supers h) := by
  unfold loadEntity
  rw [(getIri_entity hD hg hx he).1]
  rfl

theorem describe_adds (D : Doc) (g h : Gr) (e : Entity) :
    Adds h (describe h (iriOf D g e) e) (fun t => t = ⟨.iri (iriOf D g e), .prefLabel, .label e.name⟩ ∨ ∃ d, e.description = some d ∧ t = ⟨.iri (iriOf D g e), .isDefinedBy, .label d⟩) := by
  unfold describe
  cases hd : e.description with
  | none => exact (Adds.one h _).congr (fun t => ⟨Or.inl, fun h => h.elim id (fun ⟨_, h, _⟩ => by cases h)⟩)
  | some d =>
    refine ((Adds.one h _).trans (Adds.one _ _)).congr (fun t => ?_)
    constructor
    · rintro (h | h)
      · exact Or.inr ⟨d, rfl, h⟩
      · exact Or.inl h
    · rintro (h | ⟨d', h', h⟩)
      · exact Or.inr h
      · cases h'; exact Or.inl h

theorem describe_tame {D : Doc} {g h : Gr} (hD : Proper D) (ht : Tame D g h) {e : Entity} (he : e ∈ D.entities) : Tame D g (describe h (iriOf D g e) e) := by
  refine ht.adds (describe_adds D g h e) ?_ ?_
  · rintro t (rfl | ⟨d, _, rfl⟩)
    · exact new_entity hD he (by simp) _
    · exact new_entity hD he (by simp) _
  · rintro i k _ (h | ⟨d, _, h⟩) <;> cases h

theorem addTypes_adds {h : Gr} (iri : Text) (T : List Owl) :
    Adds h (addAll h (T.map (fun k => (⟨.iri iri, .type, .iri k.iri⟩ : Triple)))) (fun t => ∃ k ∈ T, t = ⟨.iri iri, .type, .iri k.iri⟩) :=
  ⟨rfl, rfl, _, rfl, fun t => by rw [List.mem_map]; exact ⟨fun ⟨k, h1, h2⟩ => ⟨k, h1, h2.symm⟩, fun ⟨k, h1, h2⟩ => ⟨k, h1, h2.symm⟩⟩⟩

theorem inherits_own {D : Doc} {g : Gr} (hD : Proper D) (hg : Ready D g) {e : Entity} (he : e ∈ D.entities) {k : Owl} (hk : k ∈ kindTypes) (h : hasType g (iriOf D g e) k = true) : Inherits D g e k :=
  ⟨hk, _, .refl, _, (getIri_entity hD hg (Ext.refl D g) he).2, (hasType_iff _ _ _).1 h⟩

/-- The step of the first loop for one entity, when it ends without an exception. -/
theorem loadEntity_ok {D : Doc} {g h h' : Gr} (hD : Proper D) (hg : Ready D g) (ht : Tame D g h) {e : Entity} (he : e ∈ D.entities) {fuel : Nat} (hw : loadEntity D fuel h e = .ok h') :
    Adds h h' (LoadSays D g e) ∧ Tame D g h' ∧ (∀ k ∈ kindTypes, hasType h' (iriOf D g e) k = true ↔ Inherits D g e k) ∧ Loadable D g e := by
  rw [loadEntity_eq hD hg ht.ext he, bind_ok] at hw
  obtain ⟨h2, hw1, hw⟩ := hw
  have ht1 := describe_tame hD ht he
  have ha1 := describe_adds D g h e
  generalize describe h (iriOf D g e) e = h1 at *
  unfold addTypes at hw1
  rw [bind_ok] at hw1
  obtain ⟨T, hT, hw1⟩ := hw1
  obtain ⟨w1, w2, w3⟩ := walk_ok hD hT
  have hr := ref_entity hD he
  have hnamed : ∀ y, Anc D (D.own, e.name) y → Named D g y := fun y hy => (named_ext hD hg ht1.ext (ref_anc hD hy hr)).1 (w2 _ List.mem_cons_self y hy)
  have hTi : ∀ k, k ∈ T ↔ Inherits D g e k := by
    intro k
    rw [w1 k, ← inherits_iff hD hg ht1 he hnamed k]
    simp only [List.not_mem_nil, false_or, List.mem_singleton, exists_eq_left]
  split at hw1
  · cases hw1
  · rename_i hne
    cases hw1
    have ha2 := addTypes_adds (h := h1) (iriOf D g e) T
    have ht2 : Tame D g (addAll h1 (T.map (fun k => (⟨.iri (iriOf D g e), .type, .iri k.iri⟩ : Triple)))) := by
      refine ht1.adds ha2 ?_ ?_
      · rintro t ⟨k, _, rfl⟩; exact new_entity hD he (by simp) _
      · rintro i k hk ⟨k', hk', hh⟩
        injection hh with h1 _ h3
        injection h1 with h1
        injection h3 with h3
        rw [← owl_inj h3] at hk'
        exact ⟨e, he, h1, (hTi k).1 hk'⟩
    generalize hh2 : addAll h1 (T.map (fun k => (⟨.iri (iriOf D g e), .type, .iri k.iri⟩ : Triple))) = h2 at *
    have hty : ∀ k ∈ kindTypes, hasType h2 (iriOf D g e) k = true ↔ Inherits D g e k := by
      intro k hk
      constructor
      · intro hh
        rcases ht2.types _ k hk hh with hh | ⟨e', he', hi, hin⟩
        · exact inherits_own hD hg he hk hh
        · rw [iriOf_inj hD he he' hi]; exact hin
      · intro hh
        rw [hasType_iff]
        exact (ha2.mem _).2 (Or.inr ⟨k, (hTi k).2 hh, rfl⟩)
    obtain ⟨b, hb⟩ : ∃ b, hasType h2 (iriOf D g e) .class_ = b := ⟨_, rfl⟩
    obtain ⟨ha3, hre⟩ := addSupers_ok hD hg he (fun r hr => hr) ht2.ext hb hw
    have hbi : b = true ↔ Inherits D g e .class_ := by rw [← hb]; exact hty .class_ (by decide)
    have ht3 : Tame D g h' := by
      refine ht2.adds ha3 ?_ ?_
      · rintro t ⟨r, i, _, _, rfl⟩; exact new_entity hD he (superPred_ne b).1 _
      · rintro i k _ ⟨r, j, _, _, hh⟩
        injection hh with _ hh _
        exact absurd hh.symm (superPred_ne b).2
    refine ⟨((ha1.trans ha2).trans ha3).congr (fun t => ?_), ht3, ?_, ⟨hnamed, w3 _ List.mem_cons_self, ?_⟩⟩
    · constructor
      · rintro (((rfl | ⟨d, hd, rfl⟩) | ⟨k, hk, rfl⟩) | ⟨r, i, hr, hi, rfl⟩)
        · exact .label
        · exact .description hd
        · exact .type ((hTi k).1 hk)
        · exact .super hbi hr hi
      · intro hh
        cases hh with
        | label => exact Or.inl (Or.inl (Or.inl rfl))
        | description hd => exact Or.inl (Or.inl (Or.inr ⟨_, hd, rfl⟩))
        | type hk => exact Or.inl (Or.inr ⟨_, (hTi _).2 hk, rfl⟩)
        | @super b' r i hb' hr hi =>
          have : b' = b := by rw [Bool.eq_iff_iff, hb', hbi]
          subst this
          exact Or.inr ⟨r, i, hr, hi, rfl⟩
    · intro k hk
      constructor
      · intro hh
        rcases ht3.types _ k hk hh with hh | ⟨e', he', hi, hin⟩
        · exact inherits_own hD hg he hk hh
        · rw [iriOf_inj hD he he' hi]; exact hin
      · intro hh
        have := (hty k hk).2 hh
        rw [hasType_iff] at this ⊢
        exact (ha3.mem _).2 (Or.inl this)
    · cases T with
      | nil => exact absurd rfl hne
      | cons k T => exact ⟨k, (hTi k).1 List.mem_cons_self⟩

/-- The step succeeds with enough turns. -/
theorem loadEntity_total {D : Doc} {g : Gr} (hD : Proper D) (hg : Ready D g) {e : Entity} (he : e ∈ D.entities) (hl : Loadable D g e) :
    ∃ n, ∀ m h, Tame D g h → ∃ h', loadEntity D (n + m) h e = .ok h' := by
  have hr := ref_entity hD he
  obtain ⟨n, hp⟩ := walk_passes hD hg hl.acc hr hl.named
  refine ⟨n, fun m h ht => ?_⟩
  rw [loadEntity_eq hD hg ht.ext he]
  have ht1 := describe_tame hD ht he
  generalize describe h (iriOf D g e) e = h1 at *
  obtain ⟨T, hT⟩ := hp h1 ht1.ext m [] []
  have hT : walk D h1 (n + m) [(D.own, e.name)] [] = .ok T := hT.trans (by cases m <;> rfl)
  obtain ⟨w1, _, _⟩ := walk_ok hD hT
  have hTi : ∀ k, k ∈ T ↔ Inherits D g e k := by
    intro k
    rw [w1 k, ← inherits_iff hD hg ht1 he hl.named k]
    simp only [List.not_mem_nil, false_or, List.mem_singleton, exists_eq_left]
  have hne : T.isEmpty = false := by
    obtain ⟨k, hk⟩ := hl.typed
    cases T with
    | nil => exact absurd ((hTi k).2 hk) (by simp)
    | cons _ _ => rfl
  unfold addTypes
  rw [hT]
  change ∃ h', ((if T.isEmpty = true then _ else _ : Run Gr) >>= _) = .ok h'
  rw [hne, if_neg (by simp)]
  refine addSupers_total hD hg he (fun r hr => hr) ?_ (fun r hr => loadable_refers hD he hl.named hr)
  refine (addTypes_adds (iriOf D g e) T).ext ht1.ext ?_
  rintro t ⟨k, _, rfl⟩; exact new_entity hD he (by simp) _

end Osp.Ymlp
