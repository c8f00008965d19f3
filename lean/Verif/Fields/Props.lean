import Verif.Fields.Yaml
import Verif.Onto.Props
import Verif.Onto.AttrProps
/-!
# The attributes of the classes of a YAML ontology (C93)
-/
namespace Osp.Fields
open Osp.Ymlp
open Osp.Yaml (Yaml)
open Osp.Onto (AttrInfo)

variable {E : Env} {D : Doc} {g g' : Gr} {made : List (Attr × Nat)} {new : List Triple}

/-! ### classes that were there before -/

/-- The node is not one of those that parsing the document adds. Specification. -/
def Old (D : Doc) (g : Gr) : Onto.Node Text → Prop
  | .iri i => ¬ OfDoc D g i
  | .bnode k => k < g.next

theorem old_object (hu : Unseen D g) (hg : Ready D g) {s : Node} {p : Pred} {o : Onto.Node Text} (h : Has g s p (toNode o)) : Old D g o := by
  cases o with
  | iri i => exact fun hi => (hu i hi _ h).2 rfl
  | bnode k => exact hg.fresh _ h k (Or.inr rfl)

theorem old_subject (hu : Unseen D g) (hg : Ready D g) {s : Onto.Node Text} {p : Pred} {o : Node} (h : Has g (toNode s) p o) : Old D g s := by
  cases s with
  | iri i => exact fun hi => (hu i hi _ h).1 rfl
  | bnode k => exact hg.fresh _ h k (Or.inl rfl)

/-- What is added about an old node. -/
theorem Parsed.about_old (h : Parsed D g g' made new) {s : Onto.Node Text} (hs : Old D g s) {t : Triple} (ht : t ∈ new) (he : t.s = toNode s) :
    t.p = .defaultRel ∨ (t.p = .type ∧ t.o = .iri Owl.datatype.iri) := by
  rcases (h.isNew t).1 ht with k | ⟨m, hm, k⟩
  · rcases says_subject k with ⟨c, hc, k1⟩ | ⟨i, _, k1⟩ | k1
    · rw [k1] at he
      cases s with
      | iri i =>
        simp only [toNode, Node.iri.injEq] at he
        subst he
        exact absurd hc hs
      | bnode b => simp [toNode] at he
    · exact Or.inr k1
    · exact Or.inl k1
  · exfalso
    have hn := h.isMade.new m hm
    have hd := declares_doc ((h.mem_made m.1).1 ⟨m.2, hm⟩)
    have : t.s = .iri m.1.cls ∨ t.s = .blank m.2 ∨ t.s = .blank (m.2 + 1) := by
      cases k <;> simp
    cases s with
    | iri i =>
      rw [he] at this
      simp only [toNode, Node.iri.injEq, reduceCtorEq, or_false] at this
      subst this
      exact hs hd
    | bnode b =>
      rw [he] at this
      simp only [toNode, Node.blank.injEq, reduceCtorEq, false_or] at this
      unfold Old at hs
      omega

theorem Parsed.objects_old (h : Parsed D g g' made new) {s : Onto.Node Text} (hs : Old D g s) {p : Pred} (h1 : p ≠ .type) (h2 : p ≠ .defaultRel) : objects g' s p = objects g s p := by
  unfold objects
  rw [h.triples, List.filterMap_append]
  rw [show new.filterMap (fun t => if asNode t.s = some s ∧ t.p = p then some t.o else none) = [] from ?_, List.append_nil]
  rw [List.filterMap_eq_nil_iff]
  intro t ht
  rw [if_neg]
  rintro ⟨k1, k2⟩
  rcases h.about_old hs ht ((asNode_iff _ _).1 k1) with k | ⟨k, _⟩
  · exact h2 (k2 ▸ k)
  · exact h1 (k2 ▸ k)

theorem Parsed.typed_old (h : Parsed D g g' made new) {s : Onto.Node Text} (hs : Old D g s) {k : Owl} (hk : k ≠ .datatype) : hasIri g' s .type k.iri = hasIri g s .type k.iri := by
  rw [Bool.eq_iff_iff, hasIri_iff, hasIri_iff]
  constructor
  · intro hh
    unfold Has at hh ⊢
    rw [h.triples, List.mem_append] at hh
    rcases hh with hh | hh
    · exact hh
    · rcases h.about_old hs hh rfl with k1 | ⟨_, k1⟩
      · cases k1
      · simp only [Node.iri.injEq] at k1
        exact absurd (owl_inj k1) hk
  · exact fun hh => (h.has _ _ _).2 (Or.inl hh)

theorem find?_congr' {α : Type} {p q : α → Bool} : ∀ {l : List α}, (∀ x ∈ l, p x = q x) → l.find? p = l.find? q := by
  intro l
  induction l with
  | nil => intro _; rfl
  | cons a l ih =>
    intro h
    rw [List.find?_cons, List.find?_cons, h a List.mem_cons_self, ih (fun x hx => h x (List.mem_cons_of_mem _ hx))]

theorem Parsed.getDefault_old (h : Parsed D g g' made new) (hu : Unseen D g) (hg : Ready D g) {c : Text} (hc : ¬ OfDoc D g c) (a : Text) : getDefault g' a c = getDefault g a c := by
  have ho : ∀ b ∈ (objects g (.iri c) .default).filterMap asNode, Old D g b := fun b hb => old_object hu hg ((mem_nodes g (.iri c) .default b).1 hb)
  unfold getDefault
  rw [h.objects_old (s := .iri c) hc (by simp) (by simp)]
  rw [find?_congr' (q := fun b => hasIri g b .defaultAttribute a) (fun b hb => by
    unfold hasIri
    rw [h.objects_old (ho b hb) (by simp) (by simp)])]
  cases hf : ((objects g (.iri c) .default).filterMap asNode).find? (fun b => hasIri g b .defaultAttribute a) with
  | none => rfl
  | some b =>
    dsimp only
    unfold valueOf
    rw [h.objects_old (ho b (List.mem_of_find?_eq_some hf)) (by simp) (by simp)]

theorem Parsed.byDomain_old (h : Parsed D g g' made new) (hu : Unseen D g) (hg : Ready D g) {c : Text} (hc : ¬ OfDoc D g c) :
    ∀ (l : List (Onto.Node Text)), (∀ s ∈ l, Old D g s) → ∀ out, byDomain g' c l out = byDomain g c l out := by
  intro l
  induction l with
  | nil => intro _ out; rfl
  | cons s l ih =>
    intro hl out
    have hl' : ∀ s ∈ l, Old D g s := fun s hs => hl s (List.mem_cons_of_mem _ hs)
    cases s with
    | bnode n => exact ih hl' out
    | iri a =>
      unfold byDomain
      rw [h.typed_old (hl _ List.mem_cons_self) (by decide), h.getDefault_old hu hg hc, ih hl', ih hl']

theorem Parsed.byRestriction_old (h : Parsed D g g' made new) (hu : Unseen D g) (hT : Tidy g) (hg : Ready D g) {c : Text} (hc : ¬ OfDoc D g c) :
    ∀ (l : List (Onto.Node Text)), (∀ s ∈ l, Old D g s) → ∀ out, byRestriction g' c l out = byRestriction g c l out := by
  intro l
  induction l with
  | nil => intro _ out; rfl
  | cons s l ih =>
    intro hl out
    have hl' : ∀ s ∈ l, Old D g s := fun s hs => hl s (List.mem_cons_of_mem _ hs)
    have hs := hl s List.mem_cons_self
    have hv : ∀ p : Pred, p ≠ .type → p ≠ .defaultRel → valueOf g' s p = valueOf g s p := fun p h1 h2 => by
      unfold valueOf
      rw [h.objects_old hs h1 h2]
    unfold byRestriction
    rw [h.typed_old hs (by decide), hv .onProperty (by simp) (by simp)]
    by_cases hr : hasIri g s .type Owl.restriction.iri = true
    · rw [if_pos hr, if_pos hr]
      cases hp : valueOf g s .onProperty with
      | none =>
        obtain ⟨p, hp'⟩ := hT.property _ ((hasIri_iff _ _ _ _).1 hr)
        exact absurd hp' (valueOf_none.1 hp p)
      | some n =>
        cases n with
        | iri a =>
          dsimp only
          have ha : Old D g (.iri a) := old_object hu hg (s := toNode s) (p := .onProperty) (valueOf_some hp)
          have hi : restrictionInfo g' c a s = restrictionInfo g c a s := by
            unfold restrictionInfo restrictionDatatype
            rw [h.getDefault_old hu hg hc, hv someValues (by simp [someValues]) (by simp [someValues]), hv allValues (by simp [allValues]) (by simp [allValues])]
          rw [h.typed_old ha (by decide), hi, ih hl', ih hl']
        | _ => exact ih hl' out
    · rw [if_neg hr, if_neg hr]
      exact ih hl' out

theorem Parsed.domainOf_same (h : Parsed D g g' made new) (c : Text) : domainOf g' c = domainOf g c := by
  unfold domainOf
  rw [h.triples, List.filterMap_append]
  rw [show new.filterMap (fun t => if t.p = domain ∧ t.o.isIri c = true then asNode t.s else none) = [] from ?_, List.append_nil]
  rw [List.filterMap_eq_nil_iff]
  intro t ht
  rw [if_neg]
  rintro ⟨k1, _⟩
  rcases (h.isNew t).1 ht with k | ⟨m, _, k⟩
  · unfold domain at k1; cases k <;> cases k1
  · unfold domain at k1; cases k <;> cases k1

/-- **C93.** Parsing a document does not change the attributes of the classes that were there before. -/
theorem Parsed.own_old (h : Parsed D g g' made new) (hu : Unseen D g) (hT : Tidy g) (hg : Ready D g) {c : Text} (hc : ¬ OfDoc D g c) : own g' c = own g c := by
  unfold own
  rw [h.domainOf_same, h.objects_old (s := .iri c) hc (by simp) (by simp), h.byDomain_old hu hg hc, h.byRestriction_old hu hT hg hc]
  · intro s hs
    exact old_object hu hg ((mem_nodes g (.iri c) .subClassOf s).1 hs)
  · intro s hs
    exact old_subject hu hg ((mem_domainOf g c s).1 hs)

/-! ### superclasses -/

theorem mem_sub (g : Gr) (x y : Onto.Node Text) : (x, y) ∈ (og g).sub ↔ Has g (toNode x) .subClassOf (toNode y) := by
  unfold og Has
  simp only [List.mem_filterMap]
  constructor
  · rintro ⟨⟨s, p, o⟩, ht, h⟩
    dsimp only at h
    split at h
    · rename_i hp
      subst hp
      rw [Option.bind_eq_some_iff] at h
      obtain ⟨s', h1, h2⟩ := h
      rw [Option.map_eq_some_iff] at h2
      obtain ⟨o', h3, h4⟩ := h2
      cases h4
      rw [asNode_iff] at h1 h3
      subst h1 h3
      exact ht
    · cases h
  · intro ht
    refine ⟨_, ht, ?_⟩
    simp [(asNode_iff _ x).2 rfl, (asNode_iff _ y).2 rfl]

theorem Parsed.sub_iff (h : Parsed D g g' made new) (c d : Text) : Has g' (.iri c) .subClassOf (.iri d) ↔ Sub D g c d := by
  rw [h.has]
  unfold Sub
  constructor
  · rintro (k | k | ⟨m, _, k⟩)
    · exact Or.inr k
    · left
      generalize ht : (⟨.iri c, .subClassOf, .iri d⟩ : Triple) = t at k
      cases k with
      | subClass he hk hs hr =>
        simp only [Triple.mk.injEq, Node.iri.injEq] at ht
        obtain ⟨rfl, _, rfl⟩ := ht
        exact ⟨_, he, rfl, hk, _, hs, hr⟩
      | _ => simp only [Triple.mk.injEq, reduceCtorEq, false_and, and_false] at ht
    · cases k
  · rintro (⟨e, he, rfl, hk, r, hs, hr⟩ | k)
    · exact Or.inr (Or.inl (.subClass he hk hs hr))
    · exact Or.inl k

theorem Parsed.reach_iff (h : Parsed D g g' made new) {c : Text} (hN : ¬ Above D g c owlNothing) (x : Onto.Node Text) :
    (og g').Reach false (.iri c) x ↔ ∃ d, x = .iri d ∧ Above D g c d := by
  constructor
  · intro hr
    induction hr with
    | refl => exact ⟨c, rfl, .refl⟩
    | @tail x0 y _ hs ih =>
      obtain ⟨d, rfl, hd⟩ := ih
      obtain ⟨h1, h2⟩ := hs
      dsimp only at h2
      rw [if_neg] at h2
      · cases y with
        | bnode n => simp [Onto.Node.isBNode] at h1
        | iri d' =>
          rw [mem_sub] at h2
          exact ⟨d', rfl, hd.tail ((h.sub_iff d d').1 h2)⟩
      · intro he
        have : d = owlNothing := by simpa [og] using he
        exact hN (this ▸ hd)
  · rintro ⟨d, rfl, hd⟩
    induction hd with
    | refl => exact .refl
    | tail hp hs ih =>
      rename_i y z
      refine ih.tail ⟨rfl, ?_⟩
      dsimp only
      rw [if_neg]
      · rw [mem_sub]
        exact (h.sub_iff y z).2 hs
      · intro he
        have : y = owlNothing := by simpa [og] using he
        exact hN (this ▸ hp)

theorem Parsed.known_iff (h : Parsed D g g' made new) (d : Text) : knownIri g' d = true ↔
    OfDoc D g d ∨ Has g (.iri d) .type (.iri Owl.class_.iri) ∨ Has g (.iri d) .type (.iri Owl.objectProperty.iri) ∨ Has g (.iri d) .type (.iri Owl.datatypeProperty.iri) := by
  have hk : knownIri g' d = true ↔ Has g' (.iri d) .type (.iri Owl.class_.iri) ∨ Has g' (.iri d) .type (.iri Owl.objectProperty.iri) ∨ Has g' (.iri d) .type (.iri Owl.datatypeProperty.iri) := by
    unfold knownIri allowed
    simp only [List.any_cons, List.any_nil, Bool.or_false, Bool.or_eq_true, hasIri_iff]
    constructor
    · rintro (k | k | k)
      · exact Or.inr (Or.inr k)
      · exact Or.inr (Or.inl k)
      · exact Or.inl k
    · rintro (k | k | k)
      · exact Or.inr (Or.inr k)
      · exact Or.inr (Or.inl k)
      · exact Or.inl k
  have up : ∀ k : Owl, k ≠ .datatype → Has g' (.iri d) .type (.iri k.iri) → OfDoc D g d ∨ Has g (.iri d) .type (.iri k.iri) := by
    intro k hkd hh
    by_cases hd : OfDoc D g d
    · exact Or.inl hd
    · exact Or.inr ((hasIri_iff g (.iri d) .type _).1 (by rw [← h.typed_old (s := .iri d) hd hkd]; exact (hasIri_iff g' (.iri d) .type _).2 hh))
  rw [hk]
  constructor
  · rintro (k | k | k)
    · rcases up _ (by decide) k with k | k
      · exact Or.inl k
      · exact Or.inr (Or.inl k)
    · rcases up _ (by decide) k with k | k
      · exact Or.inl k
      · exact Or.inr (Or.inr (Or.inl k))
    · rcases up _ (by decide) k with k | k
      · exact Or.inl k
      · exact Or.inr (Or.inr (Or.inr k))
  · rintro (⟨e, he, rfl⟩ | k | k | k)
    · obtain ⟨k, hk⟩ := h.kind e he
      have := (h.has _ _ _).2 (Or.inr (Or.inl (.type he ((hk k).2 rfl))))
      cases k with
      | class_ => exact Or.inl this
      | relationship => exact Or.inr (Or.inl this)
      | «attribute» => exact Or.inr (Or.inr this)
    · exact Or.inl ((h.has _ _ _).2 (Or.inl k))
    · exact Or.inr (Or.inl ((h.has _ _ _).2 (Or.inl k)))
    · exact Or.inr (Or.inr ((h.has _ _ _).2 (Or.inl k)))

theorem mem_iris (l : List (Onto.Node Text)) (t : Text) : t ∈ iris l ↔ .iri t ∈ l := by
  unfold iris
  rw [List.mem_filterMap]
  constructor
  · rintro ⟨n, h1, h2⟩
    cases n with
    | iri s => simp at h2; exact h2 ▸ h1
    | bnode b => simp at h2
  · exact fun h => ⟨_, h, rfl⟩

/-- **C93.** After parsing a document, the superclasses of a class are exactly the class itself and the superclasses that the document and the graph before together say, over any number of steps, as far as they
are entities. -/
theorem Parsed.superclasses (h : Parsed D g g' made new) {c : Text} (hN : ¬ Above D g c owlNothing) (pick : List (Onto.Node Text) → Nat) (fuel : Nat) (hf : (og g').nodes.length + 2 ≤ fuel) :
    ∃ l, Onto.closure (og g') false pick fuel (.iri c) = some l ∧ ∀ d, d ∈ iris l ↔ Contributes D g c d := by
  obtain ⟨l, h1, _, h2⟩ := Onto.closure_exact (og g') false pick (.iri c) fuel hf
  refine ⟨l, h1, fun d => ?_⟩
  rw [mem_iris, h2, h.reach_iff hN]
  unfold Contributes
  refine or_congr (by simp) ?_
  have hb : (Onto.Node.iri d ∉ (og g').blacklist) ↔ d ≠ owlNothing ∧ d ≠ owlThing ∧ d ≠ owlNamedIndividual := by
    simp [og]
  have hk : (og g').known (.iri d) = true ↔ _ := h.known_iff d
  rw [hb, hk]
  constructor
  · rintro ⟨⟨d', e, k1⟩, ⟨k2, k3, k4⟩, k5⟩
    cases e
    exact ⟨k1, k2, k3, k4, k5⟩
  · rintro ⟨k1, k2, k3, k4, k5⟩
    exact ⟨⟨d, rfl, k1⟩, ⟨k2, k3, k4⟩, k5⟩

/-! ### all attributes -/

theorem ownAll_spec (g : Gr) (h : ∀ c, ∃ l, own g c = .ok l) : ∀ cs : List Text, ∃ ls, ownAll g cs = .ok ls ∧ ∀ x, x ∈ ls ↔ ∃ c ∈ cs, own g c = .ok x := by
  intro cs
  induction cs with
  | nil => exact ⟨[], rfl, by simp⟩
  | cons c cs ih =>
    obtain ⟨l, hl⟩ := h c
    obtain ⟨ls, h1, h2⟩ := ih
    refine ⟨l :: ls, by simp only [ownAll, hl, h1], fun x => ?_⟩
    rw [List.mem_cons, h2]
    constructor
    · rintro (rfl | ⟨c', h3, h4⟩)
      · exact ⟨c, List.mem_cons_self, hl⟩
      · exact ⟨c', List.mem_cons_of_mem _ h3, h4⟩
    · rintro ⟨c', h3, h4⟩
      rcases List.mem_cons.1 h3 with rfl | h3
      · rw [hl] at h4; cases h4; exact Or.inl rfl
      · exact Or.inr ⟨c', h3, h4⟩

/-- What one class states about one attribute, in terms of the document and of the graph before. -/
theorem Parsed.states (h : Parsed D g g' made new) (hu : Unseen D g) (hT : Tidy g) (hg : Ready D g) (c a : Text) :
    ((∃ l x, own g' c = .ok l ∧ (a, x) ∈ l) ↔ Gives D g c a) ∧
    ((∃ l x, own g' c = .ok l ∧ (a, x) ∈ l ∧ x.obligatory = true) ↔ Demands D g c a) ∧
    (∀ l x d, own g' c = .ok l → (a, x) ∈ l → x.default = some d → Offers D g c a d) ∧
    (∀ l x, own g' c = .ok l → (a, x) ∈ l → x.default = none → ∀ d, ¬ Offers D g c a d) := by
  by_cases hc : OfDoc D g c
  · obtain ⟨l, e, hn, hk, hx⟩ := h.own_doc hu hT hg hc
    have nb : ∀ x, ¬ Before D g c a x := fun x hb => hb.1 hc
    have hkey : (∃ x, (a, x) ∈ l) ↔ ∃ v, Declares D g ⟨c, a, v⟩ := by
      rw [← hk a, List.mem_map]
      constructor
      · rintro ⟨x, hx⟩; exact ⟨_, hx, rfl⟩
      · rintro ⟨⟨b, x⟩, hx, rfl⟩; exact ⟨x, hx⟩
    refine ⟨?_, ?_, ?_, ?_⟩
    · unfold Gives
      simp only [nb, exists_false, or_false]
      rw [← hkey]
      constructor
      · rintro ⟨l', x, e', hx⟩; rw [e] at e'; cases e'; exact ⟨x, hx⟩
      · rintro ⟨x, hx⟩; exact ⟨l, x, e, hx⟩
    · unfold Demands
      simp only [nb, false_and, exists_false, or_false]
      constructor
      · rintro ⟨l', x, e', h1, h2⟩
        rw [e] at e'; cases e'
        obtain ⟨_, k2, _, k4⟩ := hx a x h1
        exact ⟨hkey.1 ⟨x, h1⟩, k4 (k2.1 h2)⟩
      · rintro ⟨h1, h2⟩
        obtain ⟨x, h3⟩ := hkey.2 h1
        obtain ⟨_, k2, k3, _⟩ := hx a x h3
        refine ⟨l, x, e, h3, k2.2 ?_⟩
        cases hd : x.default with
        | none => rfl
        | some d =>
          obtain ⟨v, k5, k6, _⟩ := k3 d hd
          exact absurd (h2 v k5) k6
    · intro l' x d e' h1 h2
      rw [e] at e'; cases e'
      exact Or.inl ((hx a x h1).2.2.1 d h2)
    · intro l' x e' h1 h2 d ho
      rw [e] at e'; cases e'
      rcases ho with ⟨v, k1, k2, _⟩ | ⟨x', k, _⟩
      · exact k2 ((hx a x h1).2.2.2 h2 v k1)
      · exact nb x' k
  · have he := h.own_old hu hT hg hc
    have nd : ∀ v, ¬ Declares D g ⟨c, a, v⟩ := fun v hv => hc (declares_doc hv)
    have hb : ∀ x, Before D g c a x ↔ ∃ l, own g c = .ok l ∧ (a, x) ∈ l := fun x => ⟨fun k => k.2, fun k => ⟨hc, k⟩⟩
    rw [he]
    refine ⟨?_, ?_, ?_, ?_⟩
    · unfold Gives
      simp only [nd, exists_false, false_or, hb]
      exact ⟨fun ⟨l, x, k⟩ => ⟨x, l, k⟩, fun ⟨x, l, k⟩ => ⟨l, x, k⟩⟩
    · unfold Demands
      simp only [nd, exists_false, false_and, false_or, hb]
      exact ⟨fun ⟨l, x, k1, k2, k3⟩ => ⟨x, ⟨l, k1, k2⟩, k3⟩, fun ⟨x, ⟨l, k1, k2⟩, k3⟩ => ⟨l, x, k1, k2, k3⟩⟩
    · intro l x d h1 h2 h3
      exact Or.inr ⟨x, (hb x).2 ⟨l, h1, h2⟩, h3⟩
    · intro l x h1 h2 h3 d ho
      rcases ho with ⟨v, k1, _⟩ | ⟨x', k1, k2⟩
      · exact nd v k1
      · obtain ⟨l', k3, k4⟩ := (hb x').1 k1
        rw [h1] at k3; cases k3
        have hn : (l.map (·.1)).Nodup := by
          by_cases hd : Dangling g c ∧ ∃ s, Has g s .type (.iri Owl.datatypeProperty.iri)
          · rw [(own_exact g c).1 hd] at h1; cases h1
          · obtain ⟨l'', e, k, _⟩ := (own_exact g c).2 hd
            rw [h1] at e; cases e; exact k
        have : x = x' := by
          clear h1 k1 k2
          induction l with
          | nil => cases h2
          | cons y l ih =>
            rw [List.map_cons, List.nodup_cons] at hn
            rcases List.mem_cons.1 h2 with r | r <;> rcases List.mem_cons.1 k4 with r' | r'
            · rw [← r] at r'; cases r'; rfl
            · exact absurd (List.mem_map.2 ⟨_, r', by rw [← r]⟩) hn.1
            · exact absurd (List.mem_map.2 ⟨_, r, by rw [← r']⟩) hn.1
            · exact ih r r' hn.2
        rw [this, k2] at h3
        cases h3

/-- **C93.** After parsing a YAML document whose entities are new, into a graph with orderly restrictions: for every class (of the document or not) and in whatever order the sets are
iterated, reading the attributes of the class succeeds, and
* it has exactly the attributes that it or one of its superclasses lists, each once;
* an attribute is obligatory exactly if the class or one of its superclasses lists it without default;
* its default is one of the defaults that are listed for it; it is true if some class lists only one, which is true; and if all classes that list the attribute list the same default, it is this one. -/
theorem yaml_attributes_exact (hD : Proper D) (hg : Ready D g) (hu : Unseen D g) (hT : Tidy g) {fuel : Nat} (h : parseOntology E fuel D g = .ok g') (c : Text)
    (hN : ¬ Above D g c owlNothing) (order : List Text → List Text) (ho : ∀ l, (order l).Perm l) (pick : List (Onto.Node Text) → Nat) (n : Nat) (hf : (og g').nodes.length + 2 ≤ n) :
    ∃ as, attributes g' order pick n c = some (.ok as) ∧ (as.map (·.1)).Nodup ∧
      (∀ a, a ∈ as.map (·.1) ↔ ∃ d, Contributes D g c d ∧ Gives D g d a) ∧
      ∀ a x, (a, x) ∈ as →
        (x.obligatory = true ↔ ∃ d, Contributes D g c d ∧ Demands D g d a) ∧
        (∀ v, x.default = some v → ∃ d, Contributes D g c d ∧ Offers D g d a v) ∧
        (∀ d v, Contributes D g c d → Offers D g d a v → (∀ v', Offers D g d a v' → v' = v) → truthy v = true → ∃ v', x.default = some v' ∧ truthy v' = true) ∧
        (∀ v, (∀ d, Contributes D g c d → Gives D g d a → Offers D g d a v ∧ ∀ v', Offers D g d a v' → v' = v) → x.default = some v) := by
  obtain ⟨made, new, hp⟩ := parsed hD hg h
  obtain ⟨l, h1, h2⟩ := hp.superclasses hN pick n hf
  have hok : ∀ c, ∃ l, own g' c = .ok l := fun c => by
    obtain ⟨l, e, _⟩ := (own_exact g' c).2 (fun k => hp.not_dangling hT c k.1)
    exact ⟨l, e⟩
  obtain ⟨ls, h3, h4⟩ := ownAll_spec g' hok (order (iris l))
  have hmem : ∀ x, x ∈ ls ↔ ∃ d, Contributes D g c d ∧ own g' d = .ok x := fun x => by
    rw [h4]
    simp only [(ho (iris l)).mem_iff, h2]
  have hst : ∀ a x, Onto.States (id : List (Text × AttrInfo Node) → _) ls a x ↔ ∃ d, Contributes D g c d ∧ ∃ l, own g' d = .ok l ∧ (a, x) ∈ l := fun a x => by
    unfold Onto.States
    simp only [hmem, id]
    constructor
    · rintro ⟨l, ⟨d, k1, k2⟩, k3⟩; exact ⟨d, k1, l, k2, k3⟩
    · rintro ⟨d, k1, l, k2, k3⟩; exact ⟨l, ⟨d, k1, k2⟩, k3⟩
  obtain ⟨r1, r2, r3, r4⟩ := Onto.attributes_inherited truthy (id : List (Text × AttrInfo Node) → _) ls
  have hs := hp.states hu hT hg
  refine ⟨Onto.attributes truthy id ls, ?_, r1, fun a => ?_, fun a x hx => ⟨?_, ?_, ?_, ?_⟩⟩
  · unfold attributes
    rw [h1, Option.map_some, h3]
  · rw [r2]
    simp only [hst]
    constructor
    · rintro ⟨x, d, k1, l, k2, k3⟩; exact ⟨d, k1, (hs d a).1.1 ⟨l, x, k2, k3⟩⟩
    · rintro ⟨d, k1, k2⟩
      obtain ⟨l, x, k3, k4⟩ := (hs d a).1.2 k2
      exact ⟨x, d, k1, l, k3, k4⟩
  · rw [r3 a x hx]
    simp only [hst]
    constructor
    · rintro ⟨y, ⟨d, k1, l, k2, k3⟩, k4⟩; exact ⟨d, k1, (hs d a).2.1.1 ⟨l, y, k2, k3, k4⟩⟩
    · rintro ⟨d, k1, k2⟩
      obtain ⟨l, y, k3, k4, k5⟩ := (hs d a).2.1.2 k2
      exact ⟨y, ⟨d, k1, l, k3, k4⟩, k5⟩
  · intro v hv
    obtain ⟨y, k1, k2⟩ := (r4 _ (Or.inl rfl) a x hx).1 v hv
    obtain ⟨d, k3, l, k4, k5⟩ := (hst a y).1 k1
    exact ⟨d, k3, (hs d a).2.2.1 l y v k4 k5 k2⟩
  · intro d v k1 k2 k3 k4
    have hgv : Gives D g d a := by
      rcases k2 with ⟨w, k, _⟩ | ⟨y, k, _⟩
      · exact Or.inl ⟨w, k⟩
      · exact Or.inr ⟨y, k⟩
    obtain ⟨l, y, k5, k6⟩ := (hs d a).1.2 hgv
    have hyd : y.default = some v := by
      cases hd : y.default with
      | none => exact absurd k2 ((hs d a).2.2.2 l y k5 k6 hd v)
      | some w => rw [k3 w ((hs d a).2.2.1 l y w k5 k6 hd)]
    exact (r4 _ (Or.inl rfl) a x hx).2.1 y v ((hst a y).2 ⟨d, k1, l, k5, k6⟩) hyd k4
  · intro v hv
    refine (r4 _ (Or.inl rfl) a x hx).2.2 (some v) fun y hy => ?_
    obtain ⟨d, k1, l, k2, k3⟩ := (hst a y).1 hy
    obtain ⟨k4, k5⟩ := hv d k1 ((hs d a).1.1 ⟨l, y, k2, k3⟩)
    cases hd : y.default with
    | none => exact absurd k4 ((hs d a).2.2.2 l y k2 k3 hd v)
    | some w => rw [k5 w ((hs d a).2.2.1 l y w k2 k3 hd)]

/-- Without keywords, only the obligatory attributes decide. -/
theorem attrLoop_nil {A V : Type} : ∀ (as : List (Onto.Attr A × AttrInfo V)) (out : List (Onto.Attr A × V)),
    ((∃ p ∈ as, p.2.obligatory = true) → Onto.attrLoop false as [] out = .error .typeError) ∧
    ((∀ p ∈ as, p.2.obligatory = false) → Onto.attrLoop false as [] out = .ok (out ++ as.filterMap (fun p => p.2.default.map (fun v => (p.1, v))), [])) := by
  intro as
  induction as with
  | nil => intro out; exact ⟨fun ⟨_, h, _⟩ => (nomatch h), fun _ => by simp [Onto.attrLoop]⟩
  | cons p as ih =>
    intro out
    obtain ⟨a, i⟩ := p
    unfold Onto.attrLoop
    simp only [List.lookup_nil, Bool.not_false, Bool.true_and]
    cases hi : i.obligatory with
    | true =>
      refine ⟨fun _ => by simp, fun h => ?_⟩
      have := h (a, i) List.mem_cons_self
      rw [hi] at this
      cases this
    | false =>
      rw [if_neg (by simp)]
      have h1 : (∃ p ∈ (a, i) :: as, p.2.obligatory = true) → ∃ p ∈ as, p.2.obligatory = true := by
        rintro ⟨p, h1, h2⟩
        rcases List.mem_cons.1 h1 with rfl | h1
        · rw [hi] at h2; cases h2
        · exact ⟨p, h1, h2⟩
      have h2 : (∀ p ∈ (a, i) :: as, p.2.obligatory = false) → ∀ p ∈ as, p.2.obligatory = false := fun h p hp => h p (List.mem_cons_of_mem _ hp)
      cases hd : i.default with
      | none =>
        refine ⟨fun h => (ih out).1 (h1 h), fun h => ?_⟩
        dsimp only
        rw [(ih out).2 (h2 h)]
        simp [hd]
      | some d =>
        refine ⟨fun h => (ih _).1 (h1 h), fun h => ?_⟩
        dsimp only
        rw [(ih _).2 (h2 h)]
        simp [hd]

/-- **C93.** Calling a class without arguments raises TypeError exactly if it or one of its superclasses lists an attribute without default; otherwise the new object has a value for
those attributes that have a default, and it is one that some superclass lists. -/
theorem yaml_call_exact (hD : Proper D) (hg : Ready D g) (hu : Unseen D g) (hT : Tidy g) {fuel : Nat} (h : parseOntology E fuel D g = .ok g') (c : Text)
    (hN : ¬ Above D g c owlNothing) (order : List Text → List Text) (ho : ∀ l, (order l).Perm l) (pick : List (Onto.Node Text) → Nat) (n : Nat) (hf : (og g').nodes.length + 2 ≤ n)
    (name : Text → Text) :
    ((∃ d a, Contributes D g c d ∧ Demands D g d a) → callClass g' order pick n name c [] = some (.error .typeError)) ∧
    ((∀ d a, Contributes D g c d → ¬ Demands D g d a) → ∃ out, callClass g' order pick n name c [] = some (.ok out) ∧
      (∀ a v, (a, v) ∈ out → a.argname = name a.id ∧ ∃ d, Contributes D g c d ∧ Offers D g d a.id v) ∧
      ∃ as, attributes g' order pick n c = some (.ok as) ∧ ∀ a v, (⟨a, name a⟩, v) ∈ out ↔ ∃ x, (a, x) ∈ as ∧ x.default = some v) := by
  obtain ⟨as, h1, hn, h2, h3⟩ := yaml_attributes_exact hD hg hu hT h c hN order ho pick n hf
  have hcall : callClass g' order pick n name c [] = some (Onto.attributesValues false (as.map (fun p => (⟨p.1, name p.1⟩, p.2))) []) := by
    unfold callClass
    rw [h1]
    rfl
  obtain ⟨l1, l2⟩ := attrLoop_nil (as.map (fun p => ((⟨p.1, name p.1⟩ : Onto.Attr Text), p.2))) []
  constructor
  · rintro ⟨d, a, k1, k2⟩
    have hgv : Gives D g d a := by
      rcases k2 with ⟨k, _⟩ | ⟨y, k, _⟩
      · exact Or.inl k
      · exact Or.inr ⟨y, k⟩
    obtain ⟨⟨a', x⟩, hx, rfl⟩ := List.mem_map.1 ((h2 a).2 ⟨d, k1, hgv⟩)
    have hob := (h3 a' x hx).1.2 ⟨d, k1, k2⟩
    rw [hcall]
    unfold Onto.attributesValues
    rw [l1 ⟨_, List.mem_map.2 ⟨_, hx, rfl⟩, hob⟩]
  · intro hno
    have hall : ∀ p ∈ as.map (fun p => ((⟨p.1, name p.1⟩ : Onto.Attr Text), p.2)), p.2.obligatory = false := by
      intro p hp
      obtain ⟨⟨a, x⟩, hx, rfl⟩ := List.mem_map.1 hp
      dsimp only
      rw [← Bool.not_eq_true]
      intro hob
      obtain ⟨d, k1, k2⟩ := (h3 a x hx).1.1 hob
      exact hno d a k1 k2
    have hout : callClass g' order pick n name c [] = some (.ok ((as.map (fun p => ((⟨p.1, name p.1⟩ : Onto.Attr Text), p.2))).filterMap (fun p => p.2.default.map (fun v => (p.1, v))))) := by
      rw [hcall]
      unfold Onto.attributesValues
      rw [l2 hall]
      simp
    have hm : ∀ a v, (a, v) ∈ (as.map (fun p => ((⟨p.1, name p.1⟩ : Onto.Attr Text), p.2))).filterMap (fun p => p.2.default.map (fun v => (p.1, v))) ↔
        ∃ x, (a.id, x) ∈ as ∧ a.argname = name a.id ∧ x.default = some v := by
      rintro ⟨i, nm⟩ v
      rw [List.mem_filterMap]
      constructor
      · rintro ⟨p, hp, hv⟩
        obtain ⟨⟨a, x⟩, hx, rfl⟩ := List.mem_map.1 hp
        rw [Option.map_eq_some_iff] at hv
        obtain ⟨w, k1, k2⟩ := hv
        cases k2
        exact ⟨x, hx, rfl, k1⟩
      · rintro ⟨x, k1, k2, k3⟩
        refine ⟨_, List.mem_map.2 ⟨_, k1, rfl⟩, ?_⟩
        dsimp only at k2 ⊢
        rw [k3, k2]
        rfl
    refine ⟨_, hout, fun a v hv => ?_, as, h1, fun a v => ?_⟩
    · obtain ⟨x, k1, k2, k3⟩ := (hm a v).1 hv
      exact ⟨k2, (h3 a.id x k1).2.1 v k3⟩
    · rw [hm]
      constructor
      · rintro ⟨x, k1, _, k3⟩; exact ⟨x, k1, k3⟩
      · rintro ⟨x, k1, k3⟩; exact ⟨x, k1, rfl, k3⟩

end Osp.Fields
