import Verif.Fields.Spec
import Mathlib.Tactic.Tauto
/-!
# The own attributes of a class, read from any graph (C93)
-/
namespace Osp.Fields
open Osp.Ymlp
open Osp.Onto (AttrInfo)

theorem isIri_iff (n : Node) (i : Text) : n.isIri i = true ↔ n = .iri i := by
  cases n <;> simp [Node.isIri]

theorem asNode_iff (n : Node) (s : Onto.Node Text) : asNode n = some s ↔ n = toNode s := by
  cases n <;> cases s <;> simp [asNode, toNode]

theorem mem_objects (g : Gr) (s : Onto.Node Text) (p : Pred) (o : Node) : o ∈ objects g s p ↔ Has g (toNode s) p o := by
  unfold objects Has
  rw [List.mem_filterMap]
  constructor
  · rintro ⟨⟨s', p', o'⟩, ht, h⟩
    dsimp only at h
    split at h
    · rename_i hc
      obtain ⟨h1, rfl⟩ := hc
      rw [asNode_iff] at h1
      subst h1
      cases h
      exact ht
    · cases h
  · intro ht
    exact ⟨_, ht, by simp [(asNode_iff _ s).2 rfl]⟩

theorem mem_nodes (g : Gr) (s : Onto.Node Text) (p : Pred) (o : Onto.Node Text) : o ∈ (objects g s p).filterMap asNode ↔ Has g (toNode s) p (toNode o) := by
  rw [List.mem_filterMap]
  constructor
  · rintro ⟨n, h1, h2⟩
    rw [asNode_iff] at h2
    subst h2
    exact (mem_objects g s p _).1 h1
  · intro h
    exact ⟨_, (mem_objects g s p _).2 h, (asNode_iff _ _).2 rfl⟩

theorem hasIri_iff (g : Gr) (s : Onto.Node Text) (p : Pred) (i : Text) : hasIri g s p i = true ↔ Has g (toNode s) p (.iri i) := by
  unfold hasIri
  rw [List.any_eq_true]
  constructor
  · rintro ⟨o, h1, h2⟩
    rw [isIri_iff] at h2
    subst h2
    exact (mem_objects g s p _).1 h1
  · intro h
    exact ⟨_, (mem_objects g s p _).2 h, (isIri_iff _ _).2 rfl⟩

theorem valueOf_some {g : Gr} {s : Onto.Node Text} {p : Pred} {o : Node} (h : valueOf g s p = some o) : Has g (toNode s) p o :=
  (mem_objects g s p o).1 (List.mem_of_head? h)

theorem valueOf_none {g : Gr} {s : Onto.Node Text} {p : Pred} : valueOf g s p = none ↔ ∀ o, ¬ Has g (toNode s) p o := by
  unfold valueOf
  rw [List.head?_eq_none_iff, List.eq_nil_iff_forall_not_mem]
  exact forall_congr' fun o => not_congr (mem_objects g s p o)

theorem valueOf_unique {g : Gr} {s : Onto.Node Text} {p : Pred} {o : Node} (h : Has g (toNode s) p o) (hu : ∀ o', Has g (toNode s) p o' → o' = o) : valueOf g s p = some o := by
  cases hv : valueOf g s p with
  | none => exact absurd h (valueOf_none.1 hv o)
  | some o' => rw [hu o' (valueOf_some hv)]

theorem someTyped_iff (g : Gr) (i : Text) : someTyped g i = true ↔ ∃ s, Has g s .type (.iri i) := by
  unfold someTyped Has
  rw [List.any_eq_true]
  constructor
  · rintro ⟨⟨s, p, o⟩, h1, h2⟩
    rw [Bool.and_eq_true, beq_iff_eq, isIri_iff] at h2
    obtain ⟨rfl, rfl⟩ := h2
    exact ⟨s, h1⟩
  · rintro ⟨s, h⟩
    exact ⟨_, h, by simp [Node.isIri]⟩

/-- A default comes from a node that belongs to the class and names the attribute. -/
theorem getDefault_some {g : Gr} {a c : Text} {d : Node} (h : getDefault g a c = some d) :
    ∃ b, Has g (.iri c) .default (toNode b) ∧ Has g (toNode b) .defaultAttribute (.iri a) ∧ Has g (toNode b) .defaultValue d := by
  unfold getDefault at h
  split at h
  · rename_i b hb
    have h1 := List.mem_of_find?_eq_some hb
    have h2 := List.find?_some hb
    exact ⟨b, (mem_nodes g (.iri c) .default b).1 h1, (hasIri_iff _ _ _ _).1 h2, valueOf_some h⟩
  · cases h

/-- If there is no default, then no node gives one, or the first that names the attribute has no value. -/
theorem getDefault_none {g : Gr} {a c : Text} (h : getDefault g a c = none) :
    (∀ b, Has g (.iri c) .default (toNode b) → ¬ Has g (toNode b) .defaultAttribute (.iri a)) ∨
    ∃ b, Has g (.iri c) .default (toNode b) ∧ Has g (toNode b) .defaultAttribute (.iri a) ∧ ∀ d, ¬ Has g (toNode b) .defaultValue d := by
  unfold getDefault at h
  split at h
  · rename_i b hb
    have h1 := List.mem_of_find?_eq_some hb
    have h2 := List.find?_some hb
    exact Or.inr ⟨b, (mem_nodes g (.iri c) .default b).1 h1, (hasIri_iff _ _ _ _).1 h2, valueOf_none.1 h⟩
  · rename_i hb
    refine Or.inl fun b h1 h2 => ?_
    have := (List.find?_eq_none.1 hb) b ((mem_nodes g (.iri c) .default b).2 h1)
    exact this ((hasIri_iff _ _ _ _).2 h2)

/-! ### dictionaries -/

/-- The names. Proof device; nothing in /repo. -/
def keys (l : List (Text × AttrInfo Node)) : List Text := l.map (·.1)

theorem put_spec (l : List (Text × AttrInfo Node)) (a : Text) (v : AttrInfo Node) (hn : (keys l).Nodup) :
    (keys (put l a v)).Nodup ∧ (∀ b, b ∈ keys (put l a v) ↔ b ∈ keys l ∨ b = a) ∧ ∀ b x, (b, x) ∈ put l a v ↔ (b = a ∧ x = v) ∨ (b ≠ a ∧ (b, x) ∈ l) := by
  unfold keys at *
  induction l with
  | nil =>
    refine ⟨by simp [put], by simp [put], fun b x => ?_⟩
    simp [put]
  | cons e l ih =>
    obtain ⟨a', w⟩ := e
    rw [List.map_cons, List.nodup_cons] at hn
    obtain ⟨i1, i2, i3⟩ := ih hn.2
    unfold put
    by_cases h : a' = a
    · subst h
      rw [if_pos rfl]
      refine ⟨by simpa using hn, fun b => ?_, fun b x => ?_⟩
      · simp only [List.map_cons, List.mem_cons]
        tauto
      · simp only [List.mem_cons, Prod.mk.injEq]
        constructor
        · rintro (h | h)
          · exact Or.inl h
          · exact Or.inr ⟨fun e => hn.1 (List.mem_map.2 ⟨_, h, e⟩), Or.inr h⟩
        · rintro (h | ⟨h1, h | h⟩)
          · exact Or.inl h
          · exact absurd h.1 h1
          · exact Or.inr h
    · rw [if_neg h]
      refine ⟨?_, fun b => ?_, fun b x => ?_⟩
      · rw [List.map_cons, List.nodup_cons, i2]
        refine ⟨?_, i1⟩
        rintro (k | k)
        · exact hn.1 k
        · exact h k
      · rw [List.map_cons, List.mem_cons, i2, List.map_cons, List.mem_cons, or_assoc]
      · rw [List.mem_cons, i3 b x, List.mem_cons, Prod.mk.injEq]
        constructor
        · rintro (⟨rfl, rfl⟩ | h1 | h1)
          · exact Or.inr ⟨h, Or.inl ⟨rfl, rfl⟩⟩
          · exact Or.inl h1
          · exact Or.inr ⟨h1.1, Or.inr h1.2⟩
        · rintro (h1 | ⟨h1, h2 | h2⟩)
          · exact Or.inr (Or.inl h1)
          · exact Or.inl h2
          · exact Or.inr (Or.inr ⟨h1, h2⟩)

theorem mem_keys {l : List (Text × AttrInfo Node)} {a : Text} : a ∈ keys l ↔ ∃ x, (a, x) ∈ l := by
  unfold keys
  rw [List.mem_map]
  constructor
  · rintro ⟨⟨b, x⟩, h, rfl⟩; exact ⟨x, h⟩
  · rintro ⟨x, h⟩; exact ⟨_, h, rfl⟩

/-! ### case 1 -/

theorem mem_domainOf (g : Gr) (c : Text) (s : Onto.Node Text) : s ∈ domainOf g c ↔ Has g (toNode s) domain (.iri c) := by
  unfold domainOf Has
  rw [List.mem_filterMap]
  constructor
  · rintro ⟨⟨s', p, o⟩, ht, h⟩
    dsimp only at h
    split at h
    · rename_i hc
      obtain ⟨rfl, h2⟩ := hc
      rw [isIri_iff] at h2
      rw [asNode_iff] at h
      subst h2 h
      exact ht
    · cases h
  · intro ht
    refine ⟨_, ht, ?_⟩
    rw [if_pos ⟨rfl, (isIri_iff _ _).2 rfl⟩, asNode_iff]

/-- The test of case 1, oclass.py:71-74. -/
def Dom (g : Gr) (a : Text) : Prop := Has g (.iri a) .type (.iri Owl.datatypeProperty.iri) ∧ a ≠ topData ∧ a ≠ bottomData

theorem byDomain_spec (g : Gr) (c : Text) : ∀ (l : List (Onto.Node Text)) (out : List (Text × AttrInfo Node)), (keys out).Nodup →
    (keys (byDomain g c l out)).Nodup ∧ ∀ a x, (a, x) ∈ byDomain g c l out ↔
      (.iri a ∈ l ∧ Dom g a ∧ x = ⟨getDefault g a c, false, none⟩) ∨ (¬ (.iri a ∈ l ∧ Dom g a) ∧ (a, x) ∈ out) := by
  intro l
  induction l with
  | nil => intro out hn; exact ⟨hn, fun a x => by simp [byDomain]⟩
  | cons s l ih =>
    intro out hn
    cases s with
    | bnode n =>
      obtain ⟨h1, h2⟩ := ih out hn
      refine ⟨h1, fun a x => ?_⟩
      rw [show byDomain g c (.bnode n :: l) out = byDomain g c l out from rfl, h2]
      simp
    | iri b =>
      unfold byDomain
      by_cases hc : hasIri g (.iri b) .type Owl.datatypeProperty.iri = true ∧ b ≠ topData ∧ b ≠ bottomData
      · rw [if_pos hc]
        obtain ⟨p1, p2, p3⟩ := put_spec out b ⟨getDefault g b c, false, none⟩ hn
        obtain ⟨h1, h2⟩ := ih _ p1
        refine ⟨h1, fun a x => ?_⟩
        rw [h2, p3]
        have hD : Dom g b := ⟨(hasIri_iff g (.iri b) _ _).1 hc.1, hc.2⟩
        by_cases hab : a = b
        · subst hab
          by_cases hal : Onto.Node.iri a ∈ l <;> simp [hal, hD]
        · have : Onto.Node.iri a ∈ Onto.Node.iri b :: l ↔ Onto.Node.iri a ∈ l := by simp [hab]
          rw [this]
          simp [hab]
      · rw [if_neg hc]
        obtain ⟨h1, h2⟩ := ih out hn
        refine ⟨h1, fun a x => ?_⟩
        rw [h2]
        have hD : ¬ Dom g b := fun h => hc ⟨(hasIri_iff g (.iri b) _ _).2 h.1, h.2⟩
        by_cases hab : a = b
        · subst hab; simp [hD]
        · have : Onto.Node.iri a ∈ Onto.Node.iri b :: l ↔ Onto.Node.iri a ∈ l := by simp [hab]
          rw [this]

/-! ### case 2 -/

/-- The restriction has no property. Specification. -/
def NoProp (g : Gr) (o : Onto.Node Text) : Prop := Has g (toNode o) .type (.iri Owl.restriction.iri) ∧ valueOf g o .onProperty = none

theorem byRestriction_spec (g : Gr) (c : Text) : ∀ (l : List (Onto.Node Text)) (out : List (Text × AttrInfo Node)), (keys out).Nodup →
    (((∃ o ∈ l, NoProp g o) ∧ ∃ s, Has g s .type (.iri Owl.datatypeProperty.iri)) → byRestriction g c l out = .error .typeError) ∧
    (¬ ((∃ o ∈ l, NoProp g o) ∧ ∃ s, Has g s .type (.iri Owl.datatypeProperty.iri)) → ∃ out', byRestriction g c l out = .ok out' ∧ (keys out').Nodup ∧
      (∀ a, a ∈ keys out' ↔ a ∈ keys out ∨ ∃ o ∈ l, Restricts g o a) ∧
      ∀ a x, (a, x) ∈ out' → (∃ o ∈ l, Restricts g o a ∧ x = restrictionInfo g c a o) ∨ ((∀ o ∈ l, ¬ Restricts g o a) ∧ (a, x) ∈ out)) := by
  intro l
  induction l with
  | nil =>
    intro out hn
    refine ⟨fun h => absurd h (by simp), fun _ => ⟨out, rfl, hn, fun a => by simp, fun a x h => Or.inr ⟨by simp, h⟩⟩⟩
  | cons o l ih =>
    intro out hn
    -- the step that changes nothing
    have skip : ¬ NoProp g o ∨ ¬ (∃ s, Has g s .type (.iri Owl.datatypeProperty.iri)) → (∀ a, ¬ Restricts g o a) → byRestriction g c (o :: l) out = byRestriction g c l out →
        (((∃ o' ∈ o :: l, NoProp g o') ∧ ∃ s, Has g s .type (.iri Owl.datatypeProperty.iri)) → byRestriction g c (o :: l) out = .error .typeError) ∧
        (¬ ((∃ o' ∈ o :: l, NoProp g o') ∧ ∃ s, Has g s .type (.iri Owl.datatypeProperty.iri)) → ∃ out', byRestriction g c (o :: l) out = .ok out' ∧ (keys out').Nodup ∧
          (∀ a, a ∈ keys out' ↔ a ∈ keys out ∨ ∃ o' ∈ o :: l, Restricts g o' a) ∧
          ∀ a x, (a, x) ∈ out' → (∃ o' ∈ o :: l, Restricts g o' a ∧ x = restrictionInfo g c a o') ∨ ((∀ o' ∈ o :: l, ¬ Restricts g o' a) ∧ (a, x) ∈ out)) := by
      intro h1 h2 h3
      rw [h3]
      obtain ⟨i1, i2⟩ := ih out hn
      have he : ((∃ o' ∈ o :: l, NoProp g o') ∧ ∃ s, Has g s .type (.iri Owl.datatypeProperty.iri)) ↔ ((∃ o' ∈ l, NoProp g o') ∧ ∃ s, Has g s .type (.iri Owl.datatypeProperty.iri)) := by
        simp only [List.mem_cons, exists_eq_or_imp]
        constructor
        · rintro ⟨h | h, hs⟩
          · rcases h1 with k | k
            · exact absurd h k
            · exact absurd hs k
          · exact ⟨h, hs⟩
        · rintro ⟨h, hs⟩; exact ⟨Or.inr h, hs⟩
      rw [he]
      refine ⟨i1, fun h => ?_⟩
      obtain ⟨out', a1, a2, a3, a4⟩ := i2 h
      refine ⟨out', a1, a2, fun a => ?_, fun a x hx => ?_⟩
      · rw [a3 a]
        simp only [List.mem_cons, exists_eq_or_imp, h2 a, false_or]
      · rcases a4 a x hx with ⟨o', k1, k2⟩ | ⟨k1, k2⟩
        · exact Or.inl ⟨o', List.mem_cons_of_mem _ k1, k2⟩
        · refine Or.inr ⟨fun o' ho' => ?_, k2⟩
          rcases List.mem_cons.1 ho' with rfl | ho'
          · exact h2 a
          · exact k1 o' ho'
    by_cases hr : hasIri g o .type Owl.restriction.iri = true
    · have hR := (hasIri_iff _ _ _ _).1 hr
      cases hv : valueOf g o .onProperty with
      | none =>
        by_cases hs : someTyped g Owl.datatypeProperty.iri = true
        · have hS := (someTyped_iff _ _).1 hs
          refine ⟨fun _ => ?_, fun h => absurd ⟨⟨o, List.mem_cons_self, hR, hv⟩, hS⟩ h⟩
          unfold byRestriction
          rw [if_pos hr, hv]
          dsimp only
          rw [if_pos hs]
        · refine skip (Or.inr (fun h => hs ((someTyped_iff _ _).2 h))) (fun a h => ?_) ?_
          · rw [h.2.1] at hv; cases hv
          · rw [byRestriction, if_pos hr, hv]
            dsimp only
            rw [if_neg hs]
      | some n =>
        have hnp : ¬ NoProp g o := fun h => by rw [h.2] at hv; cases hv
        by_cases hia : ∃ a, n = .iri a ∧ hasIri g (.iri a) .type Owl.datatypeProperty.iri = true
        · obtain ⟨a, rfl, ha⟩ := hia
          have hres : Restricts g o a := ⟨hR, hv, (hasIri_iff g (.iri a) _ _).1 ha⟩
          have honly : ∀ b, Restricts g o b → b = a := fun b hb => by
            have := hb.2.1
            rw [hv] at this
            simpa using this.symm
          have hstep : byRestriction g c (o :: l) out = byRestriction g c l (put out a (restrictionInfo g c a o)) := by
            rw [byRestriction, if_pos hr, hv]
            dsimp only
            rw [if_pos ha]
          obtain ⟨p1, p2, p3⟩ := put_spec out a (restrictionInfo g c a o) hn
          obtain ⟨i1, i2⟩ := ih _ p1
          rw [hstep]
          have he : (∃ o' ∈ o :: l, NoProp g o') ↔ ∃ o' ∈ l, NoProp g o' := by
            simp only [List.mem_cons, exists_eq_or_imp, hnp, false_or]
          rw [he]
          refine ⟨i1, fun h => ?_⟩
          obtain ⟨out', a1, a2, a3, a4⟩ := i2 h
          refine ⟨out', a1, a2, fun b => ?_, fun b x hx => ?_⟩
          · rw [a3 b, p2]
            simp only [List.mem_cons, exists_eq_or_imp]
            constructor
            · rintro ((h | rfl) | h)
              · exact Or.inl h
              · exact Or.inr (Or.inl hres)
              · exact Or.inr (Or.inr h)
            · rintro (h | h | h)
              · exact Or.inl (Or.inl h)
              · exact Or.inl (Or.inr (honly b h))
              · exact Or.inr h
          · rcases a4 b x hx with ⟨o', k1, k2⟩ | ⟨k1, k2⟩
            · exact Or.inl ⟨o', List.mem_cons_of_mem _ k1, k2⟩
            · rcases (p3 b x).1 k2 with ⟨rfl, rfl⟩ | ⟨hne, hx'⟩
              · exact Or.inl ⟨o, List.mem_cons_self, hres, rfl⟩
              · refine Or.inr ⟨fun o' ho' => ?_, hx'⟩
                rcases List.mem_cons.1 ho' with rfl | ho'
                · exact fun h => hne (honly b h)
                · exact k1 o' ho'
        · refine skip (Or.inl hnp) (fun a h => ?_) ?_
          · have := h.2.1
            rw [hv] at this
            injection this with this
            exact hia ⟨a, this, (hasIri_iff g (.iri a) _ _).2 h.2.2⟩
          · rw [byRestriction, if_pos hr, hv]
            cases n with
            | iri a =>
              dsimp only
              rw [if_neg (fun h => hia ⟨a, rfl, h⟩)]
            | _ => rfl
    · refine skip (Or.inl (fun h => hr ((hasIri_iff _ _ _ _).2 h.1))) (fun a h => hr ((hasIri_iff _ _ _ _).2 h.1)) ?_
      rw [byRestriction, if_neg hr]

/-- **C93.** The own attributes of a class, in any ontology graph. Asking for them raises TypeError exactly if a restriction of the class has no owl:onProperty (and the graph has an attribute).
Otherwise they are exactly the attributes whose domain is the class and those that its restrictions are about, each once. The default of an attribute is the one the class states. An attribute that
only has the class as domain is never obligatory. An attribute of a restriction is obligatory exactly if the class states no default for it, whatever the restriction says about how many values there are, and its datatype is
that of one of the restrictions. -/
theorem own_exact (g : Gr) (c : Text) :
    ((Dangling g c ∧ ∃ s, Has g s .type (.iri Owl.datatypeProperty.iri)) → own g c = .error .typeError) ∧
    (¬ (Dangling g c ∧ ∃ s, Has g s .type (.iri Owl.datatypeProperty.iri)) → ∃ l, own g c = .ok l ∧ (l.map (·.1)).Nodup ∧
      (∀ a, a ∈ l.map (·.1) ↔ InDomain g c a ∨ ∃ o, Has g (.iri c) .subClassOf (toNode o) ∧ Restricts g o a) ∧
      ∀ a x, (a, x) ∈ l → x.default = getDefault g a c ∧
        ((∃ o, Has g (.iri c) .subClassOf (toNode o) ∧ Restricts g o a) → (x.obligatory = true ↔ getDefault g a c = none) ∧
          ∃ o, Has g (.iri c) .subClassOf (toNode o) ∧ Restricts g o a ∧ x.datatype = restrictionDatatype g o) ∧
        ((¬ ∃ o, Has g (.iri c) .subClassOf (toNode o) ∧ Restricts g o a) → x.obligatory = false ∧ x.datatype = none)) := by
  obtain ⟨d1, d2⟩ := byDomain_spec g c (domainOf g c) [] List.nodup_nil
  obtain ⟨r1, r2⟩ := byRestriction_spec g c ((objects g (.iri c) .subClassOf).filterMap asNode) _ d1
  have hm : ∀ o, o ∈ (objects g (.iri c) .subClassOf).filterMap asNode ↔ Has g (.iri c) .subClassOf (toNode o) := mem_nodes g (.iri c) .subClassOf
  have hd : (∃ o ∈ (objects g (.iri c) .subClassOf).filterMap asNode, NoProp g o) ↔ Dangling g c := by
    unfold Dangling NoProp
    simp only [hm, valueOf_none]
  rw [hd] at r1 r2
  refine ⟨r1, fun h => ?_⟩
  obtain ⟨l, e, hn, hk, hx⟩ := r2 h
  refine ⟨l, e, hn, fun a => ?_, fun a x hax => ?_⟩
  · rw [show l.map (·.1) = keys l from rfl, hk a]
    simp only [hm]
    refine or_congr ?_ Iff.rfl
    rw [mem_keys]
    simp only [d2, List.not_mem_nil, and_false, or_false]
    constructor
    · rintro ⟨x, h1, h2, _⟩
      exact ⟨(mem_domainOf g c (.iri a)).1 h1, h2⟩
    · rintro ⟨h1, h2⟩
      exact ⟨_, (mem_domainOf g c (.iri a)).2 h1, h2, rfl⟩
  · rcases hx a x hax with ⟨o, h1, h2, rfl⟩ | ⟨h1, h2⟩
    · rw [hm] at h1
      refine ⟨rfl, fun _ => ⟨?_, o, h1, h2, rfl⟩, fun h => absurd ⟨o, h1, h2⟩ h⟩
      simp [restrictionInfo, Onto.restrictionObligatory, Option.isNone_iff_eq_none]
    · simp only [hm] at h1
      rw [d2] at h2
      simp only [List.not_mem_nil, and_false, or_false] at h2
      obtain ⟨_, _, rfl⟩ := h2
      exact ⟨rfl, fun ⟨o, k1, k2⟩ => absurd k2 (h1 o k1), fun _ => ⟨rfl, rfl⟩⟩

end Osp.Fields
