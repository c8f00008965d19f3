import Verif.Ymlp.Phases
/-!
# The third loop: attributes of classes
-/
namespace Osp.Ymlp
open Osp.Yaml (Yaml)

theorem attrSays_iff (a : Attr) (b : Nat) (t : Triple) : t ∈ attributeTriples a.cls a.attr a.dflt b ↔ AttrSays a b t := by
  unfold attributeTriples
  have hd : a.dflt = .null ∨ a.dflt ≠ .null := Classical.em _
  constructor
  · intro h
    rcases List.mem_append.1 h with h | h
    · simp only [List.mem_cons, List.not_mem_nil, or_false] at h
      rcases h with rfl | rfl | rfl | rfl
      · exact .restriction
      · exact .type
      · exact .cardinality
      · exact .property
    · rcases hd with hd | hd
      · rw [hd] at h; cases h
      · split at h
        · cases h
        · simp only [List.mem_cons, List.not_mem_nil, or_false] at h
          rcases h with rfl | rfl | rfl
          · exact .default hd
          · exact .defaultOf hd
          · exact .defaultIs hd
  · intro h
    rw [List.mem_append]
    cases h with
    | restriction => exact Or.inl (by simp)
    | type => exact Or.inl (by simp)
    | cardinality => exact Or.inl (by simp)
    | property => exact Or.inl (by simp)
    | default h => right; split; · exact absurd (by assumption) h
                   · simp
    | defaultOf h => right; split; · exact absurd (by assumption) h
                     · simp
    | defaultIs h => right; split; · exact absurd (by assumption) h
                     · simp

/-- Two blank nodes for each. -/
def number : Nat → List Attr → List (Attr × Nat)
  | _, [] => []
  | n, a :: as => (a, n) :: number (n + 2) as

theorem number_append (n : Nat) (as bs : List Attr) : number n (as ++ bs) = number n as ++ number (n + 2 * as.length) bs := by
  induction as generalizing n with
  | nil => rfl
  | cons a as ih =>
    rw [List.cons_append, number, number, ih, List.cons_append, List.length_cons]
    rw [show n + 2 + 2 * as.length = n + 2 * (as.length + 1) from by omega]

theorem number_fst (n : Nat) (as : List Attr) : (number n as).map (·.1) = as := by
  induction as generalizing n with
  | nil => rfl
  | cons a as ih => rw [number, List.map_cons, ih]

theorem number_ge (n : Nat) (as : List Attr) : ∀ m ∈ number n as, n ≤ m.2 := by
  induction as generalizing n with
  | nil => intro m hm; cases hm
  | cons a as ih =>
    intro m hm
    rw [number] at hm
    rcases List.mem_cons.1 hm with rfl | hm
    · exact Nat.le_refl _
    · have := ih (n + 2) m hm; omega

theorem number_apart (n : Nat) (as : List Attr) : (number n as).Pairwise (fun m m' => m.2 + 1 < m'.2) := by
  induction as generalizing n with
  | nil => exact .nil
  | cons a as ih =>
    rw [number]
    refine .cons (fun m hm => ?_) (ih (n + 2))
    have := number_ge (n + 2) as m hm
    simp only
    omega

/-- The graph after making these restrictions. -/
structure Grown (h h' : Gr) (as : List Attr) : Prop where
  binds : h'.binds = h.binds
  next : h'.next = h.next + 2 * as.length
  triples : h'.triples = h.triples ++ (number h.next as).flatMap (fun m => attributeTriples m.1.cls m.1.attr m.1.dflt m.2)

theorem Grown.nil (h : Gr) : Grown h h [] := ⟨rfl, rfl, by simp [number]⟩

theorem Grown.trans {h h1 h2 : Gr} {as bs : List Attr} (a : Grown h h1 as) (b : Grown h1 h2 bs) : Grown h h2 (as ++ bs) := by
  refine ⟨b.binds.trans a.binds, ?_, ?_⟩
  · rw [b.next, a.next, List.length_append]; omega
  · rw [b.triples, a.triples, a.next, number_append, List.flatMap_append, List.append_assoc]

theorem grown_one (h : Gr) (a : Attr) : Grown h (addAttribute h a.cls a.attr a.dflt) [a] :=
  ⟨rfl, rfl, by simp [addAttribute, addAll, number]⟩

theorem Grown.tame {D : Doc} {g h h' : Gr} (hD : Proper D) (ht : Tame D g h) {as : List Attr} (ha : ∀ a ∈ as, ∃ e ∈ D.entities, a.cls = iriOf D g e) (hg : Grown h h' as) : Tame D g h' := by
  have hmem : ∀ t ∈ (number h.next as).flatMap (fun m => attributeTriples m.1.cls m.1.attr m.1.dflt m.2), ∃ a ∈ as, ∃ b, AttrSays a b t := by
    intro t h1
    obtain ⟨m, hm, h1⟩ := List.mem_flatMap.1 h1
    have : m.1 ∈ (number h.next as).map (·.1) := List.mem_map.2 ⟨m, hm, rfl⟩
    rw [number_fst] at this
    exact ⟨m.1, this, m.2, (attrSays_iff _ _ _).1 h1⟩
  constructor
  · refine ht.ext.trans (fun ns => by unfold nsIri; rw [hg.binds]) hg.triples ?_
    intro t h1
    obtain ⟨a, haa, b, hs⟩ := hmem t h1
    obtain ⟨e, he, hc⟩ := ha a haa
    have hent : ∀ p o, p ≠ .referenceByLabel → New D g ⟨.iri a.cls, p, o⟩ := fun p o hp => by rw [hc]; exact new_entity hD he hp o
    cases hs with
    | restriction => exact hent _ _ (by simp)
    | type => exact ⟨by simp, Or.inr (Or.inl ⟨_, rfl⟩)⟩
    | cardinality => exact ⟨by simp, Or.inr (Or.inl ⟨_, rfl⟩)⟩
    | property => exact ⟨by simp, Or.inr (Or.inl ⟨_, rfl⟩)⟩
    | default _ => exact hent _ _ (by simp)
    | defaultOf _ => exact ⟨by simp, Or.inr (Or.inl ⟨_, rfl⟩)⟩
    | defaultIs _ => exact ⟨by simp, Or.inr (Or.inl ⟨_, rfl⟩)⟩
  · intro i k hk hh
    rw [hasType_iff] at hh
    unfold Has at hh
    rw [hg.triples, List.mem_append] at hh
    rcases hh with hh | hh
    · exact ht.types i k hk ((hasType_iff _ _ _).2 hh)
    · obtain ⟨a, _, b, hs⟩ := hmem _ hh
      cases hs

/-- What is needed for the attributes of a class. -/
def AttrOk (D : Doc) (g : Gr) (l : List (Text × Yaml)) : Prop := ∀ r v, (r, v) ∈ l → ∃ i, refers D g r = .ok i ∧ IsAttribute D g i

/-- All types given by the document are in the graph. -/
def Typed (D : Doc) (g h : Gr) : Prop := ∀ e ∈ D.entities, ∀ k, Inherits D g e k → hasType h (iriOf D g e) k = true

theorem isAttribute_of {D : Doc} {g h : Gr} (ht : Tame D g h) {i : Text} (hh : hasType h i .datatypeProperty = true) : IsAttribute D g i := by
  rcases ht.types i _ (by decide) hh with h | h
  · exact Or.inl ((hasType_iff _ _ _).1 h)
  · exact Or.inr h

theorem hasType_of {D : Doc} {g h : Gr} (ht : Tame D g h) (hty : Typed D g h) {i : Text} (hi : IsAttribute D g i) : hasType h i .datatypeProperty = true := by
  rcases hi with hi | ⟨e, he, rfl, hinh⟩
  · rw [hasType_iff]; exact ext_mem ht.ext hi
  · exact hty e he _ hinh

theorem addEach_ok {D : Doc} {g : Gr} (hD : Proper D) (hg : Ready D g) {e : Entity} (he : e ∈ D.entities) {l : List (Text × Yaml)} (hl : ∀ rv ∈ l, InDoc D rv.1) {h h' : Gr} (ht : Tame D g h)
    (hw : addEach D (iriOf D g e) l h = .ok h') : Grown h h' (l.filterMap (entry D g e)) ∧ Tame D g h' ∧ AttrOk D g l := by
  induction l generalizing h with
  | nil => cases hw; exact ⟨Grown.nil _, ht, fun r v hr => by cases hr⟩
  | cons rv l ih =>
    obtain ⟨r, v⟩ := rv
    rw [addEach, bind_ok] at hw
    obtain ⟨i, hi, hw⟩ := hw
    rw [refers_ext hD hg ht.ext (hl _ List.mem_cons_self)] at hi
    split at hw
    · rename_i hty
      have g1 : Grown h (addAttribute h (iriOf D g e) i v) [⟨iriOf D g e, i, v⟩] := grown_one h ⟨iriOf D g e, i, v⟩
      have t1 := g1.tame hD ht (fun a ha => by rw [List.mem_singleton.1 ha]; exact ⟨e, he, rfl⟩)
      obtain ⟨g2, t2, o2⟩ := ih (fun x hx => hl x (List.mem_cons_of_mem _ hx)) t1 hw
      have hen : entry D g e (r, v) = some ⟨iriOf D g e, i, v⟩ := by simp only [entry, hi]
      refine ⟨?_, t2, ?_⟩
      · rw [List.filterMap_cons_some hen]
        exact g1.trans g2
      · intro r' v' hm
        rcases List.mem_cons.1 hm with hm | hm
        · cases hm; exact ⟨i, hi, isAttribute_of ht hty⟩
        · exact o2 r' v' hm
    · cases hw

theorem grown_hasType {h h' : Gr} {as : List Attr} (hg : Grown h h' as) {i : Text} {k : Owl} (hh : hasType h i k = true) : hasType h' i k = true := by
  rw [hasType_iff] at hh ⊢
  unfold Has at hh ⊢
  rw [hg.triples]
  exact List.mem_append_left _ hh

theorem addEach_total {D : Doc} {g : Gr} (hD : Proper D) (hg : Ready D g) {e : Entity} (he : e ∈ D.entities) {l : List (Text × Yaml)} (hl : ∀ rv ∈ l, InDoc D rv.1) {h : Gr} (ht : Tame D g h)
    (hty : Typed D g h) (hok : AttrOk D g l) : ∃ h', addEach D (iriOf D g e) l h = .ok h' := by
  induction l generalizing h with
  | nil => exact ⟨h, rfl⟩
  | cons rv l ih =>
    obtain ⟨r, v⟩ := rv
    obtain ⟨i, hi, ha⟩ := hok r v List.mem_cons_self
    rw [addEach, refers_ext hD hg ht.ext (hl _ List.mem_cons_self), hi]
    have g1 : Grown h (addAttribute h (iriOf D g e) i v) [⟨iriOf D g e, i, v⟩] := grown_one h ⟨iriOf D g e, i, v⟩
    have t1 := g1.tame hD ht (fun a ha => by rw [List.mem_singleton.1 ha]; exact ⟨e, he, rfl⟩)
    obtain ⟨h', e'⟩ := ih (fun x hx => hl x (List.mem_cons_of_mem _ hx)) t1 (fun e he k hk => grown_hasType g1 (hty e he k hk)) (fun r v hr => hok r v (List.mem_cons_of_mem _ hr))
    refine ⟨h', ?_⟩
    change (if hasType h i .datatypeProperty = true then _ else _) = _
    rw [if_pos (hasType_of ht hty ha)]
    exact e'

/-- The declarations in these entities. -/
def entries (D : Doc) (g : Gr) : List (Entity × Kind) → List Attr
  | [] => []
  | (e, .class_) :: l => (e.attributes.getD []).filterMap (entry D g e) ++ entries D g l
  | (_, _) :: l => entries D g l

theorem entries_cls {D : Doc} {g : Gr} {l : List (Entity × Kind)} (hl : ∀ p ∈ l, p.1 ∈ D.entities) : ∀ a ∈ entries D g l, ∃ e ∈ D.entities, a.cls = iriOf D g e := by
  induction l with
  | nil => intro a ha; cases ha
  | cons p l ih =>
    have ih := ih (fun p hp => hl p (List.mem_cons_of_mem _ hp))
    obtain ⟨e, k⟩ := p
    cases k with
    | class_ =>
      intro a ha
      rw [entries, List.mem_append] at ha
      rcases ha with ha | ha
      · obtain ⟨rv, _, hrv⟩ := List.mem_filterMap.1 ha
        unfold entry at hrv
        split at hrv
        · cases hrv; exact ⟨e, hl _ List.mem_cons_self, rfl⟩
        · cases hrv
      · exact ih a ha
    | relationship => exact ih
    | «attribute» => exact ih

theorem addAttributes_eq {D : Doc} {g h : Gr} (hD : Proper D) (hg : Ready D g) (hx : Ext D g h) {e : Entity} (he : e ∈ D.entities) :
    addAttributes D h e = addEach D (iriOf D g e) (e.attributes.getD []) h := by
  unfold addAttributes
  rw [(getIri_entity hD hg hx he).1]
  cases e.attributes <;> rfl

theorem attr_inDoc {D : Doc} {e : Entity} (he : e ∈ D.entities) : ∀ rv ∈ e.attributes.getD [], InDoc D rv.1 := by
  intro rv hrv
  cases ha : e.attributes with
  | none => rw [ha] at hrv; cases hrv
  | some l => rw [ha] at hrv; exact InDoc.attribute (v := rv.2) he ha hrv

theorem thirdLoop_ok {D : Doc} {g : Gr} (hD : Proper D) (hg : Ready D g) {l : List (Entity × Kind)} (hl : ∀ p ∈ l, p.1 ∈ D.entities) {h h' : Gr} (ht : Tame D g h)
    (hw : thirdLoop D l h = .ok h') : Grown h h' (entries D g l) ∧ ∀ p ∈ l, p.2 = .class_ → AttrOk D g (p.1.attributes.getD []) := by
  induction l generalizing h with
  | nil => cases hw; exact ⟨Grown.nil _, fun p hp => by cases hp⟩
  | cons p l ih =>
    have hl' : ∀ p ∈ l, p.1 ∈ D.entities := fun p hp => hl p (List.mem_cons_of_mem _ hp)
    obtain ⟨e, k⟩ := p
    have he : e ∈ D.entities := hl _ List.mem_cons_self
    have other : k ≠ .class_ → ∀ {P : Gr → Prop}, (P h' ∧ ∀ p ∈ l, p.2 = .class_ → AttrOk D g (p.1.attributes.getD [])) → P h' ∧ ∀ p ∈ (e, k) :: l, p.2 = .class_ → AttrOk D g (p.1.attributes.getD []) := by
      intro hk P ⟨h1, h2⟩
      refine ⟨h1, fun p hp hpk => ?_⟩
      rcases List.mem_cons.1 hp with rfl | hp
      · exact absurd hpk hk
      · exact h2 p hp hpk
    cases k with
    | class_ =>
      rw [thirdLoop, bind_ok] at hw
      obtain ⟨h1, w1, hw⟩ := hw
      rw [addAttributes_eq hD hg ht.ext he] at w1
      obtain ⟨g1, t1, o1⟩ := addEach_ok hD hg he (attr_inDoc he) ht w1
      obtain ⟨g2, o2⟩ := ih hl' t1 hw
      refine ⟨g1.trans g2, fun p hp hpk => ?_⟩
      rcases List.mem_cons.1 hp with rfl | hp
      · exact o1
      · exact o2 p hp hpk
    | relationship => exact other (by simp) (P := fun h' => Grown h h' (entries D g l)) (ih hl' ht hw)
    | «attribute» => exact other (by simp) (P := fun h' => Grown h h' (entries D g l)) (ih hl' ht hw)

theorem thirdLoop_total {D : Doc} {g : Gr} (hD : Proper D) (hg : Ready D g) {l : List (Entity × Kind)} (hl : ∀ p ∈ l, p.1 ∈ D.entities) {h : Gr} (ht : Tame D g h) (hty : Typed D g h)
    (hok : ∀ p ∈ l, p.2 = .class_ → AttrOk D g (p.1.attributes.getD [])) : ∃ h', thirdLoop D l h = .ok h' := by
  induction l generalizing h with
  | nil => exact ⟨h, rfl⟩
  | cons p l ih =>
    have hl' : ∀ p ∈ l, p.1 ∈ D.entities := fun p hp => hl p (List.mem_cons_of_mem _ hp)
    have hok' : ∀ p ∈ l, p.2 = .class_ → AttrOk D g (p.1.attributes.getD []) := fun p hp => hok p (List.mem_cons_of_mem _ hp)
    obtain ⟨e, k⟩ := p
    have he : e ∈ D.entities := hl _ List.mem_cons_self
    cases k with
    | class_ =>
      obtain ⟨h1, e1⟩ := addEach_total hD hg he (attr_inDoc he) ht hty (hok _ List.mem_cons_self rfl)
      obtain ⟨g1, t1, _⟩ := addEach_ok hD hg he (attr_inDoc he) ht e1
      obtain ⟨h', e'⟩ := ih hl' t1 (fun e he k hk => grown_hasType g1 (hty e he k hk)) hok'
      refine ⟨h', ?_⟩
      rw [thirdLoop, addAttributes_eq hD hg ht.ext he, e1]
      exact e'
    | relationship => exact ih hl' ht hty hok'
    | «attribute» => exact ih hl' ht hty hok'

theorem isKind_unique {D : Doc} {g : Gr} {e : Entity} {k k' : Kind} (h : IsKind D g e k) (h' : IsKind D g e k') : k = k' := by
  have := (h k).2 rfl
  exact (h' k).1 this

/-- The declarations in the document. -/
theorem entries_declared {D : Doc} {g : Gr} {ks : List Kind} (hk : ∀ p ∈ D.entities.zip ks, IsKind D g p.1 p.2) (hz : (D.entities.zip ks).map (·.1) = D.entities) :
    entries D g (D.entities.zip ks) = declared D g := by
  unfold declared
  have : ∀ l : List (Entity × Kind), (∀ p ∈ l, IsKind D g p.1 p.2) →
      entries D g l = (l.map (·.1)).flatMap (fun e => open Classical in if IsKind D g e .class_ then (e.attributes.getD []).filterMap (entry D g e) else []) := by
    intro l hl
    induction l with
    | nil => rfl
    | cons p l ih =>
      have ih := ih (fun p hp => hl p (List.mem_cons_of_mem _ hp))
      have hp := hl p List.mem_cons_self
      obtain ⟨e, k⟩ := p
      rw [List.map_cons, List.flatMap_cons, ← ih]
      cases k with
      | class_ => rw [entries, if_pos hp]
      | relationship => rw [entries, if_neg (fun h => by cases isKind_unique hp h)]; rfl; simp
      | «attribute» => rw [entries, if_neg (fun h => by cases isKind_unique hp h)]; rfl; simp
  rw [this _ hk, hz]

theorem mem_declared {D : Doc} {g : Gr} (a : Attr) : a ∈ declared D g ↔ Declares D g a := by
  unfold declared Declares
  rw [List.mem_flatMap]
  constructor
  · rintro ⟨e, he, ha⟩
    split at ha
    · rename_i hk
      obtain ⟨⟨r, v⟩, hrv, hh⟩ := List.mem_filterMap.1 ha
      unfold entry at hh
      split at hh
      · rename_i i hi
        cases hh
        cases hat : e.attributes with
        | none => rw [hat] at hrv; cases hrv
        | some l => rw [hat] at hrv; exact ⟨e, he, hk, rfl, l, r, hat, hrv, hi⟩
      · cases hh
    · cases ha
  · rintro ⟨e, he, hk, hc, l, r, hat, hrv, hi⟩
    refine ⟨e, he, ?_⟩
    rw [if_pos hk]
    refine List.mem_filterMap.2 ⟨(r, a.dflt), by rw [hat]; exact hrv, ?_⟩
    simp only [entry, hi]
    rw [← hc]

end Osp.Ymlp
