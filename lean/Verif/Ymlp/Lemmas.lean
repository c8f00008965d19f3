import Verif.Ymlp.Spec
/-!
# Lookups, and that references mean the same while the graph grows
-/
namespace Osp.Ymlp
open Osp.Yaml (Yaml)
open Osp.Names (lower upper alt snakeTail camelTail)

theorem bind_ok {α β : Type} {x : Run α} {f : α → Run β} {b : β} : (x >>= f) = .ok b ↔ ∃ a, x = .ok a ∧ f a = .ok b := by
  cases x with
  | ok a => exact ⟨fun h => ⟨a, rfl, h⟩, fun ⟨a', h, h'⟩ => by cases h; exact h'⟩
  | error e => exact ⟨fun h => (by cases h), fun ⟨_, h, _⟩ => (by cases h)⟩

theorem raise_ne {α : Type} {e : PyErr} {a : α} : raise e ≠ (.ok a : Run α) := by intro h; cases h

/-! ### lookups -/

theorem isIri_iff (i : Text) (n : Node) : n.isIri i = true ↔ n = .iri i := by cases n <;> simp [Node.isIri]
theorem isLabel_iff (i : Text) (n : Node) : n.isLabel i = true ↔ n = .label i := by cases n <;> simp [Node.isLabel]
theorem isYes_iff (n : Node) : n.isYes = true ↔ n = .yes := by cases n <;> simp [Node.isYes]

theorem hasType_iff (g : Gr) (i : Text) (k : Owl) : hasType g i k = true ↔ Has g (.iri i) .type (.iri k.iri) := by
  unfold hasType Has
  simp only [List.any_eq_true, Bool.and_eq_true, isIri_iff, beq_iff_eq]
  constructor
  · rintro ⟨⟨s, p, o⟩, ht, ⟨h1, h2⟩, h3⟩
    simp only at h1 h2 h3
    subst h1 h2 h3; exact ht
  · intro h; exact ⟨_, h, ⟨rfl, rfl⟩, rfl⟩

theorem byLabel_iff (g : Gr) (i : Text) : byLabel g i = true ↔ Has g (.iri i) .referenceByLabel .yes := by
  unfold byLabel Has
  simp only [List.any_eq_true, Bool.and_eq_true, isIri_iff, beq_iff_eq, isYes_iff]
  constructor
  · rintro ⟨⟨s, p, o⟩, ht, ⟨h1, h2⟩, h3⟩
    simp only at h1 h2 h3
    subst h1 h2 h3; exact ht
  · intro h; exact ⟨_, h, ⟨rfl, rfl⟩, rfl⟩

theorem hasSubject_iff (g : Gr) (i : Text) : hasSubject g i = true ↔ ∃ t ∈ g.triples, t.s = .iri i := by
  unfold hasSubject
  simp only [List.any_eq_true, isIri_iff]

theorem splitOn_two {t a b : Text} : splitOn '.' t = [a, b] ↔ t = a ++ '.' :: b ∧ '.' ∉ a ∧ '.' ∉ b := by
  constructor
  · intro h
    have key : ∀ t : Text, ('.' ∉ t ∧ splitOn '.' t = [t]) ∨ ∃ x y, t = x ++ '.' :: y ∧ '.' ∉ x := by
      intro t
      induction t with
      | nil => exact Or.inl ⟨by simp, rfl⟩
      | cons c t ih =>
        by_cases hc : c = '.'
        · exact Or.inr ⟨[], t, by rw [hc]; rfl, by simp⟩
        · rcases ih with ⟨h1, h2⟩ | ⟨x, y, rfl, hx⟩
          · left
            have : '.' ∉ c :: t := by
              simp only [List.mem_cons, not_or]
              exact ⟨fun e => hc e.symm, h1⟩
            exact ⟨this, splitOn_none _ _ this⟩
          · refine Or.inr ⟨c :: x, y, rfl, ?_⟩
            simp only [List.mem_cons, not_or]
            exact ⟨fun e => hc e.symm, hx⟩
    rcases key t with ⟨_, h2⟩ | ⟨x, y, rfl, hx⟩
    · rw [h2] at h; cases h
    · rw [splitOn_append _ _ _ hx] at h
      injection h with h1 h2
      subst h1
      rcases key y with ⟨h3, h4⟩ | ⟨u, v, rfl, hu⟩
      · rw [h4] at h2
        injection h2 with h2 _
        subst h2
        exact ⟨rfl, hx, h3⟩
      · rw [splitOn_append _ _ _ hu] at h2
        injection h2 with _ h2
        have hne : splitOn '.' v ≠ [] := by
          rcases key v with ⟨_, h⟩ | ⟨p, q, rfl, hp⟩
          · rw [h]; simp
          · rw [splitOn_append _ _ _ hp]; simp
        exact absurd h2 hne
  · rintro ⟨rfl, ha, hb⟩
    rw [splitOn_append _ _ _ ha, splitOn_none _ _ hb]

theorem splitName_iff (r ns n : Text) : splitName r = .ok (ns, n) ↔ Splits r ns n := by
  unfold splitName Splits
  constructor
  · intro h
    split at h
    · rename_i a b hs
      cases h
      obtain ⟨rfl, ha, hb⟩ := splitOn_two.1 hs
      exact ⟨a, rfl, ha, hb, rfl⟩
    · cases h
  · rintro ⟨a, rfl, ha, hb, rfl⟩
    rw [splitOn_two.2 ⟨rfl, ha, hb⟩]

theorem splits_unique {r ns n ns' n' : Text} (h : Splits r ns n) (h' : Splits r ns' n') : ns = ns' ∧ n = n' := by
  have h1 := (splitName_iff r ns n).2 h
  rw [(splitName_iff r ns' n').2 h'] at h1
  cases h1
  exact ⟨rfl, rfl⟩

theorem find_some {D : Doc} {n : Text} {e : Entity} (h : D.find n = some e) : e ∈ D.entities ∧ e.name = n := by
  unfold Doc.find at h
  refine ⟨List.mem_of_find?_eq_some h, ?_⟩
  have := List.find?_some h
  simpa using this

theorem find_isSome {D : Doc} {n : Text} : (D.find n).isSome = true ↔ ∃ e ∈ D.entities, e.name = n := by
  unfold Doc.find
  rw [List.find?_isSome]
  simp only [beq_iff_eq]

theorem name_inj {l : List Entity} (h : (l.map (·.name)).Nodup) {e e' : Entity} (he : e ∈ l) (he' : e' ∈ l) (hn : e.name = e'.name) : e = e' := by
  induction l with
  | nil => cases he
  | cons x l ih =>
    rw [List.map_cons, List.nodup_cons] at h
    rcases List.mem_cons.1 he with h1 | h1 <;> rcases List.mem_cons.1 he' with h2 | h2
    · rw [h1, h2]
    · exact absurd (List.mem_map.2 ⟨e', h2, by rw [← hn, h1]⟩) h.1
    · exact absurd (List.mem_map.2 ⟨e, h1, by rw [hn, h2]⟩) h.1
    · exact ih h.2 h1 h2

theorem find_mem {D : Doc} (hD : Proper D) {e : Entity} (he : e ∈ D.entities) : D.find e.name = some e := by
  cases h : D.find e.name with
  | none =>
    have := (find_isSome (D := D) (n := e.name)).2 ⟨e, he, rfl⟩
    rw [h] at this; cases this
  | some e' =>
    obtain ⟨h1, h2⟩ := find_some h
    rw [name_inj hD.distinct h1 he h2]

/-! ### plain names -/

theorem toUpper_of_not {c : Char} (h : ¬ (97 ≤ c.toNat ∧ c.toNat ≤ 122)) : c.toUpper = c := by
  unfold Char.toUpper
  split
  · rename_i hk; exact absurd ⟨hk.1, hk.2⟩ h
  · rfl

theorem toLower_of_not {c : Char} (h : ¬ (65 ≤ c.toNat ∧ c.toNat ≤ 90)) : c.toLower = c := by
  unfold Char.toLower
  split
  · rename_i hk; exact absurd ⟨hk.1, hk.2⟩ h
  · rfl

theorem toLower_hash (c : Char) : (c.toLower = '#' → c = '#') ∧ (c.toLower = '/' → c = '/') := by
  by_cases h : 65 ≤ c.toNat ∧ c.toNat ≤ 90
  · have : ∀ n, n < 91 → 65 ≤ n → (Char.ofNat n).toLower ≠ '#' ∧ (Char.ofNat n).toLower ≠ '/' := by decide
    have := this c.toNat (by omega) h.1
    rw [Char.ofNat_toNat] at this
    exact ⟨fun e => absurd e this.1, fun e => absurd e this.2⟩
  · rw [toLower_of_not h]; exact ⟨id, id⟩

theorem toUpper_hash (c : Char) : (c.toUpper = '#' → c = '#') ∧ (c.toUpper = '/' → c = '/') := by
  by_cases h : 97 ≤ c.toNat ∧ c.toNat ≤ 122
  · have : ∀ n, n < 123 → 97 ≤ n → (Char.ofNat n).toUpper ≠ '#' ∧ (Char.ofNat n).toUpper ≠ '/' := by decide
    have := this c.toNat (by omega) h.1
    rw [Char.ofNat_toNat] at this
    exact ⟨fun e => absurd e this.1, fun e => absurd e this.2⟩
  · rw [toUpper_of_not h]; exact ⟨id, id⟩

theorem toLower_idem (c : Char) : c.toLower.toLower = c.toLower := by
  by_cases h : 65 ≤ c.toNat ∧ c.toNat ≤ 90
  · have : ∀ n, n < 91 → 65 ≤ n → (Char.ofNat n).toLower.toLower = (Char.ofNat n).toLower := by decide
    have := this c.toNat (by omega) h.1
    rwa [Char.ofNat_toNat] at this
  · rw [toLower_of_not h, toLower_of_not h]

theorem plain_nil : Plain [] := ⟨by simp, by simp⟩

theorem plain_cons {c : Char} {t : Text} : Plain (c :: t) ↔ c ≠ '#' ∧ c ≠ '/' ∧ Plain t := by
  unfold Plain
  simp only [List.mem_cons, not_or, ne_eq]
  constructor
  · rintro ⟨⟨h1, h2⟩, h3, h4⟩; exact ⟨fun h => h1 h.symm, fun h => h3 h.symm, h2, h4⟩
  · rintro ⟨h1, h3, h2, h4⟩; exact ⟨⟨fun h => h1 h.symm, h2⟩, fun h => h3 h.symm, h4⟩

theorem plain_append {t u : Text} : Plain (t ++ u) ↔ Plain t ∧ Plain u := by
  unfold Plain
  simp only [List.mem_append, not_or]
  constructor
  · rintro ⟨⟨h1, h2⟩, h3, h4⟩; exact ⟨⟨h1, h3⟩, h2, h4⟩
  · rintro ⟨⟨h1, h3⟩, h2, h4⟩; exact ⟨⟨h1, h2⟩, h3, h4⟩

theorem plain_lower {t : Text} (h : Plain t) : Plain (lower t) := by
  constructor <;> (intro hm; obtain ⟨c, hc, he⟩ := List.mem_map.1 hm)
  · exact h.1 ((toLower_hash c).1 he ▸ hc)
  · exact h.2 ((toLower_hash c).2 he ▸ hc)

theorem plain_upper {t : Text} (h : Plain t) : Plain (upper t) := by
  constructor <;> (intro hm; obtain ⟨c, hc, he⟩ := List.mem_map.1 hm)
  · exact h.1 ((toUpper_hash c).1 he ▸ hc)
  · exact h.2 ((toUpper_hash c).2 he ▸ hc)

theorem plain_toUpper {c : Char} (h1 : c ≠ '#') (h2 : c ≠ '/') : c.toUpper ≠ '#' ∧ c.toUpper ≠ '/' := ⟨fun h => h1 ((toUpper_hash c).1 h), fun h => h2 ((toUpper_hash c).2 h)⟩
theorem plain_toLower {c : Char} (h1 : c ≠ '#') (h2 : c ≠ '/') : c.toLower ≠ '#' ∧ c.toLower ≠ '/' := ⟨fun h => h1 ((toLower_hash c).1 h), fun h => h2 ((toLower_hash c).2 h)⟩

theorem plain_snake {t : Text} (h : Plain t) : Plain (snakeTail t) := by
  induction t with
  | nil => exact plain_nil
  | cons c t ih =>
    rw [plain_cons] at h
    rw [snakeTail, plain_append]
    refine ⟨?_, ih h.2.2⟩
    split
    · exact plain_cons.2 ⟨by decide, by decide, plain_cons.2 ⟨h.1, h.2.1, plain_nil⟩⟩
    · exact plain_cons.2 ⟨h.1, h.2.1, plain_nil⟩

theorem plain_camel {b : Bool} {t : Text} (h : Plain t) : Plain (camelTail b t) := by
  induction t generalizing b with
  | nil => cases b <;> exact plain_nil
  | cons c t ih =>
    rw [plain_cons] at h
    rw [camelTail]
    split
    · exact ih h.2.2
    · rw [plain_cons]
      have h1 := plain_toUpper h.1 h.2.1
      have h2 := plain_toLower h.1 h.2.1
      cases b with
      | true => exact ⟨h1.1, h1.2, ih h.2.2⟩
      | false => exact ⟨h2.1, h2.2, ih h.2.2⟩

/-- The old spelling of a plain name is plain, and not empty. -/
theorem plain_alt {b : Bool} {n a : Text} (h : Plain n) (ha : alt b n = .ok (some a)) : Plain a ∧ a ≠ [] := by
  cases n with
  | nil => cases ha
  | cons c t =>
    have hc := plain_cons.1 h
    have hu := plain_toUpper hc.1 hc.2.1
    have hl := plain_toLower hc.1 hc.2.1
    have hul := plain_toLower hu.1 hu.2
    rw [alt] at ha
    by_cases h1 : (!b && (c :: t).any Char.isLower && (c :: t).any Char.isUpper) = true
    · rw [if_pos h1] at ha
      cases ha
      exact ⟨plain_upper (plain_cons.2 ⟨hu.1, hu.2, plain_snake hc.2.2⟩), by simp [upper]⟩
    · rw [if_neg h1] at ha
      by_cases h2 : (!b) = true
      · rw [if_pos h2] at ha
        cases ha
        exact ⟨plain_upper h, by simp [upper]⟩
      · rw [if_neg h2] at ha
        by_cases h3 : '_' ∈ t ∨ (c :: t).all Char.isUpper = true
        · rw [if_pos h3] at ha
          replace ha : (if Names.inCuba (c.toUpper :: camelTail false t) then Except.ok (some (c.toUpper :: camelTail false t))
            else if Names.inCuba (c.toUpper.toLower :: camelTail false t) then .ok (some (c.toUpper.toLower :: camelTail false t)) else .ok none : Except PyErr (Option Text)) = .ok (some a) := ha
          split at ha
          · cases ha; exact ⟨plain_cons.2 ⟨hu.1, hu.2, plain_camel hc.2.2⟩, by simp⟩
          · split at ha
            · cases ha; exact ⟨plain_cons.2 ⟨hul.1, hul.2, plain_camel hc.2.2⟩, by simp⟩
            · cases ha
        · rw [if_neg h3] at ha
          split at ha
          · split at ha
            · cases ha; exact ⟨plain_cons.2 ⟨hl.1, hl.2, hc.2.2⟩, by simp⟩
            · cases ha
          · split at ha
            · split at ha
              · cases ha; exact ⟨plain_cons.2 ⟨hu.1, hu.2, hc.2.2⟩, by simp⟩
              · cases ha
            · cases ha

/-! ### growing graphs -/

/-- The triples a document adds. -/
def New (D : Doc) (g : Gr) (t : Triple) : Prop :=
  t.p ≠ .referenceByLabel ∧ ((∃ m, Plain m ∧ t.s = .iri (base D g ++ m)) ∨ (∃ k, t.s = .blank k) ∨ ∃ u, t.s = .iri (Yaml.dtPrefix ++ u) ∧ t.p = .type)

/-- The graph has grown by such triples. -/
structure Ext (D : Doc) (g h : Gr) : Prop where
  binds : ∀ ns, nsIri h ns = nsIri g ns
  new : ∃ ts, h.triples = g.triples ++ ts ∧ ∀ t ∈ ts, New D g t

theorem Ext.refl (D : Doc) (g : Gr) : Ext D g g := ⟨fun _ => rfl, [], by simp, fun _ h => by cases h⟩

theorem ext_nsIri {D : Doc} {g h : Gr} (hx : Ext D g h) (ns : Text) : nsIri h ns = nsIri g ns := hx.binds ns

theorem Ext.trans {D : Doc} {g h k : Gr} (h1 : Ext D g h) {ts : List Triple} (hb : ∀ ns, nsIri k ns = nsIri h ns) (ht : k.triples = h.triples ++ ts) (hn : ∀ t ∈ ts, New D g t) : Ext D g k := by
  obtain ⟨us, hu, hnu⟩ := h1.new
  refine ⟨fun ns => (hb ns).trans (h1.binds ns), us ++ ts, by rw [ht, hu, List.append_assoc], ?_⟩
  intro t ht
  rcases List.mem_append.1 ht with h | h
  · exact hnu t h
  · exact hn t h

theorem ext_mem {D : Doc} {g h : Gr} (hx : Ext D g h) {t : Triple} (ht : t ∈ g.triples) : t ∈ h.triples := by
  obtain ⟨ts, h1, _⟩ := hx.new
  rw [h1]; exact List.mem_append_left _ ht

theorem ext_byLabel {D : Doc} {g h : Gr} (hx : Ext D g h) (i : Text) : byLabel h i = byLabel g i := by
  rw [Bool.eq_iff_iff, byLabel_iff, byLabel_iff]
  unfold Has
  obtain ⟨ts, h1, h2⟩ := hx.new
  rw [h1, List.mem_append]
  constructor
  · rintro (h | h)
    · exact h
    · exact absurd rfl (h2 _ h).1
  · exact Or.inl

theorem labelled_append (g h : Gr) (ns name : Text) (l m : List Triple) : labelled g ns name (l ++ m) = (labelled h ns name l).or (labelled g ns name m) := by
  induction l with
  | nil => rfl
  | cons t l ih =>
    rw [List.cons_append, labelled, labelled]
    cases t.s with
    | iri s =>
      simp only
      split
      · rfl
      · exact ih
    | _ => exact ih

theorem labelled_none {g : Gr} {ns name : Text} {l : List Triple} (h : ∀ t ∈ l, ∀ s, t.s = .iri s → t.p = .prefLabel → ¬ ns <+: s) : labelled g ns name l = none := by
  induction l with
  | nil => rfl
  | cons t l ih =>
    have ih := ih (fun x hx => h x (List.mem_cons_of_mem _ hx))
    rw [labelled]
    cases hs : t.s with
    | iri s =>
      simp only
      rw [if_neg]
      · exact ih
      · intro hc
        simp only [Bool.and_eq_true, beq_iff_eq, List.isPrefixOf_iff_prefix] at hc
        exact h t List.mem_cons_self s hs hc.1.1 hc.2
    | _ => exact ih

theorem labelled_subject {g : Gr} {ns name s : Text} {l : List Triple} (h : labelled g ns name l = some s) : ∃ t ∈ l, t.s = .iri s := by
  induction l with
  | nil => cases h
  | cons t l ih =>
    rw [labelled] at h
    cases hs : t.s with
    | iri u =>
      rw [hs] at h
      simp only at h
      split at h
      · cases h; exact ⟨t, List.mem_cons_self, hs⟩
      · obtain ⟨x, hx, hh⟩ := ih h
        exact ⟨x, List.mem_cons_of_mem _ hx, hh⟩
    | _ =>
      rw [hs] at h
      obtain ⟨x, hx, hh⟩ := ih h
      exact ⟨x, List.mem_cons_of_mem _ hx, hh⟩

/-- The name of the document's namespace gives the expected IRI. -/
theorem candidate_own {D : Doc} {g h : Gr} (hg : Ready D g) (hx : Ext D g h) (n : Text) : candidate h (base D g) n = base D g ++ n := by
  unfold candidate
  rw [if_neg]
  rw [ext_byLabel hx, byLabel_iff]
  exact hg.notByLabel

theorem candidate_ext {D : Doc} {g h : Gr} (hg : Ready D g) (hx : Ext D g h) {ns : Text} (hns : Plain ns) (ho : ns ≠ D.own) (n : Text) :
    candidate h (nsIri g ns) n = candidate g (nsIri g ns) n := by
  unfold candidate
  rw [ext_byLabel hx]
  obtain ⟨ts, h1, h2⟩ := hx.new
  rw [h1, labelled_append h g, labelled_none (l := ts), Option.or_none]
  intro t ht s hs hp
  rcases (h2 t ht).2 with ⟨m, hm, e⟩ | ⟨k, e⟩ | ⟨u, e, e'⟩
  · rw [hs] at e; cases e
    exact (hg.apart ns hns ho [] m plain_nil hm).2.1
  · rw [hs] at e; cases e
  · rw [hp] at e'; cases e'

theorem subject_ext {D : Doc} {g h : Gr} (hg : Ready D g) (hx : Ext D g h) {ns n : Text} (hns : Plain ns) (hn : Plain n) (ho : ns ≠ D.own) :
    hasSubject h (candidate g (nsIri g ns) n) = hasSubject g (candidate g (nsIri g ns) n) := by
  rw [Bool.eq_iff_iff, hasSubject_iff, hasSubject_iff]
  obtain ⟨ts, h1, h2⟩ := hx.new
  constructor
  · rintro ⟨t, ht, hs⟩
    rw [h1, List.mem_append] at ht
    rcases ht with ht | ht
    · exact ⟨t, ht, hs⟩
    · unfold candidate at hs ⊢
      split at hs
      · rename_i hb
        rw [if_pos hb]
        cases hl : labelled g (nsIri g ns) n g.triples with
        | some s => exact labelled_subject hl
        | none =>
          rw [hl, Option.getD_none] at hs
          rcases (h2 t ht).2 with ⟨m, hm, e⟩ | ⟨k, e⟩ | ⟨u, e, e'⟩
          · rw [hs] at e; injection e with e; exact absurd e (hg.apart ns hns ho n m hn hm).1
          · rw [hs] at e; cases e
          · rw [hs] at e; injection e with e; exact absurd e ((hg.apart ns hns ho n [] hn plain_nil).2.2 u)
      · rename_i hb
        rcases (h2 t ht).2 with ⟨m, hm, e⟩ | ⟨k, e⟩ | ⟨u, e, e'⟩
        · rw [hs] at e; injection e with e; exact absurd e (hg.apart ns hns ho n m hn hm).1
        · rw [hs] at e; cases e
        · rw [hs] at e; injection e with e; exact absurd e ((hg.apart ns hns ho n [] hn plain_nil).2.2 u)
  · rintro ⟨t, ht, hs⟩
    exact ⟨t, ext_mem hx ht, hs⟩

theorem known_ext {D : Doc} {g h : Gr} (hg : Ready D g) (hx : Ext D g h) {ns n : Text} (hns : Plain ns) (hn : Plain n) : known D h ns n = known D g ns n := by
  unfold known
  split
  · rfl
  · rename_i ho
    rw [ext_nsIri hx, candidate_ext hg hx hns ho, subject_ext hg hx hns hn ho]

/-- References mean the same while the graph grows. -/
theorem getIri_ext {D : Doc} {g h : Gr} (hD : Proper D) (hg : Ready D g) (hx : Ext D g h) {ns n : Text} (hns : Plain ns) (hn : Plain n) : getIri D h ns n = getIri D g ns n := by
  unfold getIri
  have hp : Plain (lower (if ns.isEmpty then D.own else ns)) := plain_lower (by split; exact hD.own.2; exact hns)
  generalize lower (if ns.isEmpty then D.own else ns) = s at hp
  have hc : ∀ m, candidate h (nsIri h s) m = candidate g (nsIri g s) m := by
    intro m
    rw [ext_nsIri hx]
    by_cases ho : s = D.own
    · subst ho
      have e1 := candidate_own hg hx m
      have e2 := candidate_own hg (Ext.refl D g) m
      unfold base at e1 e2
      rw [e1, e2]
    · exact candidate_ext hg hx hp ho m
  simp only [hc, known_ext hg hx hp hn]
  cases hk : Names.alt (s == "cuba".toList) n with
  | error e => rw [ext_nsIri hx]
  | ok o =>
    cases o with
    | none => rw [ext_nsIri hx]
    | some a => simp only [known_ext hg hx hp (plain_alt hn hk).1]; rw [ext_nsIri hx]

theorem refers_ext {D : Doc} {g h : Gr} (hD : Proper D) (hg : Ready D g) (hx : Ext D g h) {r : Text} (hr : InDoc D r) : refers D h r = refers D g r := by
  obtain ⟨a, b, rfl, ha, hb, hpa, hpb, _⟩ := hD.refs r hr
  unfold refers
  have : splitName (a ++ '.' :: b) = .ok (lower a, b) := (splitName_iff _ _ _).2 ⟨a, rfl, ha, hb, rfl⟩
  rw [this]
  exact getIri_ext hD hg hx (plain_lower hpa) hpb

theorem lower_lower (t : Text) : lower (lower t) = lower t := by
  unfold lower
  rw [List.map_map]
  exact List.map_congr_left (fun c _ => toLower_idem c)

theorem own_lower (D : Doc) : lower D.own = D.own := lower_lower _

/-- The IRI of an entity of the document. -/
theorem getIri_entity {D : Doc} {g h : Gr} (hD : Proper D) (hg : Ready D g) (hx : Ext D g h) {e : Entity} (he : e ∈ D.entities) :
    getIri D h [] e.name = .ok (iriOf D g e) ∧ getIri D h D.own e.name = .ok (iriOf D g e) := by
  have hne := (hD.names e he).1
  have hk : known D h D.own e.name = true := by
    unfold known
    rw [if_pos rfl, find_isSome]
    exact ⟨e, he, rfl⟩
  have hc : candidate h (nsIri h D.own) e.name = iriOf D g e := by
    rw [ext_nsIri hx]; exact candidate_own hg hx e.name
  have hemp : e.name.isEmpty = false := by
    cases hh : e.name with
    | nil => exact absurd hh hne
    | cons _ _ => rfl
  have hown : D.own.isEmpty = false := by
    cases hh : D.own with
    | nil => exact absurd hh hD.own.1
    | cons _ _ => rfl
  constructor
  · simp only [getIri, List.isEmpty_nil, if_true, own_lower, hemp, Bool.false_eq_true, if_false, hk, hc]
  · simp only [getIri, hown, Bool.false_eq_true, if_false, own_lower, hemp, hk, if_true, hc]

theorem getIri_own {D : Doc} {g h : Gr} (hx : Ext D g h) : getIri D h [] [] = .ok (base D g) := by
  simp only [getIri, List.isEmpty_nil, if_true, own_lower, ext_nsIri hx]
  rfl

/-- What a reference into the document's own namespace means. -/
theorem getIri_inside {D : Doc} {g : Gr} (hD : Proper D) (hg : Ready D g) {n i : Text} (hn : n ≠ []) (hpl : Plain n) (h : getIri D g D.own n = .ok i) :
    ∃ e ∈ D.entities, i = iriOf D g e ∧ ((∃ e' ∈ D.entities, e'.name = n) → e.name = n) := by
  have hown : D.own.isEmpty = false := by
    cases hh : D.own with
    | nil => exact absurd hh hD.own.1
    | cons _ _ => rfl
  have hemp : n.isEmpty = false := by
    cases hh : n with
    | nil => exact absurd hh hn
    | cons _ _ => rfl
  simp only [getIri, hown, Bool.false_eq_true, if_false, own_lower, hemp] at h
  have hc : ∀ m, candidate g (nsIri g D.own) m = base D g ++ m := fun m => candidate_own hg (Ext.refl D g) m
  have hk : ∀ m, known D g D.own m = true ↔ ∃ e ∈ D.entities, e.name = m := by
    intro m; unfold known; rw [if_pos rfl, find_isSome]
  split at h
  · rename_i h1
    obtain ⟨e, he, rfl⟩ := (hk n).1 h1
    rw [hc] at h
    cases h
    exact ⟨e, he, rfl, fun _ => rfl⟩
  · rename_i h1
    split at h
    · cases h
    · cases h
    · rename_i a ha
      split at h
      · rename_i h2
        obtain ⟨e, he, rfl⟩ := (hk _).1 h2
        rw [hc] at h
        cases h
        exact ⟨e, he, rfl, fun hh => absurd ((hk n).2 hh) h1⟩
      · cases h

end Osp.Ymlp
