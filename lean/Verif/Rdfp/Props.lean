import Verif.Rdfp.Binds
import Verif.Names.Resolve
/-!
# RDF packages and restarts (C71, C72)
-/
namespace Osp.Rdfp
open Osp.Yaml (Yaml Entries get)
open Osp.Install (look put)
open Osp.Names (lower Reg)

/-! ### Specification -/

/-- What a package file says. -/
structure Package where
  /-- name and IRI -/
  namespaces : List (Text × Text)
  active : List Text
  default : Option Text
  byLabel : Bool

/-- The documented keys of a package file. -/
def DocumentedKey (k : Yaml) : Prop := k = .str "ontology_file".toList ∨ k = .str "namespaces".toList ∨ k = .str "active_relationships".toList ∨ k = .str "default_relationship".toList ∨
  k = .str "identifier".toList ∨ k = .str "format".toList ∨ k = .str "reference_by_label".toList

/-- The package file says `P`. The keys for relationships and for labels may be left out. -/
structure Says (doc : Entries) (P : Package) : Prop where
  namespaces : get doc "namespaces".toList = some (.dict (P.namespaces.map (fun e => (.str e.1, .str e.2))))
  active : get doc "active_relationships".toList = some (.list (P.active.map .str)) ∨ (get doc "active_relationships".toList = none ∧ P.active = [])
  default : get doc "default_relationship".toList = P.default.map .str ∨ (get doc "default_relationship".toList = some .null ∧ P.default = none)
  byLabel : get doc "reference_by_label".toList = some (.bool P.byLabel) ∨ (get doc "reference_by_label".toList = none ∧ P.byLabel = false)
  keys : ∀ e ∈ doc, DocumentedKey e.1

/-- The IRI of a namespace: as given, with a hash at the end unless it ends with a hash or a slash. -/
def NamespaceIri (given i : Text) : Prop :=
  (i = given ∧ ((∃ u, given = u ++ ['#']) ∨ ∃ u, given = u ++ ['/'])) ∨ (i = given ++ ['#'] ∧ ¬ ((∃ u, given = u ++ ['#']) ∨ ∃ u, given = u ++ ['/']))

/-- The triples a package adds to those of its file. -/
inductive Adds (P : Package) : Triple → Prop where
  | active (r : Text) : r ∈ P.active → Adds P ⟨.iri r, subPropertyOf, .iri activeRelationship⟩
  | default (e : Text × Text) (i d : Text) : e ∈ P.namespaces → NamespaceIri e.2 i → P.default = some d → Adds P ⟨.iri i, defaultRel, .iri d⟩
  | byLabel (e : Text × Text) (i : Text) : e ∈ P.namespaces → NamespaceIri e.2 i → P.byLabel = true → Adds P ⟨.iri i, referenceByLabel, .yes⟩

/-- The text is the IRI of a relationship in these triples. -/
def IsRel (ts : List Triple) (r : Text) : Prop := ⟨.iri r, rdfType, .iri objectProperty⟩ ∈ ts

/-! ### Lemmas -/

theorem withHash_spec (i : Text) : NamespaceIri i (withHash i) := by
  unfold NamespaceIri withHash
  split
  all_goals (rename_i h; rw [Bool.or_eq_true, endsWith_iff, endsWith_iff] at h)
  · exact Or.inl ⟨rfl, h⟩
  · exact Or.inr ⟨rfl, h⟩

theorem namespaceIri_iff {g i : Text} : NamespaceIri g i ↔ i = withHash g := by
  constructor
  · intro h
    have h2 := withHash_spec g
    unfold NamespaceIri at h h2
    rcases h with ⟨h, c⟩ | ⟨h, c⟩ <;> rcases h2 with ⟨h2, c2⟩ | ⟨h2, c2⟩
    · rw [h, h2]
    · exact absurd c c2
    · exact absurd c2 c
    · rw [h, h2]
  · rintro rfl; exact withHash_spec g

theorem withHash_ne (i : Text) : withHash i ≠ [] := by
  unfold withHash
  split
  · rename_i h
    rw [Bool.or_eq_true, endsWith_iff, endsWith_iff] at h
    rcases h with ⟨u, rfl⟩ | ⟨u, rfl⟩ <;> simp
  · simp

theorem mem_add {g : Gr} {t x : Triple} : x ∈ (g.add t).triples ↔ x ∈ g.triples ∨ x = t := by
  unfold Gr.add
  split
  · rename_i h
    constructor
    · exact Or.inl
    · rintro (h1 | rfl)
      · exact h1
      · exact h
  · rw [List.mem_append, List.mem_singleton]

theorem add_binds (g : Gr) (t : Triple) : (g.add t).binds = g.binds := by unfold Gr.add; split <;> rfl

theorem add_nodup {g : Gr} {t : Triple} (h : g.triples.Nodup) : (g.add t).triples.Nodup := by
  unfold Gr.add
  split
  · exact h
  · rename_i hn
    exact List.nodup_append.2 ⟨h, by simp, fun a ha b hb => by rw [List.mem_singleton] at hb; subst hb; intro e; exact hn (e ▸ ha)⟩

/-- Adding the triples `f x`. -/
theorem fold_add {α : Type} (f : α → Triple) (l : List α) : ∀ g : Gr, (∀ x, x ∈ (l.foldl (fun g a => g.add (f a)) g).triples ↔ x ∈ g.triples ∨ ∃ a ∈ l, x = f a) ∧
    (l.foldl (fun g a => g.add (f a)) g).binds = g.binds ∧ (g.triples.Nodup → (l.foldl (fun g a => g.add (f a)) g).triples.Nodup) := by
  induction l with
  | nil => intro g; simp
  | cons a l ih =>
    intro g
    obtain ⟨h1, h2, h3⟩ := ih (g.add (f a))
    refine ⟨fun x => ?_, ?_, fun hn => h3 (add_nodup hn)⟩
    · rw [List.foldl_cons, h1, mem_add]
      simp only [List.mem_cons, exists_eq_or_imp]
      rw [or_assoc]
    · rw [List.foldl_cons, h2, add_binds]

theorem fold_ids (l : List Triple) (g : Gr) : l.foldl Gr.add g = l.foldl (fun g a => g.add (id a)) g := rfl

theorem knownKey_iff (k : Yaml) : knownKey k = true ↔ DocumentedKey k := by
  unfold knownKey DocumentedKey
  cases k <;> simp [allKeys]
  constructor <;> intro h
  · rcases h with h | h | h | h | h | h | h <;> simp [← h]
  · rcases h with h | h | h | h | h | h | h <;> simp [h]

theorem bindAll_ok : ∀ (l : List (Text × Text)) (b : Binds),
    bindAll b (l.map (fun e => ((.str e.1 : Yaml), (.str e.2 : Yaml)))) = (l.foldl (fun b e => b.bind e.1 (withHash e.2)) b, .ok (l.map (fun e => withHash e.2)))
  | [], b => rfl
  | e :: l, b => by
    simp only [List.map_cons, bindAll, bindAll_ok l, List.foldl_cons]

/-- The relationships that are made active before the first that is none. -/
theorem addActive_ok : ∀ (l : List Text) (g : Gr), (∀ r ∈ l, IsRel g.triples r) →
    addActive g (l.map .str) = (l.foldl (fun g r => g.add ⟨.iri r, subPropertyOf, .iri activeRelationship⟩) g, none)
  | [], g, _ => rfl
  | r :: l, g, h => by
    have h1 : ⟨.iri r, rdfType, .iri objectProperty⟩ ∈ g.triples := h r (by simp)
    rw [List.map_cons, addActive, if_pos h1, addActive_ok l, List.foldl_cons]
    intro x hx
    exact mem_add.2 (Or.inl (h x (by simp [hx])))

theorem type_ne : rdfType ≠ subPropertyOf := by decide

theorem isRel_add {g : Gr} {r x : Text} : IsRel (g.add ⟨.iri r, subPropertyOf, .iri activeRelationship⟩).triples x ↔ IsRel g.triples x := by
  unfold IsRel
  rw [mem_add]
  constructor
  · rintro (h | h)
    · exact h
    · exact absurd (congrArg Triple.p h) type_ne
  · exact Or.inl

theorem addActive_bad : ∀ (l m : List Text) (r : Text) (g : Gr), (∀ r ∈ l, IsRel g.triples r) → ¬ IsRel g.triples r →
    addActive g ((l ++ r :: m).map .str) = (l.foldl (fun g r => g.add ⟨.iri r, subPropertyOf, .iri activeRelationship⟩) g, some .valueError)
  | [], m, r, g, _, hr => by
    have hr' : ¬ ⟨.iri r, rdfType, .iri objectProperty⟩ ∈ g.triples := hr
    rw [List.nil_append, List.map_cons, addActive, if_neg hr']; rfl
  | x :: l, m, r, g, h, hr => by
    have h1 : ⟨.iri x, rdfType, .iri objectProperty⟩ ∈ g.triples := h x (by simp)
    rw [List.cons_append, List.map_cons, addActive, if_pos h1, addActive_bad l m r, List.foldl_cons]
    · intro y hy
      exact isRel_add.2 (h y (by simp [hy]))
    · intro k; exact hr (isRel_add.1 k)

theorem says_known {doc : Entries} {P : Package} (h : Says doc P) : doc.any (fun e => !knownKey e.1) = false := by
  rw [List.any_eq_false]
  intro e he
  rw [(knownKey_iff e.1).2 (h.keys e he)]
  simp

theorem says_iterate {doc : Entries} {P : Package} (h : Says doc P) : iterate ((get doc "active_relationships".toList).getD (.list [])) = some (P.active.map .str) := by
  rcases h.active with h | ⟨h, h2⟩
  · rw [h]; rfl
  · rw [h, h2]; rfl

theorem says_default {doc : Entries} {P : Package} (h : Says doc P) (g : Gr) (iris : List Text) :
    ∃ g', addDefault g iris (get doc "default_relationship".toList) = (g', none) ∧ g'.binds = g.binds ∧ (g.triples.Nodup → g'.triples.Nodup) ∧
      ∀ t, t ∈ g'.triples ↔ t ∈ g.triples ∨ ∃ i ∈ iris, ∃ d, P.default = some d ∧ t = ⟨.iri i, defaultRel, .iri d⟩ := by
  have none_case : P.default = none → ∀ t, t ∈ g.triples ↔ t ∈ g.triples ∨ ∃ i ∈ iris, ∃ d, P.default = some d ∧ t = ⟨.iri i, defaultRel, .iri d⟩ := by
    intro e t
    rw [e]
    simp
  rcases h.default with h | ⟨h, h2⟩
  · rw [h]
    cases e : P.default with
    | none => rw [e] at none_case; exact ⟨g, rfl, rfl, id, none_case rfl⟩
    | some d =>
      obtain ⟨h1, h2, h3⟩ := fold_add (fun i => (⟨.iri i, defaultRel, .iri d⟩ : Triple)) iris g
      refine ⟨_, rfl, h2, h3, fun t => ?_⟩
      rw [h1]
      simp
  · rw [h]
    exact ⟨g, rfl, rfl, id, none_case h2⟩

theorem addStyle_ok (g : Gr) (iris : List Text) (by_ : Bool) : (addStyle g iris by_).binds = g.binds ∧ (g.triples.Nodup → (addStyle g iris by_).triples.Nodup) ∧
    ∀ t, t ∈ (addStyle g iris by_).triples ↔ t ∈ g.triples ∨ (by_ = true ∧ ∃ i ∈ iris, t = ⟨.iri i, referenceByLabel, .yes⟩) := by
  unfold addStyle
  cases by_ with
  | false => simp
  | true =>
    obtain ⟨h1, h2, h3⟩ := fold_add (fun i => (⟨.iri i, referenceByLabel, .yes⟩ : Triple)) iris g
    exact ⟨h2, h3, fun t => by rw [if_pos rfl, h1]; simp⟩

theorem says_label {doc : Entries} {P : Package} (h : Says doc P) : ((get doc "reference_by_label".toList).map Ymlp.truth).getD false = P.byLabel := by
  rcases h.byLabel with h | ⟨h, h2⟩
  · rw [h]; rfl
  · rw [h, h2]; rfl

/-! ### C71 -/

/-- **C71.** A package whose active relationships are relationships of the ontology (or of the ontologies installed before) is parsed: the graph gets exactly the triples of the file and those
the package file says, the namespaces are bound one after the other, and nothing is lost. -/
theorem rdf_exact (g : Gr) {doc : Entries} {P : Package} (hP : Says doc P) {identifier : Text} (hid : '.' ∉ identifier) (ts : List Triple)
    (ha : ∀ r ∈ P.active, IsRel g.triples r ∨ IsRel ts r) :
    ∃ g', parseRdf g doc identifier (some ts) = (g', none) ∧ (∀ t, t ∈ g'.triples ↔ t ∈ g.triples ∨ t ∈ ts ∨ Adds P t) ∧ (g.triples.Nodup → g'.triples.Nodup) ∧
      g'.binds = P.namespaces.foldl (fun b e => b.bind e.1 (withHash e.2)) g.binds := by
  obtain ⟨f1, f2, f3⟩ := fold_add id ts g
  rw [← fold_ids] at f1 f2 f3
  generalize hg1 : ts.foldl Gr.add g = g1 at f1 f2 f3
  have f1' : ∀ x, x ∈ g1.triples ↔ x ∈ g.triples ∨ x ∈ ts := fun x => by rw [f1]; simp
  generalize hg2 : (⟨g1.triples, P.namespaces.foldl (fun b e => b.bind e.1 (withHash e.2)) g1.binds⟩ : Gr) = g2
  have hact := addActive_ok P.active g2 (fun r hr => by
    subst hg2
    show ⟨.iri r, rdfType, .iri objectProperty⟩ ∈ g1.triples
    rw [f1']
    exact ha r hr)
  obtain ⟨a1, a2, a3⟩ := fold_add (fun r => (⟨.iri r, subPropertyOf, .iri activeRelationship⟩ : Triple)) P.active g2
  generalize hg3 : P.active.foldl (fun g r => g.add ⟨.iri r, subPropertyOf, .iri activeRelationship⟩) g2 = g3 at hact a1 a2 a3
  obtain ⟨g4, d0, d1, d2, d3⟩ := says_default hP g3 (P.namespaces.map (fun e => withHash e.2))
  obtain ⟨s1, s2, s3⟩ := addStyle_ok g4 (P.namespaces.map (fun e => withHash e.2)) P.byLabel
  refine ⟨addStyle g4 (P.namespaces.map (fun e => withHash e.2)) P.byLabel, ?_, ?_, ?_, ?_⟩
  · unfold parseRdf
    rw [if_neg hid, hP.namespaces]
    simp only [says_known hP, Bool.false_eq_true, if_false, hg1, bindAll_ok, says_iterate hP]
    have : ({ g1 with binds := P.namespaces.foldl (fun b e => b.bind e.1 (withHash e.2)) g1.binds } : Gr) = g2 := hg2
    rw [this, hact]
    simp only [d0, says_label hP]
  · intro t
    rw [s3, d3, a1]
    have : t ∈ g2.triples ↔ t ∈ g.triples ∨ t ∈ ts := by rw [← hg2]; exact f1' t
    rw [this]
    constructor
    · rintro ((((h | h) | ⟨r, hr, rfl⟩) | ⟨i, hi, d, hd, rfl⟩) | ⟨hb, i, hi, rfl⟩)
      · exact Or.inl h
      · exact Or.inr (Or.inl h)
      · exact Or.inr (Or.inr (.active r hr))
      · obtain ⟨e, he, rfl⟩ := List.mem_map.1 hi
        exact Or.inr (Or.inr (.default e _ d he (withHash_spec _) hd))
      · obtain ⟨e, he, rfl⟩ := List.mem_map.1 hi
        exact Or.inr (Or.inr (.byLabel e _ he (withHash_spec _) hb))
    · rintro (h | h | h)
      · exact Or.inl (Or.inl (Or.inl (Or.inl h)))
      · exact Or.inl (Or.inl (Or.inl (Or.inr h)))
      · cases h with
        | active r hr => exact Or.inl (Or.inl (Or.inr ⟨r, hr, rfl⟩))
        | default e i d he hi hd =>
          rw [namespaceIri_iff] at hi; subst hi
          exact Or.inl (Or.inr ⟨_, List.mem_map.2 ⟨e, he, rfl⟩, d, hd, rfl⟩)
        | byLabel e i he hi hb =>
          rw [namespaceIri_iff] at hi; subst hi
          exact Or.inr ⟨hb, _, List.mem_map.2 ⟨e, he, rfl⟩, rfl⟩
  · intro hn
    refine s2 (d2 (a3 ?_))
    rw [← hg2]
    exact f3 hn
  · rw [s1, d1, a2, ← hg2, ← f2]

/-- **C71.** A package with an active relationship that is none is refused with ValueError. The triples of the file, the namespaces and the active relationships before it are in the graph already. -/
theorem rdf_refused (g : Gr) {doc : Entries} {P : Package} (hP : Says doc P) {identifier : Text} (hid : '.' ∉ identifier) (ts : List Triple)
    (l m : List Text) (r : Text) (hl : P.active = l ++ r :: m) (hok : ∀ x ∈ l, IsRel g.triples x ∨ IsRel ts x) (hr : ¬ IsRel g.triples r ∧ ¬ IsRel ts r) :
    ∃ g', parseRdf g doc identifier (some ts) = (g', some .valueError) ∧
      (∀ t, t ∈ g'.triples ↔ t ∈ g.triples ∨ t ∈ ts ∨ ∃ x ∈ l, t = ⟨.iri x, subPropertyOf, .iri activeRelationship⟩) ∧
      g'.binds = P.namespaces.foldl (fun b e => b.bind e.1 (withHash e.2)) g.binds := by
  obtain ⟨f1, f2, _⟩ := fold_add id ts g
  rw [← fold_ids] at f1 f2
  generalize hg1 : ts.foldl Gr.add g = g1 at f1 f2
  have f1' : ∀ x, x ∈ g1.triples ↔ x ∈ g.triples ∨ x ∈ ts := fun x => by rw [f1]; simp
  generalize hg2 : (⟨g1.triples, P.namespaces.foldl (fun b e => b.bind e.1 (withHash e.2)) g1.binds⟩ : Gr) = g2
  have hm : ∀ t, t ∈ g2.triples ↔ t ∈ g.triples ∨ t ∈ ts := fun t => by rw [← hg2]; exact f1' t
  have hact := addActive_bad l m r g2 (fun x hx => (hm _).2 (hok x hx)) (fun k => by
    rcases (hm _).1 k with k | k
    · exact hr.1 k
    · exact hr.2 k)
  obtain ⟨a1, a2, _⟩ := fold_add (fun r => (⟨.iri r, subPropertyOf, .iri activeRelationship⟩ : Triple)) l g2
  refine ⟨_, ?_, ?_, a2.trans (by rw [← hg2, ← f2])⟩
  · unfold parseRdf
    rw [if_neg hid, hP.namespaces]
    simp only [says_known hP, Bool.false_eq_true, if_false, hg1, bindAll_ok, says_iterate hP]
    have : ({ g1 with binds := P.namespaces.foldl (fun b e => b.bind e.1 (withHash e.2)) g1.binds } : Gr) = g2 := hg2
    rw [this, hl, hact]
  · intro t
    rw [a1, hm, or_assoc]

/-- **C71.** Exactly the packages without a dot in the identifier, with a readable file, and with relationships as active relationships are parsed. -/
theorem rdf_parsed_iff (g : Gr) {doc : Entries} {P : Package} (hP : Says doc P) (identifier : Text) (file : Option (List Triple)) :
    (parseRdf g doc identifier file).2 = none ↔ '.' ∉ identifier ∧ ∃ ts, file = some ts ∧ ∀ r ∈ P.active, IsRel g.triples r ∨ IsRel ts r := by
  constructor
  · intro h
    have hid : '.' ∉ identifier := by
      intro k
      unfold parseRdf at h
      rw [if_pos k] at h
      cases h
    refine ⟨hid, ?_⟩
    cases file with
    | none =>
      unfold parseRdf at h
      rw [if_neg hid, hP.namespaces] at h
      simp only [says_known hP, Bool.false_eq_true, if_false] at h
      cases h
    | some ts =>
      refine ⟨ts, rfl, ?_⟩
      have key : ∀ (m l : List Text), P.active = l ++ m → (∀ x ∈ l, IsRel g.triples x ∨ IsRel ts x) → ∀ x ∈ m, IsRel g.triples x ∨ IsRel ts x := by
        intro m
        induction m with
        | nil => intro l _ _ x hx; cases hx
        | cons r m ih =>
          intro l hl hok
          have hr : IsRel g.triples r ∨ IsRel ts r := by
            by_cases h1 : IsRel g.triples r
            · exact Or.inl h1
            · by_cases h2 : IsRel ts r
              · exact Or.inr h2
              · obtain ⟨g', e, _⟩ := rdf_refused g hP hid ts l m r hl hok ⟨h1, h2⟩
                rw [e] at h; cases h
          have := ih (l ++ [r]) (by rw [hl]; simp) (by
            intro x hx
            rcases List.mem_append.1 hx with hx | hx
            · exact hok x hx
            · rw [List.mem_singleton] at hx; subst hx; exact hr)
          intro x hx
          rcases List.mem_cons.1 hx with rfl | hx
          · exact hr
          · exact this x hx
      exact key P.active [] rfl (by simp)
  · rintro ⟨hid, ts, rfl, ha⟩
    obtain ⟨g', e, _⟩ := rdf_exact g hP hid ts ha
    rw [e]

/-- **C71.** Which exception an invalid package file raises: a ValueError for a dot in the identifier; else a TypeError if the namespaces are missing or a key is not known; else the
exception of reading the file. -/
theorem rdf_invalid_error (g : Gr) (doc : Entries) (identifier : Text) (file : Option (List Triple)) :
    ('.' ∈ identifier → parseRdf g doc identifier file = (g, some .valueError)) ∧
    ('.' ∉ identifier → get doc "namespaces".toList = none ∨ (∃ e ∈ doc, ¬ DocumentedKey e.1) → parseRdf g doc identifier file = (g, some .typeError)) ∧
    ('.' ∉ identifier → get doc "namespaces".toList ≠ none → (∀ e ∈ doc, DocumentedKey e.1) → file = none → parseRdf g doc identifier file = (g, some .exception)) := by
  unfold parseRdf
  refine ⟨fun h => by rw [if_pos h], fun h hb => ?_, fun h hn hk hf => ?_⟩
  · rw [if_neg h]
    cases hn : get doc "namespaces".toList with
    | none => rfl
    | some nss =>
      rcases hb with hb | ⟨e, he, hd⟩
      · rw [hn] at hb; cases hb
      · have : doc.any (fun e => !knownKey e.1) = true := by
          rw [List.any_eq_true]
          refine ⟨e, he, ?_⟩
          cases hx : knownKey e.1 with
          | true => exact absurd ((knownKey_iff e.1).1 hx) hd
          | false => rfl
        simp only [this, if_true]
  · rw [if_neg h]
    cases hn' : get doc "namespaces".toList with
    | none => exact absurd hn' hn
    | some nss =>
      have : doc.any (fun e => !knownKey e.1) = false := by
        rw [List.any_eq_false]
        intro e he
        rw [(knownKey_iff e.1).2 (hk e he)]
        decide
      subst hf
      simp only [this, Bool.false_eq_true, if_false]

/-- **C71.** A package file without namespaces, with an unknown key or for a file that cannot be read is refused, and the graph is unchanged. -/
theorem rdf_invalid_unchanged (g : Gr) (doc : Entries) (identifier : Text) (file : Option (List Triple))
    (h : '.' ∈ identifier ∨ get doc "namespaces".toList = none ∨ (∃ e ∈ doc, ¬ DocumentedKey e.1) ∨ file = none) :
    ∃ e, parseRdf g doc identifier file = (g, some e) := by
  unfold parseRdf
  by_cases hid : '.' ∈ identifier
  · rw [if_pos hid]; exact ⟨_, rfl⟩
  · rw [if_neg hid]
    cases hn : get doc "namespaces".toList with
    | none => exact ⟨_, rfl⟩
    | some nss =>
      by_cases hk : doc.any (fun e => !knownKey e.1) = true
      · simp only [hk, if_true]; exact ⟨_, rfl⟩
      · simp only [hk, Bool.false_eq_true, if_false]
        rcases h with h | h | ⟨e, he, h⟩ | h
        · exact absurd h hid
        · rw [hn] at h; cases h
        · exfalso
          apply hk
          rw [List.any_eq_true]
          refine ⟨e, he, ?_⟩
          cases hx : knownKey e.1 with
          | true => exact absurd ((knownKey_iff e.1).1 hx) h
          | false => rfl
        · subst h; exact ⟨_, rfl⟩

theorem foldl_reached (l : List (Text × Text)) : ∀ b : Binds, b.Reached → (l.foldl (fun b e => b.bind e.1 (withHash e.2)) b).Reached := by
  induction l with
  | nil => exact fun b h => h
  | cons e l ih => exact fun b h => ih _ (.bind b e.1 _ true h (withHash_ne _))

/-- **C71.** The names after a package: if none of its names stands for another IRI, exactly its namespaces are added, under their names. -/
theorem package_names {b : Binds} (h : b.Reached) (l : List (Text × Text)) (hfree : ∀ e ∈ l, ∀ j, b.Named e.1 j → NamespaceIri e.2 j)
    (hd : ∀ e ∈ l, ∀ e' ∈ l, e.1 = e'.1 → withHash e.2 = withHash e'.2) :
    ∀ p i, (l.foldl (fun b e => b.bind e.1 (withHash e.2)) b).Named p i ↔ b.Named p i ∨ ∃ e ∈ l, p = e.1 ∧ NamespaceIri e.2 i := by
  induction l generalizing b with
  | nil => intro p i; simp
  | cons e l ih =>
    intro p i
    obtain ⟨q, hq, hb⟩ := bind_exact h e.1 (withHash e.2) (withHash_ne _)
    have hqe : q = e.1 := by
      rcases hq with ⟨_, rfl⟩ | ⟨⟨j, hj, hne⟩, _⟩
      · rfl
      · exact absurd (namespaceIri_iff.1 (hfree e (by simp) j hj)) hne
    subst hqe
    rw [List.foldl_cons, ih (.bind b e.1 _ true h (withHash_ne _)), hb]
    · constructor
      · rintro ((h1 | ⟨rfl, rfl⟩) | ⟨e', he', h1⟩)
        · exact Or.inl h1
        · exact Or.inr ⟨e, by simp, rfl, withHash_spec _⟩
        · exact Or.inr ⟨e', by simp [he'], h1⟩
      · rintro (h1 | ⟨e', he', h1, h2⟩)
        · exact Or.inl (Or.inl h1)
        · rcases List.mem_cons.1 he' with rfl | he'
          · exact Or.inl (Or.inr ⟨h1, namespaceIri_iff.1 h2⟩)
          · exact Or.inr ⟨e', he', h1, h2⟩
    · intro e' he' j hj
      rw [hb] at hj
      rcases hj with hj | ⟨h1, rfl⟩
      · exact hfree e' (by simp [he']) j hj
      · rw [namespaceIri_iff]
        exact hd e (by simp) e' (by simp [he']) h1.symm
    · intro x hx y hy
      exact hd x (by simp [hx]) y (by simp [hy])

/-! ### the registry -/

/-- The registry after `update_namespaces` finds a namespace by its name (in any case), if no other name of the same letters stands for another IRI. -/
theorem registry_get {b : Binds} (R : Reg) (hR : R.binds = b.ns) {n i : Text} (hn : b.Named n i) (hu : ∀ p j, b.Named p j → lower p = lower n → j = i) :
    ∃ N, R.update.get n = .ok N ∧ N.name = lower n ∧ N.iri = i := by
  have hf : R.update.find (lower n) = some i := by
    unfold Reg.find Reg.update
    dsimp only
    have hs : ((R.binds.map (fun b => (lower b.1, b.2))).reverse.find? (fun b => b.1 = lower n)).isSome := by
      rw [List.find?_isSome]
      exact ⟨(lower n, i), by rw [List.mem_reverse, List.mem_map]; exact ⟨(n, i), by rw [hR]; exact hn, rfl⟩, by simp⟩
    obtain ⟨v, hv⟩ := Option.isSome_iff_exists.1 hs
    rw [hv]
    have h1 := List.mem_of_find?_eq_some hv
    have h2 := List.find?_some hv
    rw [List.mem_reverse, List.mem_map] at h1
    obtain ⟨c, hc, rfl⟩ := h1
    rw [hR] at hc
    rw [Option.map_some, hu c.1 c.2 hc (by simpa using h2)]
  unfold Reg.get
  rw [hf]
  exact ⟨_, rfl, rfl, rfl⟩

end Osp.Rdfp
