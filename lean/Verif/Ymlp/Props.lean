import Verif.Ymlp.Third
/-!
# C67 - C70: what parsing a YAML ontology adds to the graph, when it succeeds, and that the order of the entities does not matter
-/
namespace Osp.Ymlp
open Osp.Yaml (Yaml)

theorem nsIri_bindOwn (D : Doc) (g : Gr) (ns : Text) : nsIri (bindOwn D g) ns = nsIri g ns := by
  unfold bindOwn
  split
  · rfl
  · rename_i hb
    unfold nsIri
    rw [List.find?_append]
    cases hf : g.binds.find? (fun b => b.1 == ns) with
    | some b => rfl
    | none =>
      by_cases ho : D.own = ns
      · subst ho
        simp only [Option.none_or, List.find?_cons, beq_self_eq_true]
        rw [hf]
      · simp only [Option.none_or, List.find?_cons, List.find?_nil, show (D.own == ns) = false from by simpa using ho]

theorem bindOwn_ext (D : Doc) (g : Gr) : Ext D g (bindOwn D g) ∧ (bindOwn D g).triples = g.triples ∧ (bindOwn D g).next = g.next := by
  have : (bindOwn D g).triples = g.triples ∧ (bindOwn D g).next = g.next := by unfold bindOwn; split <;> exact ⟨rfl, rfl⟩
  exact ⟨⟨nsIri_bindOwn D g, [], by rw [this.1, List.append_nil], fun t ht => by cases ht⟩, this⟩

theorem bindOwn_tame (D : Doc) (g : Gr) : Tame D g (bindOwn D g) := by
  refine ⟨(bindOwn_ext D g).1, fun i k _ h => Or.inl ?_⟩
  unfold hasType at h ⊢
  rw [(bindOwn_ext D g).2.1] at h
  exact h

/-- The own namespace is bound afterwards, and the bindings there were before stay. -/
theorem bindOwn_binds (D : Doc) (g : Gr) : (D.own, base D g) ∈ (bindOwn D g).binds ∨ ∃ i, (D.own, i) ∈ g.binds := by
  unfold bindOwn
  split
  · rename_i h
    right
    rw [List.any_eq_true] at h
    obtain ⟨b, hb, he⟩ := h
    rw [beq_iff_eq] at he
    exact ⟨b.2, he ▸ hb⟩
  · exact Or.inl (List.mem_append_right _ List.mem_cons_self)

theorem zip_mem {D : Doc} {ks : List Kind} (hz : (D.entities.zip ks).map (·.1) = D.entities) : (∀ p ∈ D.entities.zip ks, p.1 ∈ D.entities) ∧ ∀ e ∈ D.entities, ∃ k, (e, k) ∈ D.entities.zip ks := by
  constructor
  · intro p hp; rw [← hz]; exact List.mem_map.2 ⟨p, hp, rfl⟩
  · intro e he
    rw [← hz] at he
    obtain ⟨p, hp, rfl⟩ := List.mem_map.1 he
    exact ⟨p.2, hp⟩

/-- What the first two loops and the default relationship say is what the document says. -/
theorem says_iff {D : Doc} {g : Gr} {ks : List Kind} (hk : ∀ p ∈ D.entities.zip ks, IsKind D g p.1 p.2) (hz : (D.entities.zip ks).map (·.1) = D.entities) (t : Triple) :
    ((∃ e ∈ D.entities, LoadSays D g e t) ∨ DefaultSays D g t) ∨ (∃ p ∈ D.entities.zip ks, SecondSays D g p.1 p.2 t) ↔ Says D g t := by
  obtain ⟨z1, z2⟩ := zip_mem hz
  constructor
  · rintro ((⟨e, he, h⟩ | ⟨r, i, h1, h2, rfl⟩) | ⟨⟨e, k⟩, hp, h⟩)
    · cases h with
      | label => exact .label he
      | description hd => exact .description he hd
      | type hi => exact .type he hi
      | @super b r i hb hr hi =>
        obtain ⟨k, hkz⟩ := z2 e he
        have hek := hk _ hkz
        cases b with
        | true =>
          have hcl : Kind.class_ = k := (hek .class_).1 (hb.1 rfl)
          subst hcl
          exact .subClass he hek hr hi
        | false =>
          refine .subProperty he hek (fun h => ?_) hr hi
          have := hb.2 ((hek .class_).2 h.symm)
          cases this
    · exact .defaultThere h1 h2
    · have he := z1 _ hp
      have hek := hk _ hp
      simp only at h he hek
      cases h with
      | inverse h1 h2 => exact .inverse he hek h1 h2
      | default h1 => exact .defaultHere he hek h1
      | range h1 h2 => exact .range he hek h1 h2
      | datatype h1 h2 h3 => exact .datatype he hek h1 h2 h3
  · intro h
    have kind : ∀ {e : Entity} {k : Kind}, e ∈ D.entities → IsKind D g e k → (e, k) ∈ D.entities.zip ks := by
      intro e k he hek
      obtain ⟨k', hk'⟩ := z2 e he
      rw [isKind_unique hek (hk _ hk')]
      exact hk'
    cases h with
    | label he => exact Or.inl (Or.inl ⟨_, he, .label⟩)
    | description he hd => exact Or.inl (Or.inl ⟨_, he, .description hd⟩)
    | type he hi => exact Or.inl (Or.inl ⟨_, he, .type hi⟩)
    | subClass he hek hr hi => exact Or.inl (Or.inl ⟨_, he, .super (b := true) ⟨fun _ => (hek .class_).2 rfl, fun _ => rfl⟩ hr hi⟩)
    | subProperty he hek hne hr hi =>
      exact Or.inl (Or.inl ⟨_, he, .super (b := false) ⟨fun h => (by cases h), fun h => absurd ((hek .class_).1 h).symm hne⟩ hr hi⟩)
    | inverse he hek h1 h2 => exact Or.inr ⟨_, kind he hek, .inverse h1 h2⟩
    | range he hek h1 h2 => exact Or.inr ⟨_, kind he hek, .range h1 h2⟩
    | datatype he hek h1 h2 h3 => exact Or.inr ⟨_, kind he hek, .datatype h1 h2 h3⟩
    | defaultHere he hek h1 => exact Or.inr ⟨_, kind he hek, .default h1⟩
    | defaultThere h1 h2 => exact Or.inl (Or.inr ⟨_, _, h1, h2, rfl⟩)

theorem checkOccurrence_iff (D : Doc) : checkOccurrence D = .ok () ↔ (if D.defaultRel.isSome then 1 else 0) + (D.entities.filter (fun e => e.defaultRel.isSome)).length ≤ 1 := by
  unfold checkOccurrence
  generalize (if D.defaultRel.isSome then 1 else 0) + (D.entities.filter (fun e => e.defaultRel.isSome)).length = n
  by_cases h : 1 < n
  · rw [if_pos h]
    exact ⟨fun h => (by cases h), fun h => (by omega)⟩
  · rw [if_neg h]
    exact ⟨fun _ => (by omega), fun _ => rfl⟩

/-- The steps of a successful run. -/
theorem parse_steps {E : Env} {D : Doc} {g g' : Gr} (hD : Proper D) (hg : Ready D g) {fuel : Nat} (h : parseOntology E fuel D g = .ok g') :
    ∃ ks h3, (∀ p ∈ D.entities.zip ks, IsKind D g p.1 p.2 ∧ Valid E p.1 p.2) ∧ (D.entities.zip ks).map (·.1) = D.entities ∧ (∀ e ∈ D.entities, Loadable D g e) ∧
      checkOccurrence D = .ok () ∧ DefaultOk E D g ∧ (∀ p ∈ D.entities.zip ks, SecondOk D g p.1 p.2) ∧ (∀ p ∈ D.entities.zip ks, p.2 = .class_ → AttrOk D g (p.1.attributes.getD [])) ∧
      Adds (bindOwn D g) h3 (Says D g) ∧ Grown h3 g' (declared D g) := by
  unfold parseOntology at h
  simp only [bind_ok] at h
  obtain ⟨⟨h1, ks⟩, w1, ⟨⟩, w2, h2, w3, h3, w4, w5⟩ := h
  obtain ⟨a1, t1, k1, z1, l1⟩ := loadAll_ok hD hg (fun e he => he) (bindOwn_tame D g) w1
  obtain ⟨a2, t2, d2⟩ := defaultRelOfDoc_ok hD hg t1 w3
  obtain ⟨a3, t3, o3⟩ := secondLoop_ok hD hg (zip_mem z1).1 t2 w4
  obtain ⟨g4, o4⟩ := thirdLoop_ok hD hg (zip_mem z1).1 t3 w5
  rw [entries_declared (fun p hp => (k1 p hp).1) z1] at g4
  exact ⟨ks, h3, k1, z1, l1, w2, d2, o3, o4, ((a1.trans a2).trans a3).congr (says_iff (fun p hp => (k1 p hp).1) z1), g4⟩

/-- C67: parsing adds exactly the triples that the document stands for. -/
theorem parse_exact {E : Env} {D : Doc} {g g' : Gr} (hD : Proper D) (hg : Ready D g) {fuel : Nat} (h : parseOntology E fuel D g = .ok g') :
    ∃ made, Made D g made ∧ ∀ t, t ∈ g'.triples ↔ t ∈ g.triples ∨ Says D g t ∨ ∃ m ∈ made, AttrSays m.1 m.2 t := by
  obtain ⟨ks, h3, _, _, _, _, _, _, _, a, gr⟩ := parse_steps hD hg h
  have hnext : h3.next = g.next := a.next.trans (bindOwn_ext D g).2.2
  refine ⟨number g.next (declared D g), ⟨number_fst _ _, number_ge _ _, number_apart _ _⟩, fun t => ?_⟩
  rw [gr.triples, List.mem_append, a.mem, (bindOwn_ext D g).2.1, List.mem_flatMap, hnext]
  simp only [attrSays_iff]
  rw [or_assoc]

/-- Nothing that was in the graph is lost. -/
theorem parse_keeps {E : Env} {D : Doc} {g g' : Gr} (hD : Proper D) (hg : Ready D g) {fuel : Nat} (h : parseOntology E fuel D g = .ok g') : ∀ t ∈ g.triples, t ∈ g'.triples := by
  obtain ⟨_, _, hm⟩ := parse_exact hD hg h
  exact fun t ht => (hm t).2 (Or.inl ht)

/-! ### when parsing succeeds -/

theorem named_of_supers {D : Doc} {g : Gr} (hD : Proper D) (hg : Ready D g)
    (hs : ∀ e ∈ D.entities, ∀ r, Super e r → (∃ i, refers D g r = .ok i) ∧ ∀ n, Splits r D.own n → ∃ e' ∈ D.entities, e'.name = n) {e : Entity} (he : e ∈ D.entities) :
    ∀ y, Anc D (D.own, e.name) y → Named D g y := by
  have : ∀ x y, Anc D x y → Named D g x → Named D g y := by
    intro x y hxy
    induction hxy with
    | refl => exact id
    | step hu _ ih =>
      intro _
      refine ih ?_
      cases hu with
      | @step e r ns n he hr hsp =>
        obtain ⟨⟨i, hi⟩, hown⟩ := hs e he r hr
        refine ⟨⟨i, ?_⟩, ?_⟩
        · unfold refers at hi
          rw [(splitName_iff _ _ _).2 hsp] at hi
          exact hi
        · intro ho
          have ho : ns = D.own := ho
          subst ho
          exact hown n hsp
  exact fun y hy => this _ y hy ⟨⟨_, (getIri_entity hD hg (Ext.refl D g) he).2⟩, fun _ => ⟨e, he, rfl⟩⟩

theorem fine_loadable {E : Env} {D : Doc} {g : Gr} (hD : Proper D) (hg : Ready D g) (hf : Fine E D g) {e : Entity} (he : e ∈ D.entities) : Loadable D g e := by
  refine ⟨named_of_supers hD hg hf.supers he, acyclic_acc hf.acyclic _, ?_⟩
  obtain ⟨k, hk, _⟩ := hf.kinds e he
  exact ⟨k.owl, (hk k).2 rfl⟩

/-- C68: parsing succeeds exactly for the documents that are fine. -/
theorem parse_succeeds_iff {E : Env} {D : Doc} {g : Gr} (hD : Proper D) (hg : Ready D g) : (∃ fuel g', parseOntology E fuel D g = .ok g') ↔ Fine E D g := by
  constructor
  · rintro ⟨fuel, g', h⟩
    obtain ⟨ks, h3, hk, hz, hl, ho, hd, hs, ha, _, _⟩ := parse_steps hD hg h
    obtain ⟨z1, z2⟩ := zip_mem hz
    have kind : ∀ {e : Entity} {k : Kind}, e ∈ D.entities → IsKind D g e k → (e, k) ∈ D.entities.zip ks := by
      intro e k he hek
      obtain ⟨k', hk'⟩ := z2 e he
      rw [isKind_unique hek (hk _ hk').1]
      exact hk'
    refine ⟨?_, ?_, ?_, (checkOccurrence_iff D).1 ho, hd, ?_, ?_, ?_⟩
    · intro e he r hr
      refine ⟨loadable_refers hD he (hl e he).named hr, fun n hn => ?_⟩
      exact ((hl e he).named (D.own, n) (.step (.step he hr hn) .refl)).2 rfl
    · intro e he hq
      exact acc_not_above (hl e he).acc hq
    · intro e he
      obtain ⟨k, hkz⟩ := z2 e he
      exact ⟨k, hk _ hkz⟩
    · intro e he hek r hr
      exact hs _ (kind he hek) r hr
    · intro e he hek d hdt
      exact hs _ (kind he hek) d hdt
    · intro e he hek l hat r v hrv
      have := ha _ (kind he hek) rfl
      simp only [hat, Option.getD_some] at this
      exact this r v hrv
  · intro hf
    obtain ⟨n, hn⟩ := loadAll_total (E := E) hD hg (es := D.entities) (fun e he => he) (fun e he => ⟨fine_loadable hD hg hf he, hf.kinds e he⟩)
    obtain ⟨⟨h1, ks⟩, w1⟩ := hn 0 (bindOwn D g) (bindOwn_tame D g)
    obtain ⟨a1, t1, k1, z1, l1⟩ := loadAll_ok hD hg (fun e he => he) (bindOwn_tame D g) w1
    obtain ⟨m1, m2⟩ := zip_mem z1
    obtain ⟨h2, w3⟩ := defaultRelOfDoc_total (E := E) hD hg t1 hf.default
    obtain ⟨a2, t2, _⟩ := defaultRelOfDoc_ok hD hg t1 w3
    obtain ⟨h3, w4⟩ := secondLoop_total hD hg m1 t2 (by
      rintro ⟨e, k⟩ hp
      have hek := (k1 _ hp).1
      cases k with
      | class_ => trivial
      | relationship => exact hf.inverses e (m1 _ hp) hek
      | «attribute» => exact hf.datatypes e (m1 _ hp) hek)
    obtain ⟨a3, t3, _⟩ := secondLoop_ok hD hg m1 t2 w4
    have hty : Typed D g h3 := by
      intro e he k hk
      rw [hasType_iff]
      exact (a3.mem _).2 (Or.inl ((a2.mem _).2 (Or.inl ((a1.mem _).2 (Or.inr ⟨e, he, .type hk⟩)))))
    obtain ⟨g', w5⟩ := thirdLoop_total hD hg m1 t3 hty (by
      rintro ⟨e, k⟩ hp hk
      simp only at hk
      subst hk
      have hek := (k1 _ hp).1
      intro r v hrv
      simp only at hrv
      cases hat : e.attributes with
      | none => rw [hat] at hrv; cases hrv
      | some l => rw [hat] at hrv; exact hf.attributes e (m1 _ hp) hek l hat r v hrv)
    refine ⟨n + 0, g', ?_⟩
    unfold parseOntology
    simp only [bind_ok]
    exact ⟨(h1, ks), w1, (), (checkOccurrence_iff D).2 hf.single, h2, w3, h3, w4, w5⟩

/-! ### more turns -/

theorem loadEntity_more {D : Doc} {h : Gr} {e : Entity} {n : Nat} (hw : loadEntity D n h e ≠ .error .unfinished) (m : Nat) : loadEntity D (n + m) h e = loadEntity D n h e := by
  unfold loadEntity at hw ⊢
  cases hi : getIri D h [] e.name with
  | error x => rfl
  | ok i =>
    rw [hi] at hw
    simp only [bind, Except.bind] at hw ⊢
    generalize (match e.description with | some d => h.add ⟨.iri i, .isDefinedBy, .label d⟩ | none => h).add ⟨.iri i, .prefLabel, .label e.name⟩ = h1 at *
    have : addTypes D (n + m) h1 e.name i = addTypes D n h1 e.name i := by
      unfold addTypes at hw ⊢
      rw [walk_more]
      intro hu
      rw [hu] at hw
      exact hw rfl
    rw [this]

theorem loadAll_more {E : Env} {D : Doc} {n : Nat} (m : Nat) : ∀ (es : List Entity) (h : Gr), loadAll E D n es h ≠ .error .unfinished → loadAll E D (n + m) es h = loadAll E D n es h := by
  intro es
  induction es with
  | nil => intro h _; rfl
  | cons e es ih =>
    intro h hw
    rw [loadAll] at hw
    rw [loadAll, loadAll, loadEntity_more]
    · cases h1 : loadEntity D n h e with
      | error x => rfl
      | ok h' =>
        rw [h1] at hw
        simp only [bind, Except.bind] at hw ⊢
        cases h2 : validateEntity E D h' e with
        | error x => rfl
        | ok k =>
          rw [h2] at hw
          simp only at hw ⊢
          rw [ih]
          intro hu
          rw [hu] at hw
          exact hw rfl
    · intro hu
      rw [hu] at hw
      exact hw rfl

/-- The outcome does not depend on the bound, once the parser has ended. -/
theorem parse_outcome_partial {E : Env} {D : Doc} {g : Gr} {n : Nat} (hw : parseOntology E n D g ≠ .error .unfinished) (m : Nat) : parseOntology E (n + m) D g = parseOntology E n D g := by
  unfold parseOntology at hw ⊢
  simp only at hw ⊢
  rw [loadAll_more]
  intro hu
  rw [hu] at hw
  exact hw rfl

/-! ### cycles -/

theorem loadEntity_not_raised {D : Doc} {g h : Gr} (hD : Proper D) (hg : Ready D g) (ht : Tame D g h) {e : Entity} (he : e ∈ D.entities)
    (hn : ∀ y, Anc D (D.own, e.name) y → Named D g y) (hty : ∃ k, Inherits D g e k) (fuel : Nat) (err : PyErr) : loadEntity D fuel h e ≠ .error (.raised err) := by
  intro hw
  rw [loadEntity_eq hD hg ht.ext he] at hw
  have ht1 := describe_tame hD ht he
  generalize describe h (iriOf D g e) e = h1 at *
  have hr := ref_entity hD he
  unfold addTypes at hw
  cases hwalk : walk D h1 fuel [(D.own, e.name)] [] with
  | error x =>
    rw [hwalk] at hw
    cases x with
    | unfinished => cases hw
    | raised x =>
      obtain ⟨y, hy, z, hz, hnn⟩ := walk_raised hD hwalk
      rw [List.mem_singleton.1 hy] at hz
      exact hnn ((named_ext hD hg ht1.ext (ref_anc hD hz hr)).2 (hn z hz))
  | ok T =>
    obtain ⟨w1, _, _⟩ := walk_ok hD hwalk
    have hne : T.isEmpty = false := by
      obtain ⟨k, hk⟩ := hty
      have : k ∈ T := by
        rw [w1 k]
        right
        simpa only [List.mem_singleton, exists_eq_left] using (inherits_iff hD hg ht1 he hn k).2 hk
      cases T with
      | nil => cases this
      | cons _ _ => rfl
    rw [hwalk] at hw
    change ((if T.isEmpty = true then _ else _ : Run Gr) >>= _) = _ at hw
    rw [hne, if_neg (by simp)] at hw
    obtain ⟨h', e'⟩ := addSupers_total (h := addAll h1 (T.map (fun k => (⟨.iri (iriOf D g e), .type, .iri k.iri⟩ : Triple)))) hD hg he (fun r hr => hr)
      ((addTypes_adds (iriOf D g e) T).ext ht1.ext (by rintro t ⟨k, _, rfl⟩; exact new_entity hD he (by simp) _)) (fun r hr => loadable_refers hD he hn hr)
    change addSupers D (iriOf D g e) e.supers _ = _ at hw
    rw [e'] at hw
    cases hw

/-- Finding: if superclasses form a cycle, and there is nothing else to complain about before, then the parser never ends. -/
theorem cyclic_never_ends {E : Env} {D : Doc} {g : Gr} (hD : Proper D) (hg : Ready D g)
    (hs : ∀ e ∈ D.entities, ∀ r, Super e r → (∃ i, refers D g r = .ok i) ∧ ∀ n, Splits r D.own n → ∃ e' ∈ D.entities, e'.name = n)
    (hk : ∀ e ∈ D.entities, ∃ k, IsKind D g e k ∧ Yaml.validate (Yaml.formats E.dig) E.limit e.raw (.named k.format) = .ok ()) (hc : ¬ Acyclic D) (fuel : Nat) :
    parseOntology E fuel D g = .error .unfinished := by
  have named := fun e he => named_of_supers hD hg hs (e := e) he
  have key : ∀ (es : List Entity) (h : Gr), (∀ e ∈ es, e ∈ D.entities) → Tame D g h → ∀ err, loadAll E D fuel es h ≠ .error (.raised err) := by
    intro es
    induction es with
    | nil => intro h _ _ err hw; cases hw
    | cons e es ih =>
      intro h hes ht err hw
      have he := hes e List.mem_cons_self
      obtain ⟨k, hk1, hk2⟩ := hk e he
      rw [loadAll] at hw
      cases h1 : loadEntity D fuel h e with
      | error x =>
        rw [h1] at hw
        have hw : (.error x : Run (Gr × List Kind)) = .error (.raised err) := hw
        cases hw
        exact loadEntity_not_raised hD hg ht he (named e he) ⟨k.owl, (hk1 k).2 rfl⟩ fuel err h1
      | ok h' =>
        obtain ⟨_, t1, ty1, _⟩ := loadEntity_ok hD hg ht he h1
        rw [h1] at hw
        simp only [bind, Except.bind, (validateEntity_iff hD hg t1.ext he ty1 k).2 ⟨hk1, hk2⟩] at hw
        cases h2 : loadAll E D fuel es h' with
        | error x =>
          rw [h2] at hw
          simp only at hw
          cases hw
          exact ih h' (fun x hx => hes x (List.mem_cons_of_mem _ hx)) t1 err h2
        | ok r => rw [h2] at hw; cases hw
  unfold parseOntology
  simp only
  cases h1 : loadAll E D fuel D.entities (bindOwn D g) with
  | error x =>
    cases x with
    | unfinished => rfl
    | raised x => exact absurd h1 (key D.entities _ (fun e he => he) (bindOwn_tame D g) x)
  | ok r =>
    obtain ⟨h', ks⟩ := r
    obtain ⟨_, _, _, _, hl⟩ := loadAll_ok hD hg (fun e he => he) (bindOwn_tame D g) h1
    exact absurd (fun e he hq => acc_not_above (hl e he).acc hq) hc

end Osp.Ymlp
