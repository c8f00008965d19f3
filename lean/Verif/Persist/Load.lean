import Verif.Persist.Props
/-!
# Loading
-/
namespace Osp.Persist
open Tables

variable {D V : Type} [DecidableEq D] [DecidableEq V]

omit [DecidableEq D] [DecidableEq V] in
theorem type_iff {O : Tables.Onto D} {dts : List D} {x : Triple D V} (h : x.Ok O dts) : x.p = O.rdfType ↔ ∃ i, x.o = .ent i := by
  obtain ⟨s, p, o⟩ := x
  cases o with
  | cuds u => exact ⟨fun e => absurd e h.1, fun ⟨i, e⟩ => by cases e⟩
  | ent i => exact ⟨fun _ => ⟨i, rfl⟩, fun _ => h⟩
  | lit d v => exact ⟨fun e => absurd e h.1, fun ⟨i, e⟩ => by cases e⟩

theorem typesOf_ok {O : Tables.Onto D} (hO : O.WF) : ∀ (ts : List (Triple D V)) {st : St D V} {L : List (Triple D V)}, Stores O st L → (∀ t ∈ ts, ∃ u, t.o = .cuds u) →
    ∃ n st', typesOf O ts st = (.ok n, st') ∧ StepOk O st st' ∧ ∀ x, x ∈ n ↔ x ∈ L ∧ (∃ i, x.o = .ent i) ∧ ∃ t ∈ ts, t.o = .cuds x.s
  | [], st, L, h, _ => ⟨[], st, rfl, ⟨h.inv, Ext.refl _⟩, by simp⟩
  | t :: ts, st, L, h, ht => by
    obtain ⟨u, hu⟩ := ht t List.mem_cons_self
    obtain ⟨a, st1, k1, k2, k3⟩ := triples_ok hO h (pat := ⟨some u, some O.rdfType, none⟩) (Or.inl rfl)
    obtain ⟨b, st2, j1, j2, j3⟩ := typesOf_ok hO ts (h.ext k2) (fun x hx => ht x (List.mem_cons_of_mem _ hx))
    refine ⟨a ++ b, st2, ?_, k2.trans j2, fun x => ?_⟩
    · obtain ⟨s, p, o⟩ := t
      dsimp only at hu
      subst hu
      simp only [typesOf, k1, j1]
    · rw [List.mem_append, k3, j3, matches_iff]
      simp only [List.mem_cons, exists_eq_or_imp, hu, Option.some.injEq, forall_eq', reduceCtorEq, false_imp_iff, implies_true, and_true, Obj.cuds.injEq]
      constructor
      · rintro (⟨q1, q2, q3⟩ | ⟨q1, q2, q3⟩)
        · exact ⟨q1, (type_iff (h.ok x q1)).1 q3, Or.inl q2.symm⟩
        · exact ⟨q1, q2, Or.inr q3⟩
      · rintro ⟨q1, q2, q3 | q3⟩
        · exact Or.inl ⟨q1, q3.symm, (type_iff (h.ok x q1)).2 q2⟩
        · exact Or.inr ⟨q1, q2, q3⟩

theorem loadTriples_ok {O : Tables.Onto D} (hO : O.WF) {st : St D V} {L : List (Triple D V)} (h : Stores O st L) (u : Uid) :
    ∃ a n st', loadTriples O u st = (.ok (a, n), st') ∧ StepOk O st st' ∧ (∀ x, x ∈ a ↔ x ∈ L ∧ x.s = u) ∧
      ∀ x, x ∈ n ↔ x ∈ L ∧ (∃ i, x.o = .ent i) ∧ ∃ t ∈ L, t.s = u ∧ t.o = .cuds x.s := by
  have hm : ∀ x : Triple D V, (⟨some u, none, none⟩ : Pat D V).matches x = true ↔ x.s = u := by
    intro x; simp [matches_iff]
  obtain ⟨a, st1, a1, a2, a3⟩ := queries_ok hO (pat := ⟨some u, none, none⟩) [.rels] h.inv (fun t ht => by rw [List.mem_singleton] at ht; subst ht; exact Or.inl rfl)
    (fun d hd => by simp at hd)
  have a3' : ∀ x, x ∈ a ↔ x ∈ L ∧ (∃ v, x.o = .cuds v) ∧ x.s = u := by
    intro x
    rw [a3, h.has, hm]
    simp only [List.mem_singleton, exists_eq_left, InTbl]
  obtain ⟨n, st2, n1, n2, n3⟩ := typesOf_ok hO a (h.ext a2) (fun t ht => ((a3' t).1 ht).2.1)
  have h2 := (h.ext a2).ext n2
  obtain ⟨b, st3, b1, b2, b3⟩ := queries_ok hO (pat := ⟨some u, none, none⟩) (.types :: st2.db.dts.map .data) h2.inv
    (fun t ht => by cases t with
      | types => exact ⟨Or.inl rfl, Or.inl rfl⟩
      | rels => exact Or.inl rfl
      | data d => exact Or.inl rfl)
    (fun d hd => by simpa using hd)
  refine ⟨a ++ b, n, st3, by simp only [loadTriples, a1, n1, b1], (a2.trans n2).trans b2, fun x => ?_, fun x => ?_⟩
  · rw [List.mem_append, a3', b3, h2.has, hm]
    constructor
    · rintro (⟨q1, _, q3⟩ | ⟨q1, _, q3⟩) <;> exact ⟨q1, q3⟩
    · rintro ⟨q1, q2⟩
      have hok := h2.ok x q1
      obtain ⟨s, p, o⟩ := x
      cases o with
      | cuds v => exact Or.inl ⟨q1, ⟨v, rfl⟩, q2⟩
      | ent i => exact Or.inr ⟨q1, ⟨.types, List.mem_cons_self, i, rfl⟩, q2⟩
      | lit d v =>
        obtain ⟨_, k, _, e, hd⟩ := hok
        cases e
        exact Or.inr ⟨q1, ⟨.data (k.getD O.xsdString), List.mem_cons_of_mem _ (List.mem_map_of_mem hd), v, rfl⟩, q2⟩
  · rw [n3]
    refine and_congr_right fun _ => and_congr_right fun _ => ?_
    constructor
    · rintro ⟨t, ht, e⟩
      obtain ⟨q1, _, q3⟩ := (a3' t).1 ht
      exact ⟨t, q1, q3, e⟩
    · rintro ⟨t, q1, q3, e⟩
      exact ⟨t, (a3' t).2 ⟨q1, ⟨_, e⟩, q3⟩, e⟩

theorem slot_iff {w u s : Uid} (hu : u ≠ 0) : s = slot w u ↔ said 0 s = said w u := by
  rw [← said_slot hu]
  exact ⟨fun e => by rw [e], said_zero_inj⟩

/-- The triples that are handed to `create_from_triples` are exactly what is stored about the object, as this session sees it, with the types of the neighbours. -/
theorem fetch_ok {E : Env D V} (hO : E.toOnto.WF) {w u : Uid} (hu : u ≠ 0) {st : St D V} {S : Facts D V} (h : Keeps E st S) :
    ∃ a n st', fetch E w u st = (.ok (a, n), st') ∧ StepOk E.toOnto st st' ∧ (∀ x, x ∈ a ↔ About S w u x) ∧ ∀ x, x ∈ n ↔ NbTypes S w u x := by
  obtain ⟨L, h1, h2, h3⟩ := h
  obtain ⟨a, n, st', k1, k2, k3, k4⟩ := loadTriples_ok hO h1 (slot w u)
  have pa := subst_plain (E := E) (a := 0) (b := w) (fun t ht => h2 t ((k3 t).1 ht).1)
  have pn := subst_plain (E := E) (a := 0) (b := w) (fun t ht => h2 t ((k4 t).1 ht).1)
  refine ⟨a.map (swap 0 w), n.map (swap 0 w), st', ?_, k2, fun x => ?_, fun x => ?_⟩
  · have k1' : loadTriples E.toOnto (if u = w then 0 else u) st = (.ok (a, n), st') := k1
    simp only [fetch, k1', pa, pn]
  · rw [List.mem_map]
    constructor
    · rintro ⟨t, ht, rfl⟩
      obtain ⟨q1, q2⟩ := (k3 t).1 ht
      exact ⟨saidTriple 0 t, (h3 _).2 ⟨t, q1, rfl⟩, (slot_iff hu).1 q2, seen_swap w t⟩
    · rintro ⟨f, hf, hs, rfl⟩
      obtain ⟨t, ht, rfl⟩ := (h3 f).1 hf
      exact ⟨t, (k3 t).2 ⟨ht, (slot_iff hu).2 hs⟩, seen_swap w t⟩
  · rw [List.mem_map]
    constructor
    · rintro ⟨t, ht, rfl⟩
      obtain ⟨q1, ⟨i, q2⟩, y, q3, q4, q5⟩ := (k4 t).1 ht
      refine ⟨saidTriple 0 y, said 0 t.s, (h3 _).2 ⟨y, q3, rfl⟩, (slot_iff hu).1 q4, ?_, saidTriple 0 t, i, (h3 _).2 ⟨t, q1, rfl⟩, rfl, ?_, seen_swap w t⟩
      · show saidObj 0 y.o = _
        rw [q5]
        rfl
      · show saidObj 0 t.o = _
        rw [q2]
        rfl
    · rintro ⟨f, m, hf, hs, ho, k, i, hk, hks, hko, rfl⟩
      obtain ⟨y, hy, rfl⟩ := (h3 f).1 hf
      obtain ⟨t, ht, rfl⟩ := (h3 k).1 hk
      refine ⟨t, (k4 t).2 ⟨ht, ?_, y, hy, (slot_iff hu).2 hs, ?_⟩, seen_swap w t⟩
      · change saidObj 0 t.o = .ent i at hko
        cases hto : t.o with
        | cuds v => rw [hto] at hko; cases hko
        | ent j => exact ⟨j, rfl⟩
        | lit d v => rw [hto] at hko; cases hko
      · change saidObj 0 y.o = .node m at ho
        cases hyo : y.o with
        | cuds v =>
          rw [hyo] at ho
          have e1 : said 0 v = m := by injection ho
          have e2 : said 0 t.s = m := hks
          rw [said_zero_inj (e1.trans e2.symm)]
        | ent j => rw [hyo] at ho; cases ho
        | lit d v => rw [hyo] at ho; cases ho

omit [DecidableEq D] [DecidableEq V] in
theorem about_s {S : Facts D V} {w u : Uid} {x : Triple D V} (h : About S w u x) : x.s = u := by
  obtain ⟨f, _, hs, rfl⟩ := h
  show seen w f.s = u
  rw [hs, seen_said]

omit [DecidableEq D] [DecidableEq V] in
theorem known_iff {S : Facts D V} {w u : Uid} : Known S w u ↔ ∃ x, About S w u x :=
  ⟨fun ⟨f, h1, h2⟩ => ⟨_, f, h1, h2, rfl⟩, fun ⟨_, f, h1, h2, _⟩ => ⟨f, h1, h2⟩⟩

omit [DecidableEq D] [DecidableEq V] in
theorem nb_known {S : Facts D V} {w u : Uid} {x : Triple D V} (h : NbTypes S w u x) : Known S w u := by
  obtain ⟨f, _, h1, h2, _⟩ := h
  exact ⟨f, h1, h2⟩

/-- **C85.** Loading an object does not raise and does not change what is stored. If something is stored about the object, it is registered and the graph of the session has
afterwards: what is stored about it, the types of its neighbours, and of what was there before everything except the triples of the object itself if it was registered. If nothing
is stored, `None` is returned and the session is as before. -/
theorem load_exact {E : Env D V} (hO : E.toOnto.WF) {u : Uid} (hu : u ≠ 0) {s : Ses D V} {st : St D V} {S : Facts D V} (h : Keeps E st S) :
    ∃ r s' st', loadByIri E u s st = (.ok r, s', st') ∧ Keeps E st' S ∧ st'.db.dts = st.db.dts ∧ Loaded S u s s' ∧
      (Known S s.root u → r = some u) ∧ (¬ Known S s.root u → r = none ∧ s' = s) := by
  obtain ⟨a, n, st', k1, k2, k3, k4⟩ := fetch_ok hO (w := s.root) hu h
  refine ⟨(createFrom a n s).1, (createFrom a n s).2, st', by simp only [loadByIri, k1], h.ext k2, k2.ext.dts, ?_⟩
  cases a with
  | nil =>
    have hn : ¬ Known S s.root u := by
      rw [known_iff]
      rintro ⟨x, hx⟩
      have := (k3 x).2 hx
      cases this
    refine ⟨⟨rfl, fun v => ?_, fun x => ?_⟩, fun hk => absurd hk hn, fun _ => ⟨rfl, rfl⟩⟩
    · simp [createFrom, hn]
    · simp only [createFrom, hn, false_and, not_false_iff, and_true]
      constructor
      · exact Or.inl
      · rintro (hx | hx | hx)
        · exact hx
        · exact absurd (known_iff.2 ⟨x, hx⟩) hn
        · exact absurd (nb_known hx) hn
  | cons t ts =>
    have ht := (k3 t).1 List.mem_cons_self
    have e : t.s = u := about_s ht
    have hk : Known S s.root u := known_iff.2 ⟨t, ht⟩
    refine ⟨?_, fun _ => by simp only [createFrom, e], fun hn => absurd hk hn⟩
    by_cases hr : u ∈ s.reg
    · have e2 : (createFrom (t :: ts) n s).2 = { s with g := s.g.filter (fun x => decide (x.s ≠ u)) ++ (t :: ts) ++ n } := by
        simp only [createFrom, e, hr, if_true]
      rw [e2]
      refine ⟨rfl, fun v => ?_, fun x => ?_⟩
      · constructor
        · exact Or.inl
        · rintro (hv | ⟨rfl, _⟩)
          · exact hv
          · exact hr
      · simp only [List.mem_append, k3, k4, List.mem_filter, decide_eq_true_eq, hk, hr, true_and, or_assoc, ne_eq]
    · have e2 : (createFrom (t :: ts) n s).2 = { s with reg := s.reg ++ [u], g := s.g ++ (t :: ts) ++ n } := by
        simp only [createFrom, e, hr, if_false]
      rw [e2]
      refine ⟨rfl, fun v => ?_, fun x => ?_⟩
      · simp only [List.mem_append, List.mem_singleton, hk, and_true]
      · simp only [List.mem_append, k3, k4, hr, false_and, and_false, not_false_iff, and_true, or_assoc]

end Osp.Persist
