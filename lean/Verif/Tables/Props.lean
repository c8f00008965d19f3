import Verif.Tables.Steps
/-!
# C39: the tables implement a set of triples
-/
namespace Osp.Tables
variable {D V : Type}

theorem mem_filter_not {α : Type} (f : α → Bool) (x : α) (l : List α) : x ∈ l.filter (fun r => !f r) ↔ x ∈ l ∧ ¬ f x = true := by
  rw [List.mem_filter]; simp

theorem eqC_cuds {O : Onto D} {st : St D V} (h : Inv O st) {u : Option Uid} {c : Option Idx} (h1 : ∀ i, c = some i → ∃ x, u = some x ∧ C st.db i x) (h0 : c = none → u = none)
    {i : Idx} {w : Uid} (hw : C st.db i w) : eqC c i = true ↔ ∀ y, u = some y → w = y := by
  rw [eqC_iff]
  cases c with
  | none => simp [h0 rfl]
  | some j =>
    obtain ⟨x, rfl, hx⟩ := h1 j rfl
    simp only [Option.some.injEq, forall_eq']
    constructor
    · rintro rfl; exact h.C_fun hw hx
    · rintro rfl; exact h.C_inj hw hx

theorem eqC_ent {O : Onto D} {st : St D V} (h : Inv O st) {u : Option Iri} {c : Option Idx} (h1 : ∀ i, c = some i → ∃ x, u = some x ∧ E st.db i x) (h0 : c = none → u = none)
    {i : Idx} {w : Iri} (hw : E st.db i w) : eqC c i = true ↔ ∀ y, u = some y → w = y := by
  rw [eqC_iff]
  cases c with
  | none => simp [h0 rfl]
  | some j =>
    obtain ⟨x, rfl, hx⟩ := h1 j rfl
    simp only [Option.some.injEq, forall_eq']
    constructor
    · rintro rfl; exact h.E_fun hw hx
    · rintro rfl; exact h.E_inj hw hx

/-- Deleting from one table removes exactly the matching triples of this table. -/
theorem removeTable_ok [DecidableEq D] [DecidableEq V] {O : Onto D} (hO : O.WF) {st : St D V} (h : Inv O st) {pat : Pat D V} {t : Tbl D} (hf : Fits O pat t)
    (hd : ∀ d, t = .data d → d ∈ st.db.dts) :
    (removeTable O pat t st).1 = .ok () ∧ Inv O (removeTable O pat t st).2 ∧ (removeTable O pat t st).2.db.dts = st.db.dts ∧
      ∀ x, Has O (removeTable O pat t st).2.db x ↔ Has O st.db x ∧ ¬ (InTbl t x ∧ pat.matches x = true) := by
  obtain ⟨k1, p1, q1⟩ := cudsIdxOpt_ok h pat.s
  cases t with
  | types =>
    have hrun : removeTable O pat .types st = (.ok (), { (entIdxOpt O (match pat.o with | some (.ent i) => some i | _ => none) (cudsIdxOpt pat.s st).2).2 with
      db := { (entIdxOpt O (match pat.o with | some (.ent i) => some i | _ => none) (cudsIdxOpt pat.s st).2).2.db with
        types := (entIdxOpt O (match pat.o with | some (.ent i) => some i | _ => none) (cudsIdxOpt pat.s st).2).2.db.types.filter (fun r => !(eqC (cudsIdxOpt pat.s st).1 r.1 &&
          eqC (entIdxOpt O (match pat.o with | some (.ent i) => some i | _ => none) (cudsIdxOpt pat.s st).2).1 r.2)) } }) := rfl
    rw [hrun]
    generalize hA : cudsIdxOpt pat.s st = A at k1 p1 q1
    obtain ⟨s, st1⟩ := A
    generalize ho : (match pat.o with | some (.ent i) => some i | _ => none) = oi
    obtain ⟨k2, p2, q2⟩ := entIdxOpt_ok hO k1.inv oi
    generalize hB : entIdxOpt O oi st1 = B at k2 p2 q2
    obtain ⟨o, st2⟩ := B
    dsimp only at *
    have k := k1.trans k2
    have p1' : ∀ i, s = some i → ∃ x, pat.s = some x ∧ C st2.db i x := fun i hi => by
      obtain ⟨x, hx, hc⟩ := p1 i hi
      exact ⟨x, hx, k2.ext.C hc⟩
    refine ⟨rfl, ⟨k2.inv.cache, k2.inv.ns, k2.inv.cuds, k2.inv.ents, k2.inv.eref, fun r hr => k2.inv.tref r ((mem_filter_not _ _ _).1 hr).1, k2.inv.rref, k2.inv.dref, k2.inv.dts⟩, k.ext.dts, ?_⟩
    intro x
    rw [← has_ext h k.inv k.ext x, matches_iff]
    obtain ⟨xs, xp, xo⟩ := x
    match xo with
    | .ent j =>
      have key : ∀ a b, C st2.db a xs → E st2.db b j → ((eqC s a && eqC o b) = true ↔ (∀ y, pat.s = some y → xs = y) ∧ ∀ y, oi = some y → j = y) := by
        intro a b ha hb
        rw [Bool.and_eq_true, eqC_cuds k2.inv p1' q1 ha, eqC_ent k2.inv p2 q2 hb]
      have hoi : (∀ y, oi = some y → j = y) ↔ ∀ y, pat.o = some y → (Obj.ent j : Obj D V) = y := by
        rcases hf.1 with hf | ⟨i, hf⟩ <;> rw [hf] at ho <;> subst ho <;> rw [hf] <;> simp
      constructor
      · rintro ⟨e1, a, b, h1, h2, h3⟩
        obtain ⟨h3, h4⟩ := (mem_filter_not _ _ _).1 h3
        refine ⟨⟨e1, a, b, h1, h2, h3⟩, ?_⟩
        rintro ⟨_, m1, m2, m3⟩
        exact h4 ((key a b h1 h2).2 ⟨m1, hoi.2 m3⟩)
      · rintro ⟨⟨e1, a, b, h1, h2, h3⟩, hn⟩
        refine ⟨e1, a, b, h1, h2, (mem_filter_not _ _ _).2 ⟨h3, ?_⟩⟩
        intro hc
        obtain ⟨c1, c2⟩ := (key a b h1 h2).1 hc
        refine hn ⟨⟨j, rfl⟩, c1, ?_, hoi.1 c2⟩
        intro y hy
        change xp = O.rdfType at e1
        rcases hf.2 with hf | hf <;> rw [hf] at hy <;> cases hy
        exact e1
    | .cuds u => exact ⟨fun hh => ⟨hh, fun hc => (by obtain ⟨⟨i, hi⟩, _⟩ := hc; cases hi)⟩, fun hh => hh.1⟩
    | .lit none v => exact ⟨fun hh => ⟨hh, fun hc => (by obtain ⟨⟨i, hi⟩, _⟩ := hc; cases hi)⟩, fun hh => hh.1⟩
    | .lit (some d) v => exact ⟨fun hh => ⟨hh, fun hc => (by obtain ⟨⟨i, hi⟩, _⟩ := hc; cases hi)⟩, fun hh => hh.1⟩
  | rels =>
    have hrun : removeTable O pat .rels st = (.ok (),
      { (cudsIdxOpt (match pat.o with | some (.cuds u) => some u | _ => none) (entIdxOpt O pat.p (cudsIdxOpt pat.s st).2).2).2 with
        db := { (cudsIdxOpt (match pat.o with | some (.cuds u) => some u | _ => none) (entIdxOpt O pat.p (cudsIdxOpt pat.s st).2).2).2.db with
          rels := (cudsIdxOpt (match pat.o with | some (.cuds u) => some u | _ => none) (entIdxOpt O pat.p (cudsIdxOpt pat.s st).2).2).2.db.rels.filter (fun r => !(eqC (cudsIdxOpt pat.s st).1 r.1 &&
            eqC (entIdxOpt O pat.p (cudsIdxOpt pat.s st).2).1 r.2.1 &&
            eqC (cudsIdxOpt (match pat.o with | some (.cuds u) => some u | _ => none) (entIdxOpt O pat.p (cudsIdxOpt pat.s st).2).2).1 r.2.2)) } }) := rfl
    rw [hrun]
    generalize hA : cudsIdxOpt pat.s st = A at k1 p1 q1
    obtain ⟨s, st1⟩ := A
    obtain ⟨k2, p2, q2⟩ := entIdxOpt_ok hO k1.inv pat.p
    generalize hB : entIdxOpt O pat.p st1 = B at k2 p2 q2
    obtain ⟨p, st2⟩ := B
    generalize ho : (match pat.o with | some (.cuds u) => some u | _ => none) = oi
    obtain ⟨k3, p3, q3⟩ := cudsIdxOpt_ok k2.inv oi
    generalize hB' : cudsIdxOpt oi st2 = B' at k3 p3 q3
    obtain ⟨o, st3⟩ := B'
    dsimp only at *
    have k := (k1.trans k2).trans k3
    have p1' : ∀ i, s = some i → ∃ x, pat.s = some x ∧ C st3.db i x := fun i hi => by
      obtain ⟨x, hx, hc⟩ := p1 i hi
      exact ⟨x, hx, k3.ext.C (k2.ext.C hc)⟩
    have p2' : ∀ i, p = some i → ∃ x, pat.p = some x ∧ E st3.db i x := fun i hi => by
      obtain ⟨x, hx, hc⟩ := p2 i hi
      exact ⟨x, hx, k3.ext.E hc⟩
    refine ⟨rfl, ⟨k3.inv.cache, k3.inv.ns, k3.inv.cuds, k3.inv.ents, k3.inv.eref, k3.inv.tref, fun r hr => k3.inv.rref r ((mem_filter_not _ _ _).1 hr).1, k3.inv.dref, k3.inv.dts⟩, k.ext.dts, ?_⟩
    intro x
    rw [← has_ext h k.inv k.ext x, matches_iff]
    obtain ⟨xs, xp, xo⟩ := x
    match xo with
    | .cuds j =>
      have key : ∀ a e b, C st3.db a xs → E st3.db e xp → C st3.db b j → ((eqC s a && eqC p e && eqC o b) = true ↔
          (∀ y, pat.s = some y → xs = y) ∧ (∀ y, pat.p = some y → xp = y) ∧ ∀ y, oi = some y → j = y) := by
        intro a e b ha he hb
        rw [Bool.and_eq_true, Bool.and_eq_true, eqC_cuds k3.inv p1' q1 ha, eqC_ent k3.inv p2' q2 he, eqC_cuds k3.inv p3 q3 hb, and_assoc]
      have hoi : (∀ y, oi = some y → j = y) ↔ ∀ y, pat.o = some y → (Obj.cuds j : Obj D V) = y := by
        rcases hf with hf | ⟨i, hf⟩ <;> rw [hf] at ho <;> subst ho <;> rw [hf] <;> simp
      constructor
      · rintro ⟨a, e, b, h1, h2, h3, h4⟩
        obtain ⟨h4, h5⟩ := (mem_filter_not _ _ _).1 h4
        refine ⟨⟨a, e, b, h1, h2, h3, h4⟩, ?_⟩
        rintro ⟨_, m1, m2, m3⟩
        exact h5 ((key a e b h1 h2 h3).2 ⟨m1, m2, hoi.2 m3⟩)
      · rintro ⟨⟨a, e, b, h1, h2, h3, h4⟩, hn⟩
        refine ⟨a, e, b, h1, h2, h3, (mem_filter_not _ _ _).2 ⟨h4, ?_⟩⟩
        intro hc
        obtain ⟨c1, c2, c3⟩ := (key a e b h1 h2 h3).1 hc
        exact hn ⟨⟨j, rfl⟩, c1, c2, hoi.1 c3⟩
    | .ent u => exact ⟨fun hh => ⟨hh, fun hc => (by obtain ⟨⟨i, hi⟩, _⟩ := hc; cases hi)⟩, fun hh => hh.1⟩
    | .lit none v => exact ⟨fun hh => ⟨hh, fun hc => (by obtain ⟨⟨i, hi⟩, _⟩ := hc; cases hi)⟩, fun hh => hh.1⟩
    | .lit (some d) v => exact ⟨fun hh => ⟨hh, fun hc => (by obtain ⟨⟨i, hi⟩, _⟩ := hc; cases hi)⟩, fun hh => hh.1⟩
  | data d =>
    have hrun : removeTable O pat (.data d) st = if d ∈ (entIdxOpt O pat.p (cudsIdxOpt pat.s st).2).2.db.dts then (.ok (),
      { (entIdxOpt O pat.p (cudsIdxOpt pat.s st).2).2 with
        db := { (entIdxOpt O pat.p (cudsIdxOpt pat.s st).2).2.db with
          data := fun e => if e = d then ((entIdxOpt O pat.p (cudsIdxOpt pat.s st).2).2.db.data d).filter (fun r => !(eqC (cudsIdxOpt pat.s st).1 r.1 &&
            eqC (entIdxOpt O pat.p (cudsIdxOpt pat.s st).2).1 r.2.1 &&
            eqC (match pat.o with | some (.lit _ v) => some v | _ => none) r.2.2)) else (entIdxOpt O pat.p (cudsIdxOpt pat.s st).2).2.db.data e } })
      else (.error .exception, (entIdxOpt O pat.p (cudsIdxOpt pat.s st).2).2) := rfl
    rw [hrun]
    generalize hA : cudsIdxOpt pat.s st = A at k1 p1 q1
    obtain ⟨s, st1⟩ := A
    obtain ⟨k2, p2, q2⟩ := entIdxOpt_ok hO k1.inv pat.p
    generalize hB : entIdxOpt O pat.p st1 = B at k2 p2 q2
    obtain ⟨p, st2⟩ := B
    generalize ho : (match pat.o with | some (.lit _ v) => some v | _ => none) = oi
    dsimp only at *
    have k := k1.trans k2
    have hd2 : d ∈ st2.db.dts := by rw [k.ext.dts]; exact hd d rfl
    rw [if_pos hd2]
    have p1' : ∀ i, s = some i → ∃ x, pat.s = some x ∧ C st2.db i x := fun i hi => by
      obtain ⟨x, hx, hc⟩ := p1 i hi
      exact ⟨x, hx, k2.ext.C hc⟩
    have hmem : ∀ e r, r ∈ (if e = d then (st2.db.data d).filter (fun r => !(eqC s r.1 && eqC p r.2.1 && eqC oi r.2.2)) else st2.db.data e) ↔
        r ∈ st2.db.data e ∧ ¬ (e = d ∧ (eqC s r.1 && eqC p r.2.1 && eqC oi r.2.2) = true) := by
      intro e r
      by_cases he : e = d
      · subst he; rw [if_pos rfl, mem_filter_not]; simp
      · simp [he]
    refine ⟨rfl, ⟨k2.inv.cache, k2.inv.ns, k2.inv.cuds, k2.inv.ents, k2.inv.eref, k2.inv.tref, k2.inv.rref, fun e r hr => k2.inv.dref e r ((hmem e r).1 hr).1, ?_⟩, k.ext.dts, ?_⟩
    · intro e he
      have : e ≠ d := fun e' => he (e' ▸ hd2)
      show (if e = d then _ else st2.db.data e) = []
      rw [if_neg this]; exact k2.inv.dts e he
    intro x
    rw [← has_ext h k.inv k.ext x, matches_iff]
    obtain ⟨xs, xp, xo⟩ := x
    match xo with
    | .lit (some d') v =>
      have key : ∀ a e, C st2.db a xs → E st2.db e xp → ((eqC s a && eqC p e && eqC oi v) = true ↔
          (∀ y, pat.s = some y → xs = y) ∧ (∀ y, pat.p = some y → xp = y) ∧ ∀ y, oi = some y → v = y) := by
        intro a e ha he
        rw [Bool.and_eq_true, Bool.and_eq_true, eqC_cuds k2.inv p1' q1 ha, eqC_ent k2.inv p2 q2 he, eqC_iff, and_assoc]
      have hoi : d' = d → ((∀ y, oi = some y → v = y) ↔ ∀ y, pat.o = some y → (Obj.lit (some d') v : Obj D V) = y) := by
        rintro rfl
        rcases hf with hf | ⟨i, hf⟩ <;> rw [hf] at ho <;> subst ho <;> rw [hf] <;> simp
      constructor
      · rintro ⟨hd', a, e, h1, h2, h4⟩
        obtain ⟨h4, h5⟩ := (hmem _ _).1 h4
        refine ⟨⟨hd', a, e, h1, h2, h4⟩, ?_⟩
        rintro ⟨⟨v', hv⟩, m1, m2, m3⟩
        have ed : d' = d := by cases hv; rfl
        exact h5 ⟨ed, (key a e h1 h2).2 ⟨m1, m2, (hoi ed).2 m3⟩⟩
      · rintro ⟨⟨hd', a, e, h1, h2, h4⟩, hn⟩
        refine ⟨hd', a, e, h1, h2, (hmem _ _).2 ⟨h4, ?_⟩⟩
        rintro ⟨ed, hc⟩
        obtain ⟨c1, c2, c3⟩ := (key a e h1 h2).1 hc
        exact hn ⟨⟨v, by rw [ed]⟩, c1, c2, (hoi ed).1 c3⟩
    | .ent u => exact ⟨fun hh => ⟨hh, fun hc => (by obtain ⟨⟨i, hi⟩, _⟩ := hc; cases hi)⟩, fun hh => hh.1⟩
    | .cuds u => exact ⟨fun hh => ⟨hh, fun hc => (by obtain ⟨⟨i, hi⟩, _⟩ := hc; cases hi)⟩, fun hh => hh.1⟩
    | .lit none v => exact ⟨fun hh => ⟨hh, fun hc => (by obtain ⟨⟨i, hi⟩, _⟩ := hc; cases hi)⟩, fun hh => hh.1⟩

theorem removeTables_ok [DecidableEq D] [DecidableEq V] {O : Onto D} (hO : O.WF) {pat : Pat D V} (ts : List (Tbl D)) {st : St D V} (h : Inv O st)
    (hf : ∀ t ∈ ts, Fits O pat t) (hd : ∀ d, Tbl.data d ∈ ts → d ∈ st.db.dts) :
    (removeTables O pat ts st).1 = .ok () ∧ Inv O (removeTables O pat ts st).2 ∧ (removeTables O pat ts st).2.db.dts = st.db.dts ∧
      ∀ x, Has O (removeTables O pat ts st).2.db x ↔ Has O st.db x ∧ ¬ ((∃ t ∈ ts, InTbl t x) ∧ pat.matches x = true) := by
  induction ts generalizing st with
  | nil => exact ⟨rfl, h, rfl, fun x => by simp [removeTables]⟩
  | cons t ts ih =>
    obtain ⟨a1, a2, a3, a4⟩ := removeTable_ok hO h (hf t (List.mem_cons_self ..)) (fun d e => hd d (e ▸ List.mem_cons_self ..))
    have hrun : removeTables O pat (t :: ts) st = removeTables O pat ts (removeTable O pat t st).2 := by
      show (match removeTable O pat t st with
        | (.error e, st) => ((.error e : Except PyErr Unit), st)
        | (.ok _, st) => removeTables O pat ts st) = _
      generalize removeTable O pat t st = y at a1
      obtain ⟨r, s⟩ := y
      dsimp only at a1
      subst a1
      rfl
    obtain ⟨b1, b2, b3, b4⟩ := ih a2 (fun t ht => hf t (List.mem_cons_of_mem _ ht)) (fun d hm => by rw [a3]; exact hd d (List.mem_cons_of_mem _ hm))
    rw [hrun]
    refine ⟨b1, b2, b3.trans a3, fun x => ?_⟩
    rw [b4, a4, and_assoc]
    refine and_congr_right fun _ => ?_
    simp only [List.mem_cons, exists_eq_or_imp]
    constructor
    · rintro ⟨h1, h2⟩ ⟨h3 | h3, h4⟩
      · exact h1 ⟨h3, h4⟩
      · exact h2 ⟨h3, h4⟩
    · intro hn
      exact ⟨fun hh => hn ⟨Or.inl hh.1, hh.2⟩, fun hh => hn ⟨Or.inr hh.1, hh.2⟩⟩

/-- The tables of a pattern in scope: they contain every matching triple. -/
theorem tablesFor_ok [DecidableEq D] [DecidableEq V] {O : Onto D} {db : Db D V} {pat : Pat D V} (hp : pat.Ok O db.dts) :
    ∃ ts, tablesFor O db pat = .ok ts ∧ (∀ t ∈ ts, Fits O pat t) ∧ (∀ d, Tbl.data d ∈ ts → d ∈ db.dts) ∧
      ∀ x : Triple D V, x.Ok O db.dts → pat.matches x = true → ∃ t ∈ ts, InTbl t x := by
  obtain ⟨s, p, o⟩ := pat
  match o with
  | some (.cuds u) =>
    refine ⟨[.rels], by cases p <;> rfl, ?_, ?_, ?_⟩
    · intro t ht; rw [List.mem_singleton] at ht; subst ht; exact Or.inr ⟨u, rfl⟩
    · intro d hd; simp at hd
    · intro x _ hm
      rw [matches_iff] at hm
      exact ⟨_, List.mem_singleton.2 rfl, u, hm.2.2 _ rfl⟩
  | some (.ent i) =>
    refine ⟨[.types], by cases p <;> rfl, ?_, ?_, ?_⟩
    · intro t ht; rw [List.mem_singleton] at ht; subst ht; exact ⟨Or.inr ⟨i, rfl⟩, hp⟩
    · intro d hd; simp at hd
    · intro x _ hm
      rw [matches_iff] at hm
      exact ⟨_, List.mem_singleton.2 rfl, i, hm.2.2 _ rfl⟩
  | some (.lit none v) => exact absurd hp id
  | some (.lit (some d) v) =>
    refine ⟨[.data d], by cases p <;> rfl, ?_, ?_, ?_⟩
    · intro t ht; rw [List.mem_singleton] at ht; subst ht; exact Or.inr ⟨v, rfl⟩
    · intro d' hd; simp at hd; subst hd; exact hp
    · intro x _ hm
      rw [matches_iff] at hm
      exact ⟨_, List.mem_singleton.2 rfl, v, hm.2.2 _ rfl⟩
  | none =>
    match p with
    | none =>
      refine ⟨allTables db, rfl, ?_, ?_, ?_⟩
      · intro t _
        cases t
        · exact ⟨Or.inl rfl, Or.inl rfl⟩
        · exact Or.inl rfl
        · exact Or.inl rfl
      · intro d hd
        simp only [allTables, List.mem_cons, reduceCtorEq, List.mem_map, Tbl.data.injEq, exists_eq_right, false_or] at hd
        exact hd
      · intro x hx _
        obtain ⟨xs, xp, xo⟩ := x
        match xo with
        | .cuds u => exact ⟨.rels, by simp [allTables], u, rfl⟩
        | .ent i => exact ⟨.types, by simp [allTables], i, rfl⟩
        | .lit dt v =>
          obtain ⟨_, k, _, e, hd⟩ := hx
          cases e
          exact ⟨.data (k.getD O.xsdString), by simp only [allTables, List.mem_cons, reduceCtorEq, List.mem_map, Tbl.data.injEq, exists_eq_right, false_or]; exact hd, v, rfl⟩
    | some p =>
      by_cases hpt : p = O.rdfType
      · refine ⟨[.types], by simp [tablesFor, determineTable, hpt], ?_, ?_, ?_⟩
        · intro t ht; rw [List.mem_singleton] at ht; subst ht; exact ⟨Or.inl rfl, Or.inr (by rw [hpt])⟩
        · intro d hd; simp at hd
        · intro x hx hm
          rw [matches_iff] at hm
          obtain ⟨xs, xp, xo⟩ := x
          have e : xp = O.rdfType := (hm.2.1 p rfl).trans hpt
          match xo with
          | .cuds u => exact absurd e hx.1
          | .ent i => exact ⟨_, List.mem_singleton.2 rfl, i, rfl⟩
          | .lit dt v => exact absurd e hx.1
      · rcases hp with hp | hp | ⟨k, hk, hp⟩
        · exact absurd hp hpt
        · refine ⟨[.rels], by simp [tablesFor, determineTable, hpt, hp], ?_, ?_, ?_⟩
          · intro t ht; rw [List.mem_singleton] at ht; subst ht; exact Or.inl rfl
          · intro d hd; simp at hd
          · intro x hx hm
            rw [matches_iff] at hm
            obtain ⟨xs, xp, xo⟩ := x
            have e : xp = p := hm.2.1 p rfl
            subst e
            match xo with
            | .cuds u => exact ⟨_, List.mem_singleton.2 rfl, u, rfl⟩
            | .ent i => exact absurd hx hpt
            | .lit dt v =>
              obtain ⟨_, k, hk, _⟩ := hx
              change O.kind xp = _ at hk
              rw [hp] at hk; cases hk
        · refine ⟨[.data (k.getD O.xsdString)], by simp [tablesFor, determineTable, hpt, hk], ?_, ?_, ?_⟩
          · intro t ht; rw [List.mem_singleton] at ht; subst ht; exact Or.inl rfl
          · intro d hd; simp at hd; rw [hd]; exact hp
          · intro x hx hm
            rw [matches_iff] at hm
            obtain ⟨xs, xp, xo⟩ := x
            have e : xp = p := hm.2.1 p rfl
            subst e
            match xo with
            | .cuds u =>
              have h2 : O.kind xp = some .rel := hx.2
              rw [hk] at h2; cases h2
            | .ent i => exact absurd hx hpt
            | .lit dt v =>
              obtain ⟨_, k', hk', e, _⟩ := hx
              change O.kind xp = _ at hk'
              rw [hk] at hk'
              cases hk'
              cases e
              exact ⟨_, List.mem_singleton.2 rfl, v, rfl⟩

/-! ### histories -/

/-- The session stores the set `S`. -/
structure Stores (O : Onto D) (st : St D V) (S : List (Triple D V)) : Prop where
  inv : Inv O st
  has : ∀ x, Has O st.db x ↔ x ∈ S
  ok : ∀ x ∈ S, x.Ok O st.db.dts

theorem triples_ok [DecidableEq D] [DecidableEq V] {O : Onto D} (hO : O.WF) {st : St D V} {S : List (Triple D V)} (h : Stores O st S) {pat : Pat D V} (hp : pat.Ok O st.db.dts) :
    ∃ res st', triples O pat st = (.ok res, st') ∧ StepOk O st st' ∧ ∀ x, x ∈ res ↔ x ∈ S ∧ pat.matches x = true := by
  obtain ⟨ts, h1, h2, h3, h4⟩ := tablesFor_ok (db := st.db) hp
  obtain ⟨res, st', k1, k2, k3⟩ := queries_ok hO ts h.inv h2 h3
  refine ⟨res, st', by simp only [triples, h1, k1], k2, fun x => ?_⟩
  rw [k3, h.has]
  constructor
  · rintro ⟨a, _, c⟩; exact ⟨a, c⟩
  · rintro ⟨a, c⟩; exact ⟨a, h4 x (h.ok x a) c, c⟩

theorem Ok_mono {O : Onto D} {dts dts' : List D} (h : ∀ d ∈ dts, d ∈ dts') {t : Triple D V} (ht : t.Ok O dts) : t.Ok O dts' := by
  obtain ⟨s, p, o⟩ := t
  match o with
  | .cuds u => exact ht
  | .ent i => exact ht
  | .lit dt v =>
    obtain ⟨h1, k, h2, h3, h4⟩ := ht
    exact ⟨h1, k, h2, h3, h _ h4⟩

theorem Stores.ext {O : Onto D} {st st' : St D V} {S : List (Triple D V)} (h : Stores O st S) (k : StepOk O st st') : Stores O st' S :=
  ⟨k.inv, fun x => (has_ext h.inv k.inv k.ext x).trans (h.has x), fun x hx => by rw [k.ext.dts]; exact h.ok x hx⟩

theorem reopen_ok [DecidableEq D] {O : Onto D} {st : St D V} {S : List (Triple D V)} (h : Stores O st S) (dts : List D) : Stores O (reopen dts st) S := by
  have hsub : ∀ d ∈ st.db.dts, d ∈ st.db.dts ++ dts.filter (fun d => d ∉ st.db.dts) := fun d hd => List.mem_append_left _ hd
  refine ⟨⟨rfl, h.inv.ns, h.inv.cuds, h.inv.ents, h.inv.eref, h.inv.tref, h.inv.rref, h.inv.dref, ?_⟩, ?_, fun x hx => Ok_mono hsub (h.ok x hx)⟩
  · intro d hd
    exact h.inv.dts d (fun hd' => hd (hsub d hd'))
  · intro x
    rw [← h.has x]
    obtain ⟨s, p, o⟩ := x
    match o with
    | .cuds u => exact Iff.rfl
    | .ent i => exact Iff.rfl
    | .lit none v => exact Iff.rfl
    | .lit (some d) v =>
      constructor
      · rintro ⟨_, a, e, h1, h2, h3⟩
        refine ⟨?_, a, e, h1, h2, h3⟩
        refine Classical.byContradiction fun hn => ?_
        change (a, e, v) ∈ st.db.data d at h3
        rw [h.inv.dts d hn] at h3
        cases h3
      · rintro ⟨hd, a, e, h1, h2, h3⟩
        exact ⟨hsub d hd, a, e, h1, h2, h3⟩

theorem empty_ok (O : Onto D) (dts : List D) (c : List (Idx × Iri)) (hc : c = []) : Stores (V := V) O ⟨{ dts := dts }, c⟩ [] := by
  subst hc
  refine ⟨⟨rfl, Bij.nil, Bij.nil, Bij.nil, ?_, ?_, ?_, ?_, fun _ _ => rfl⟩, ?_, ?_⟩
  · intro r hr; cases hr
  · intro r hr; cases hr
  · intro r hr; cases hr
  · intro d r hr; cases hr
  · intro x
    obtain ⟨s, p, o⟩ := x
    match o with
    | .cuds u => exact ⟨fun hh => (by obtain ⟨_, _, _, _, _, _, h4⟩ := hh; cases h4), fun hh => (by cases hh)⟩
    | .ent i => exact ⟨fun hh => (by obtain ⟨_, _, _, _, _, h4⟩ := hh; cases h4), fun hh => (by cases hh)⟩
    | .lit none v => exact ⟨fun hh => hh.elim, fun hh => (by cases hh)⟩
    | .lit (some d) v => exact ⟨fun hh => (by obtain ⟨_, _, _, _, _, h4⟩ := hh; cases h4), fun hh => (by cases hh)⟩
  · intro x hx; cases hx

/-- One operation in scope: no exception, and the stored set changes as specified. -/
theorem step_ok [DecidableEq D] [DecidableEq V] {O : Onto D} (hO : O.WF) {st : St D V} {S : List (Triple D V)} (h : Stores O st S) {op : Op D V} (hop : op.Ok O st.db.dts) :
    (step O st op).1 = .ok () ∧ Stores O (step O st op).2 (specStep S op) ∧ (step O st op).2.db.dts = dtsStep st.db.dts op := by
  cases op with
  | add t =>
    obtain ⟨h1, h2, h3, h4⟩ := add_ok hO h.inv hop
    refine ⟨h1, ⟨h2, ?_, ?_⟩, h3⟩
    · intro x
      show Has O (add O t st).2.db x ↔ x ∈ t :: S
      rw [h4, h.has, List.mem_cons]
      exact or_comm
    · intro x hx
      show x.Ok O (add O t st).2.db.dts
      rw [h3]
      rcases List.mem_cons.1 hx with rfl | hx
      · exact hop
      · exact h.ok x hx
  | remove pat =>
    obtain ⟨ts, t1, t2, t3, t4⟩ := tablesFor_ok (db := st.db) hop
    obtain ⟨r1, r2, r3, r4⟩ := removeTables_ok hO ts h.inv t2 t3
    have hrun : remove O pat st = removeTables O pat ts st := by simp only [remove, t1]
    show (remove O pat st).1 = _ ∧ Stores O (remove O pat st).2 _ ∧ (remove O pat st).2.db.dts = _
    rw [hrun]
    refine ⟨r1, ⟨r2, ?_, ?_⟩, r3⟩
    · intro x
      show Has O (removeTables O pat ts st).2.db x ↔ x ∈ S.filter (fun t => !pat.matches t)
      rw [r4, mem_filter_not, h.has]
      refine and_congr_right fun hx => ?_
      constructor
      · intro hn hm; exact hn ⟨t4 x (h.ok x hx) hm, hm⟩
      · intro hn hm; exact hn hm.2
    · intro x hx
      rw [r3]
      exact h.ok x (List.mem_filter.1 hx).1
  | query pat =>
    obtain ⟨res, st', h1, h2, _⟩ := triples_ok hO h hop
    simp only [step, h1]
    exact ⟨trivial, h.ext h2, h2.ext.dts⟩
  | reopen dts => exact ⟨rfl, reopen_ok h dts, rfl⟩
  | clear dts => exact ⟨rfl, reopen_ok (empty_ok O st.db.dts [] rfl) dts, rfl⟩

theorem run_ok [DecidableEq D] [DecidableEq V] {O : Onto D} (hO : O.WF) (ops : List (Op D V)) {st : St D V} {S : List (Triple D V)} (h : Stores O st S) (hops : AllOk O st.db.dts ops) :
    firstErr O st ops = none ∧ Stores O (run O st ops) (specRun S ops) ∧ (run O st ops).db.dts = dtsRun st.db.dts ops := by
  induction ops generalizing st S with
  | nil => exact ⟨rfl, h, rfl⟩
  | cons op ops ih =>
    obtain ⟨h1, h2, h3⟩ := step_ok hO h hops.1
    have hops' := hops.2
    rw [← h3] at hops'
    obtain ⟨i1, i2, i3⟩ := ih h2 hops'
    refine ⟨?_, i2, by rw [show run O st (op :: ops) = run O (step O st op).2 ops from rfl, i3, h3]; rfl⟩
    unfold firstErr
    generalize step O st op = y at h1 i1
    obtain ⟨r, s⟩ := y
    dsimp only at h1
    subst h1
    exact i1

/-- **C39.** Start with an empty database and perform any history of additions, removals, queries, reconnections (with any installed datatypes) and clearings, all in
scope. No call raises, and afterwards every pattern gives exactly the triples that were added and not removed and match it. -/
theorem sql_store_is_triple_set_partial [DecidableEq D] [DecidableEq V] {O : Onto D} (hO : O.WF) (ops : List (Op D V)) (hops : AllOk O [] ops) (pat : Pat D V)
    (hp : pat.Ok O (dtsRun [] ops)) :
    firstErr O St.empty ops = none ∧ ∃ res, (triples O pat (run O St.empty ops)).1 = .ok res ∧ ∀ t, t ∈ res ↔ t ∈ specRun [] ops ∧ pat.matches t = true := by
  obtain ⟨h1, h2, h3⟩ := run_ok hO ops (empty_ok O [] [] rfl : Stores O (St.empty : St D V) []) hops
  refine ⟨h1, ?_⟩
  rw [← show (run O St.empty ops).db.dts = dtsRun [] ops from h3] at hp
  obtain ⟨res, st', k1, _, k3⟩ := triples_ok hO h2 hp
  exact ⟨res, congrArg Prod.fst k1, k3⟩

/-! ### a concrete case -/

/-- An ontology with namespaces ending in `#`: predicates `a#r` (relationship), `a#v` (attribute with datatype 1), `b#w` (attribute without datatype). Datatype 0 is `xsd:string`. -/
def O0 : Onto Nat where
  rdfType := "t#type".toList
  xsdString := 0
  nsOf i := i.take (i.findIdx (· = '#') + 1)
  kind i := if i = "a#r".toList then some .rel else if i = "a#v".toList then some (.attr (some 1)) else if i = "b#w".toList then some (.attr none) else none

theorem O0_wf : O0.WF := fun _ => List.take_prefix _ _

def t1 : Triple Nat Nat := ⟨1, "t#type".toList, .ent "b#A".toList⟩
def t2 : Triple Nat Nat := ⟨1, "a#r".toList, .cuds 2⟩
def t3 : Triple Nat Nat := ⟨2, "a#v".toList, .lit (some 1) 7⟩
def t4 : Triple Nat Nat := ⟨2, "b#w".toList, .lit (some 0) 8⟩

/-- A history in scope with all kinds of triples. -/
example : AllOk O0 [] [.reopen [0, 1], .add t1, .add t2, .add t3, .reopen [2], .add t4, .remove ⟨some 2, none, none⟩, .query ⟨none, some "a#r".toList, none⟩, .add t3] := by
  refine ⟨trivial, rfl, ⟨by decide, by decide⟩, ⟨by decide, some 1, by decide, by decide, by decide⟩, trivial, ⟨by decide, none, by decide, by decide, by decide⟩, trivial, ?_,
    ⟨by decide, some 1, by decide, by decide, by decide⟩, trivial⟩
  exact Or.inr (Or.inl rfl)

example : specRun [] [.reopen [0, 1], .add t1, .add t2, .add t3, .reopen [2], .add t4, .remove ⟨some 2, none, none⟩, .query ⟨none, some "a#r".toList, none⟩, .add t3] = [t3, t2, t1] := by
  decide +kernel

/-- A session whose dictionary of namespaces is out of date, because another session added namespaces to the database, reads the same triples from the rows as one that is up
to date. -/
theorem stale_namespaces_reloaded {O : Onto D} {t : Tbl D} : ∀ (rows : List (Row V)) (st : St D V), (∀ i n, st.cache.lookup i = some n → st.db.ns.lookup i = some n) →
    (rowsToTriples O t rows st).1 = (rowsToTriples O t rows { st with cache := st.db.ns }).1 := by
  intro rows
  induction rows with
  | nil => intro st _; rfl
  | cons r rs ih =>
    intro st h
    have h2 : ∀ x : St D V, x = { st with cache := st.db.ns } → (rowsToTriples O t rs x).1 = (rowsToTriples O t rs { st with cache := st.db.ns }).1 := by rintro _ rfl; rfl
    unfold rowsToTriples getNs
    cases hc : st.cache.lookup r.n with
    | some n =>
      have hn := h _ _ hc
      simp only [hn]
      have := ih st h
      revert this
      generalize rowsToTriples O t rs st = a
      generalize rowsToTriples O t rs { st with cache := st.db.ns } = b
      obtain ⟨a1, a2⟩ := a
      obtain ⟨b1, b2⟩ := b
      intro e
      dsimp only at e
      subst e
      cases a1 <;> rfl
    | none =>
      simp only
      cases hn : st.db.ns.lookup r.n with
      | some n => rfl
      | none => rfl

example : let st : St Nat Nat := run O0 St.empty [.reopen [0, 1], .add t2, .add t1]
    let stale : St Nat Nat := { st with cache := st.db.ns.take 1 }
    stale.cache ≠ st.db.ns ∧ (triples O0 ⟨some 1, none, none⟩ stale).1 = (triples O0 ⟨some 1, none, none⟩ st).1 := by decide +kernel

/-! ### what lies outside -/

/-- Finding (C39): a value of an attribute without datatype comes back as `xsd:string`: the stored triple is not found again. -/
theorem untyped_literal_changed :
    (triples O0 ⟨some 2, none, none⟩ (run O0 St.empty [.reopen [0], .add ⟨2, "b#w".toList, .lit none 8⟩])).1 = .ok [⟨2, "b#w".toList, .lit (some 0) 8⟩] := by decide +kernel

/-- Finding (C39): data tables have no primary key, so a triple added twice is returned twice (as a set the answer is right). -/
theorem literal_returned_twice : (triples O0 ⟨some 2, none, none⟩ (run O0 St.empty [.reopen [0, 1], .add t3, .add t3])).1 = .ok [t3, t3] := by decide +kernel

/-- Finding (C39): with an IRI as object, the predicate of a pattern is ignored: asking for `(s, p, class)` answers with the type of `s`, which does not match, and removing it
removes the type. -/
theorem predicate_ignored_for_iris :
    (triples O0 ⟨some 1, some "a#r".toList, some (.ent "b#A".toList)⟩ (run O0 St.empty [.reopen [], .add t1])).1 = .ok [t1] ∧
    (triples O0 ⟨some 1, none, none⟩ (run O0 St.empty [.reopen [], .add t1, .remove ⟨some 1, some "a#r".toList, some (.ent "b#A".toList)⟩])).1 = .ok [] := by decide +kernel

/-- A rolled back transaction: the database is as before, the dictionaries of the session are not (`_rollback_transaction`, lite:51-53). -/
def rollback (before after : St D V) : St D V := ⟨before.db, after.cache⟩

/-- Finding (C39, C42): after a failed commit the session believes in a namespace row that was rolled back. The repeated commit writes entities that refer to the
missing row; a later session raises, and as soon as another namespace gets the free number, the stored class is another one. -/
theorem rollback_corrupts_namespaces :
    let before := run O0 (St.empty : St Nat Nat) [.reopen [0, 1], .add t2]
    let failed := rollback before (run O0 before [.add t1])
    (triples O0 ⟨some 1, some "t#type".toList, none⟩ (run O0 failed [.add t1, .reopen []])).1 = .error .keyError ∧
    (triples O0 ⟨some 1, some "t#type".toList, none⟩ (run O0 failed [.add t1, .reopen [], .add ⟨3, "t#type".toList, .ent "c#B".toList⟩])).1 =
      .ok [⟨1, "t#type".toList, .ent "c#A".toList⟩] := by decide +kernel

/-- Finding (C39): when the namespace an IRI is split at changes (another ontology was installed), the rows written before are not found by their predicate. -/
theorem changed_split_hides_triples :
    (triples { O0 with nsOf := fun _ => [] } ⟨none, some "a#r".toList, none⟩ (run O0 (St.empty : St Nat Nat) [.reopen [0, 1], .add t2])).1 = .ok [] ∧
    (triples O0 ⟨none, some "a#r".toList, none⟩ (run O0 (St.empty : St Nat Nat) [.reopen [0, 1], .add t2])).1 = .ok [t2] := by decide +kernel

end Osp.Tables
