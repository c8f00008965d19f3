import Verif.Tables.Lemmas
/-!
# Adding, querying and removing
-/
namespace Osp.Tables
variable {D V : Type}

theorem mem_insertUnique {α : Type} [DecidableEq α] (r x : α) (t : List α) : x ∈ insertUnique r t ↔ x ∈ t ∨ x = r := by
  unfold insertUnique
  split
  · rename_i h
    constructor
    · exact Or.inl
    · rintro (h' | rfl)
      · exact h'
      · exact h
  · simp

/-- `_add` of a triple in scope succeeds and adds exactly this triple. -/
theorem add_ok [DecidableEq D] {O : Onto D} (hO : O.WF) {st : St D V} (h : Inv O st) {t : Triple D V} (ht : t.Ok O st.db.dts) :
    (add O t st).1 = .ok () ∧ Inv O (add O t st).2 ∧ (add O t st).2.db.dts = st.db.dts ∧ ∀ x, Has O (add O t st).2.db x ↔ Has O st.db x ∨ x = t := by
  obtain ⟨s, p, o⟩ := t
  match o with
  | .ent i =>
    have hp : p = O.rdfType := ht
    have hrun : add O ⟨s, p, .ent i⟩ st =
        (.ok (), { (entIdx O i (cudsIdx s st).2).2 with db := { (entIdx O i (cudsIdx s st).2).2.db with
          types := insertUnique ((cudsIdx s st).1, (entIdx O i (cudsIdx s st).2).1) (entIdx O i (cudsIdx s st).2).2.db.types } }) := rfl
    rw [hrun]
    obtain ⟨k1, c1⟩ := cudsIdx_ok h s
    generalize hA : cudsIdx s st = A at k1 c1
    obtain ⟨a, st1⟩ := A
    obtain ⟨k2, c2⟩ := entIdx_ok hO k1.inv i
    generalize hB : entIdx O i st1 = B at k2 c2
    obtain ⟨b, st2⟩ := B
    dsimp only at *
    have k := k1.trans k2
    have c1' := k2.ext.C c1
    refine ⟨rfl, ⟨k2.inv.cache, k2.inv.ns, k2.inv.cuds, k2.inv.ents, k2.inv.eref, ?_, k2.inv.rref, k2.inv.dref, k2.inv.dts⟩, k.ext.dts, ?_⟩
    · intro r hr
      rcases (mem_insertUnique _ _ _).1 hr with hr | rfl
      · exact k2.inv.tref r hr
      · exact ⟨⟨s, c1'⟩, ⟨i, c2⟩⟩
    · intro x
      rw [← has_ext h k.inv k.ext x]
      obtain ⟨xs, xp, xo⟩ := x
      match xo with
      | .ent j =>
        constructor
        · rintro ⟨e1, y, z, h1, h2, h3⟩
          rcases (mem_insertUnique _ _ _).1 h3 with h3 | h3
          · exact Or.inl ⟨e1, y, z, h1, h2, h3⟩
          · cases h3
            have e2 : xs = s := k2.inv.C_fun h1 c1'
            have e3 : j = i := k2.inv.E_fun h2 c2
            right
            change xp = O.rdfType at e1
            rw [e1, e2, e3, hp]
        · rintro (⟨e1, y, z, h1, h2, h3⟩ | e)
          · exact ⟨e1, y, z, h1, h2, (mem_insertUnique _ _ _).2 (Or.inl h3)⟩
          · cases e
            exact ⟨hp, a, b, c1', c2, (mem_insertUnique _ _ _).2 (Or.inr rfl)⟩
      | .cuds u => exact ⟨Or.inl, fun h => h.elim id (fun e => (by cases e))⟩
      | .lit none v => exact ⟨Or.inl, fun h => h.elim id (fun e => (by cases e))⟩
      | .lit (some d) v => exact ⟨Or.inl, fun h => h.elim id (fun e => (by cases e))⟩
  | .cuds u =>
    have hrun : add O ⟨s, p, .cuds u⟩ st =
        (.ok (), { (cudsIdx u (entIdx O p (cudsIdx s st).2).2).2 with db := { (cudsIdx u (entIdx O p (cudsIdx s st).2).2).2.db with
          rels := insertUnique ((cudsIdx s st).1, (entIdx O p (cudsIdx s st).2).1, (cudsIdx u (entIdx O p (cudsIdx s st).2).2).1)
            (cudsIdx u (entIdx O p (cudsIdx s st).2).2).2.db.rels } }) := rfl
    rw [hrun]
    obtain ⟨k1, c1⟩ := cudsIdx_ok h s
    generalize hA : cudsIdx s st = A at k1 c1
    obtain ⟨a, st1⟩ := A
    obtain ⟨k2, c2⟩ := entIdx_ok hO k1.inv p
    generalize hB : entIdx O p st1 = B at k2 c2
    obtain ⟨b, st2⟩ := B
    obtain ⟨k3, c3⟩ := cudsIdx_ok k2.inv u
    generalize hE : cudsIdx u st2 = E' at k3 c3
    obtain ⟨e, st3⟩ := E'
    dsimp only at *
    have k := (k1.trans k2).trans k3
    have c1' := k3.ext.C (k2.ext.C c1)
    have c2' := k3.ext.E c2
    refine ⟨rfl, ⟨k3.inv.cache, k3.inv.ns, k3.inv.cuds, k3.inv.ents, k3.inv.eref, k3.inv.tref, ?_, k3.inv.dref, k3.inv.dts⟩, k.ext.dts, ?_⟩
    · intro r hr
      rcases (mem_insertUnique _ _ _).1 hr with hr | rfl
      · exact k3.inv.rref r hr
      · exact ⟨⟨s, c1'⟩, ⟨p, c2'⟩, ⟨u, c3⟩⟩
    · intro x
      rw [← has_ext h k.inv k.ext x]
      obtain ⟨xs, xp, xo⟩ := x
      match xo with
      | .cuds w =>
        constructor
        · rintro ⟨y, z, v, h1, h2, h3, h4⟩
          rcases (mem_insertUnique _ _ _).1 h4 with h4 | h4
          · exact Or.inl ⟨y, z, v, h1, h2, h3, h4⟩
          · cases h4
            have e2 : xs = s := k3.inv.C_fun h1 c1'
            have e3 : xp = p := k3.inv.E_fun h2 c2'
            have e4 : w = u := k3.inv.C_fun h3 c3
            right
            rw [e2, e3, e4]
        · rintro (⟨y, z, v, h1, h2, h3, h4⟩ | e')
          · exact ⟨y, z, v, h1, h2, h3, (mem_insertUnique _ _ _).2 (Or.inl h4)⟩
          · cases e'
            exact ⟨a, b, e, c1', c2', c3, (mem_insertUnique _ _ _).2 (Or.inr rfl)⟩
      | .ent j => exact ⟨Or.inl, fun h => h.elim id (fun e => (by cases e))⟩
      | .lit none v => exact ⟨Or.inl, fun h => h.elim id (fun e => (by cases e))⟩
      | .lit (some d) v => exact ⟨Or.inl, fun h => h.elim id (fun e => (by cases e))⟩
  | .lit dt v =>
    obtain ⟨hp, k, hk, hdt, hd⟩ := ht
    generalize hdd : k.getD O.xsdString = d at hdt hd
    have hdt' : dt = some d := hdt
    subst hdt'
    have hrun : add O ⟨s, p, .lit (some d) v⟩ st =
        if d ∈ (entIdx O p (cudsIdx s st).2).2.db.dts then (.ok (), { (entIdx O p (cudsIdx s st).2).2 with db := { (entIdx O p (cudsIdx s st).2).2.db with
          data := fun e => if e = d then (entIdx O p (cudsIdx s st).2).2.db.data d ++ [((cudsIdx s st).1, (entIdx O p (cudsIdx s st).2).1, v)] else
            (entIdx O p (cudsIdx s st).2).2.db.data e } }) else (.error .exception, (entIdx O p (cudsIdx s st).2).2) := rfl
    rw [hrun]
    obtain ⟨k1, c1⟩ := cudsIdx_ok h s
    generalize hA : cudsIdx s st = A at k1 c1
    obtain ⟨a, st1⟩ := A
    obtain ⟨k2, c2⟩ := entIdx_ok hO k1.inv p
    generalize hB : entIdx O p st1 = B at k2 c2
    obtain ⟨b, st2⟩ := B
    dsimp only at *
    have k := k1.trans k2
    have c1' := k2.ext.C c1
    have hd2 : d ∈ st2.db.dts := by rw [k.ext.dts]; exact hd
    rw [if_pos hd2]
    have hmem : ∀ e r, r ∈ (if e = d then st2.db.data d ++ [(a, b, v)] else st2.db.data e) ↔ r ∈ st2.db.data e ∨ (e = d ∧ r = (a, b, v)) := by
      intro e r
      by_cases he : e = d
      · subst he; simp
      · simp [he]
    refine ⟨rfl, ⟨k2.inv.cache, k2.inv.ns, k2.inv.cuds, k2.inv.ents, k2.inv.eref, k2.inv.tref, k2.inv.rref, ?_, ?_⟩, k.ext.dts, ?_⟩
    · intro e r hr
      rcases (hmem e r).1 hr with hr | ⟨_, rfl⟩
      · exact k2.inv.dref e r hr
      · exact ⟨⟨s, c1'⟩, ⟨p, c2⟩⟩
    · intro e he
      have : e ≠ d := fun e' => he (e' ▸ hd2)
      show (if e = d then _ else st2.db.data e) = []
      rw [if_neg this]; exact k2.inv.dts e he
    · intro x
      rw [← has_ext h k.inv k.ext x]
      obtain ⟨xs, xp, xo⟩ := x
      match xo with
      | .lit (some d') v' =>
        constructor
        · rintro ⟨hd', y, z, h1, h2, h3⟩
          rcases (hmem d' _).1 h3 with h3 | ⟨e1, h3⟩
          · exact Or.inl ⟨hd', y, z, h1, h2, h3⟩
          · cases h3
            have e2 : xs = s := k2.inv.C_fun h1 c1'
            have e3 : xp = p := k2.inv.E_fun h2 c2
            right
            rw [e1, e2, e3]
        · rintro (⟨hd', y, z, h1, h2, h3⟩ | e')
          · exact ⟨hd', y, z, h1, h2, (hmem _ _).2 (Or.inl h3)⟩
          · cases e'
            exact ⟨hd2, a, b, c1', c2, (hmem _ _).2 (Or.inr ⟨rfl, rfl⟩)⟩
      | .ent j => exact ⟨Or.inl, fun h => h.elim id (fun e => (by cases e))⟩
      | .cuds u => exact ⟨Or.inl, fun h => h.elim id (fun e => (by cases e))⟩
      | .lit none v => exact ⟨Or.inl, fun h => h.elim id (fun e => (by cases e))⟩

/-! ### queries -/

/-- The table a triple is stored in. -/
def InTbl (t : Tbl D) (x : Triple D V) : Prop := match t with
  | .types => ∃ i, x.o = .ent i
  | .rels => ∃ u, x.o = .cuds u
  | .data d => ∃ v, x.o = .lit (some d) v

/-- A pattern that can be looked up in a table. -/
def Fits (O : Onto D) (pat : Pat D V) (t : Tbl D) : Prop := match t with
  | .types => (pat.o = none ∨ ∃ i, pat.o = some (.ent i)) ∧ (pat.p = none ∨ pat.p = some O.rdfType)
  | .rels => pat.o = none ∨ ∃ u, pat.o = some (.cuds u)
  | .data d => pat.o = none ∨ ∃ v, pat.o = some (.lit (some d) v)

theorem rowsToTriples_ok {O : Onto D} (t : Tbl D) {st : St D V} (h : Inv O st) (rows : List (Row V)) (hr : ∀ r ∈ rows, ∃ m, (r.n, m) ∈ st.db.ns) :
    ∃ ts, rowsToTriples O t rows st = (.ok ts, st) ∧ ∀ x, x ∈ ts ↔ ∃ r ∈ rows, ∃ m, (r.n, m) ∈ st.db.ns ∧ rowTriple O t r (m ++ r.name) = some x := by
  induction rows with
  | nil => exact ⟨[], rfl, fun x => by simp⟩
  | cons r rows ih =>
    obtain ⟨ts, h1, h2⟩ := ih (fun r hr' => hr r (List.mem_cons_of_mem _ hr'))
    obtain ⟨m, hm⟩ := hr r (List.mem_cons_self ..)
    have hget : getNs r.n st = (.ok m, st) := by
      unfold getNs
      rw [h.cache, lookup_of_mem h.ns hm]
    refine ⟨(rowTriple O t r (m ++ r.name)).toList ++ ts, by simp only [rowsToTriples, hget, h1], ?_⟩
    intro x
    rw [List.mem_append, h2]
    simp only [List.mem_cons, Option.mem_toList]
    constructor
    · rintro (hx | ⟨r', hr', hh⟩)
      · exact ⟨r, Or.inl rfl, m, hm, hx⟩
      · exact ⟨r', Or.inr hr', hh⟩
    · rintro ⟨r', rfl | hr', m', hm', hx⟩
      · rw [h.ns.fun_ hm' hm] at hx; exact Or.inl hx
      · exact Or.inr ⟨r', hr', m', hm', hx⟩

/-- The optional condition on an entity. -/
theorem ent_condOpt {O : Onto D} (hO : O.WF) {st : St D V} {i : Option Iri} {c : Option (Idx × Iri)} (h : Inv O st)
    (h1 : ∀ e, c = some e → ∃ x, i = some x ∧ e.2 = O.nameOf x ∧ (e.1, O.nsOf x) ∈ st.db.ns) (h0 : c = none → i = none)
    {k : Idx} {r : Idx × Iri} (hr : (k, r) ∈ st.db.ents) {m : Iri} (hm : (r.1, m) ∈ st.db.ns) : eqC c r = true ↔ ∀ x, i = some x → m ++ r.2 = x := by
  cases c with
  | none => simp [eqC, h0 rfl]
  | some e =>
    obtain ⟨x, rfl, h2, h3⟩ := h1 e rfl
    simp only [eqC, decide_eq_true_eq, Option.some.injEq, forall_eq']
    exact ent_cond hO h h2 h3 hr hm

theorem eqC_iff {α : Type} [DecidableEq α] (c : Option α) (x : α) : eqC c x = true ↔ ∀ y, c = some y → x = y := by
  cases c <;> simp [eqC]

theorem matches_iff [DecidableEq D] [DecidableEq V] (pat : Pat D V) (t : Triple D V) :
    pat.matches t = true ↔ (∀ y, pat.s = some y → t.s = y) ∧ (∀ y, pat.p = some y → t.p = y) ∧ (∀ y, pat.o = some y → t.o = y) := by
  obtain ⟨s, p, o⟩ := pat
  cases s <;> cases p <;> cases o <;> simp [Pat.matches, and_assoc]

/-- One query gives exactly the matching triples of its table. -/
theorem query_ok [DecidableEq D] [DecidableEq V] {O : Onto D} (hO : O.WF) {st : St D V} (h : Inv O st) {pat : Pat D V} {t : Tbl D} (hf : Fits O pat t)
    (hd : ∀ d, t = .data d → d ∈ st.db.dts) :
    ∃ ts st', query O pat t st = (.ok ts, st') ∧ StepOk O st st' ∧ ∀ x, x ∈ ts ↔ Has O st.db x ∧ InTbl t x ∧ pat.matches x = true := by
  cases t with
  | types =>
    obtain ⟨k1, k2, k3⟩ := splitOpt_ok h (match pat.o with | some (.ent i) => some i | _ => none)
    have hrun : query O pat .types st = rowsToTriples O .types
        (selectTypes (splitOpt O (match pat.o with | some (.ent i) => some i | _ => none) st).2.db ⟨pat.s, none, none, (splitOpt O (match pat.o with | some (.ent i) => some i | _ => none) st).1, none⟩)
        (splitOpt O (match pat.o with | some (.ent i) => some i | _ => none) st).2 := rfl
    generalize hA : splitOpt O (match pat.o with | some (.ent i) => some i | _ => none) st = A at k1 k2 k3 hrun
    obtain ⟨c, st1⟩ := A
    dsimp only at *
    have hrows : ∀ r ∈ selectTypes st1.db ⟨pat.s, none, none, c, none⟩, ∃ m, (r.n, m) ∈ st1.db.ns := by
      intro r hr
      simp only [selectTypes, List.mem_flatMap] at hr
      obtain ⟨_, _, _, _, e, he, hr⟩ := hr
      split at hr
      · rw [List.mem_singleton] at hr
        subst hr
        obtain ⟨m, hm, _⟩ := k1.inv.eref e he
        exact ⟨m, hm⟩
      · cases hr
    obtain ⟨ts, h1, h2⟩ := rowsToTriples_ok .types k1.inv _ hrows
    refine ⟨ts, st1, by rw [hrun, h1], k1, ?_⟩
    intro x
    rw [h2, ← has_ext h k1.inv k1.ext x, matches_iff]
    constructor
    · rintro ⟨r, hr, m, hm, hx⟩
      simp only [selectTypes, List.mem_flatMap] at hr
      obtain ⟨q, hq, a, ha, e, he, hr⟩ := hr
      split at hr
      · rename_i hc
        rw [List.mem_singleton] at hr
        subst hr
        obtain ⟨c1, c2, c3, c4⟩ := hc
        cases hx
        refine ⟨⟨rfl, a.1, e.1, ha, ⟨_, _, m, he, hm, rfl⟩, c1 ▸ c2 ▸ hq⟩, ⟨_, rfl⟩, fun y hy => ?_, fun y hy => ?_, fun y hy => ?_⟩
        · exact (eqC_iff _ _).1 c3 y hy
        · rcases hf.2 with hf | hf <;> rw [hf] at hy <;> cases hy
          rfl
        · rcases hf.1 with hf | ⟨i, hf⟩ <;> rw [hf] at hy <;> cases hy
          show Obj.ent (m ++ e.2.2) = .ent i
          rw [(ent_condOpt hO k1.inv k2 k3 he hm).1 c4 i (by rw [hf])]
      · cases hr
    · rintro ⟨hh, ⟨i, hi⟩, m1, m2, m3⟩
      obtain ⟨xs, xp, xo⟩ := x
      dsimp only at hi
      subst hi
      obtain ⟨e1, a, b, h3, ⟨n, name, m, h4, h5, h6⟩, h7⟩ := hh
      dsimp only at e1 h3 h6 m1 m2 m3
      subst e1
      refine ⟨⟨xs, n, name, none, none⟩, ?_, m, h5, by rw [← h6]; rfl⟩
      simp only [selectTypes, List.mem_flatMap]
      refine ⟨_, h7, _, h3, _, h4, ?_⟩
      rw [if_pos]
      · exact List.mem_singleton.2 rfl
      · refine ⟨rfl, rfl, (eqC_iff _ _).2 m1, (ent_condOpt hO k1.inv k2 k3 h4 h5).2 ?_⟩
        intro y hy
        rcases hf.1 with hf | ⟨j, hf⟩
        · rw [hf] at hy; cases hy
        · rw [hf] at hy; cases hy
          have := m3 _ hf
          cases this
          exact h6.symm
  | rels =>
    obtain ⟨k1, k2, k3⟩ := splitOpt_ok h pat.p
    have hrun : query O pat .rels st = rowsToTriples O .rels
        (selectRels (splitOpt O pat.p st).2.db ⟨pat.s, (splitOpt O pat.p st).1, match pat.o with | some (.cuds u) => some u | _ => none, none, none⟩)
        (splitOpt O pat.p st).2 := rfl
    generalize hA : splitOpt O pat.p st = A at k1 k2 k3 hrun
    obtain ⟨c, st1⟩ := A
    generalize hcu : (match pat.o with | some (.cuds u) => some u | _ => none) = cu at hrun
    dsimp only at *
    have hrows : ∀ r ∈ selectRels st1.db ⟨pat.s, c, cu, none, none⟩, ∃ m, (r.n, m) ∈ st1.db.ns := by
      intro r hr
      simp only [selectRels, List.mem_flatMap] at hr
      obtain ⟨_, _, _, _, e, he, _, _, hr⟩ := hr
      split at hr
      · rw [List.mem_singleton] at hr
        subst hr
        obtain ⟨m, hm, _⟩ := k1.inv.eref e he
        exact ⟨m, hm⟩
      · cases hr
    obtain ⟨ts, h1, h2⟩ := rowsToTriples_ok .rels k1.inv _ hrows
    refine ⟨ts, st1, by rw [hrun, h1], k1, ?_⟩
    intro x
    rw [h2, ← has_ext h k1.inv k1.ext x, matches_iff]
    constructor
    · rintro ⟨r, hr, m, hm, hx⟩
      simp only [selectRels, List.mem_flatMap] at hr
      obtain ⟨q, hq, a, ha, e, he, b, hb, hr⟩ := hr
      split at hr
      · rename_i hc
        rw [List.mem_singleton] at hr
        subst hr
        obtain ⟨c1, c2, c3, c4, c5, c6⟩ := hc
        cases hx
        refine ⟨⟨a.1, e.1, b.1, ha, ⟨_, _, m, he, hm, rfl⟩, hb, c1 ▸ c2 ▸ c3 ▸ hq⟩, ⟨_, rfl⟩, fun y hy => ?_, fun y hy => ?_, fun y hy => ?_⟩
        · exact (eqC_iff _ _).1 c4 y hy
        · exact (ent_condOpt hO k1.inv k2 k3 he hm).1 c5 y hy
        · rcases hf with hf | ⟨i, hf⟩ <;> rw [hf] at hy <;> cases hy
          show Obj.cuds b.2 = .cuds i
          rw [(eqC_iff _ _).1 c6 i (by rw [← hcu, hf])]
      · cases hr
    · rintro ⟨hh, ⟨i, hi⟩, m1, m2, m3⟩
      obtain ⟨xs, xp, xo⟩ := x
      dsimp only at hi
      subst hi
      obtain ⟨a, e, b, h3, ⟨n, name, m, h4, h5, h6⟩, h7, h8⟩ := hh
      dsimp only at h3 h6 h7 m1 m2 m3
      refine ⟨⟨xs, n, name, some i, none⟩, ?_, m, h5, by rw [← h6]; rfl⟩
      simp only [selectRels, List.mem_flatMap]
      refine ⟨_, h8, _, h3, _, h4, _, h7, ?_⟩
      rw [if_pos]
      · exact List.mem_singleton.2 rfl
      · refine ⟨rfl, rfl, rfl, (eqC_iff _ _).2 m1, (ent_condOpt hO k1.inv k2 k3 h4 h5).2 ?_, (eqC_iff _ _).2 ?_⟩
        · intro y hy
          rw [← m2 y hy, h6]
        · intro y hy
          rcases hf with hf | ⟨j, hf⟩
          · rw [← hcu, hf] at hy; cases hy
          · rw [← hcu, hf] at hy; cases hy
            have := m3 _ hf
            cases this
            rfl
  | data d =>
    obtain ⟨k1, k2, k3⟩ := splitOpt_ok h pat.p
    have hrun : query O pat (.data d) st = if d ∈ (splitOpt O pat.p st).2.db.dts then rowsToTriples O (.data d)
        (selectData (splitOpt O pat.p st).2.db d ⟨pat.s, (splitOpt O pat.p st).1, none, none, match pat.o with | some (.lit _ v) => some v | _ => none⟩)
        (splitOpt O pat.p st).2 else (.error .exception, (splitOpt O pat.p st).2) := rfl
    generalize hA : splitOpt O pat.p st = A at k1 k2 k3 hrun
    obtain ⟨c, st1⟩ := A
    generalize hcv : (match pat.o with | some (.lit _ v) => some v | _ => none) = cv at hrun
    dsimp only at *
    have hd1 : d ∈ st1.db.dts := by rw [k1.ext.dts]; exact hd d rfl
    rw [if_pos hd1] at hrun
    have hrows : ∀ r ∈ selectData st1.db d ⟨pat.s, c, none, none, cv⟩, ∃ m, (r.n, m) ∈ st1.db.ns := by
      intro r hr
      simp only [selectData, List.mem_flatMap] at hr
      obtain ⟨_, _, _, _, e, he, hr⟩ := hr
      split at hr
      · rw [List.mem_singleton] at hr
        subst hr
        obtain ⟨m, hm, _⟩ := k1.inv.eref e he
        exact ⟨m, hm⟩
      · cases hr
    obtain ⟨ts, h1, h2⟩ := rowsToTriples_ok (.data d) k1.inv _ hrows
    refine ⟨ts, st1, by rw [hrun, h1], k1, ?_⟩
    intro x
    rw [h2, ← has_ext h k1.inv k1.ext x, matches_iff]
    constructor
    · rintro ⟨r, hr, m, hm, hx⟩
      simp only [selectData, List.mem_flatMap] at hr
      obtain ⟨q, hq, a, ha, e, he, hr⟩ := hr
      split at hr
      · rename_i hc
        rw [List.mem_singleton] at hr
        subst hr
        obtain ⟨c1, c2, c4, c5, c6⟩ := hc
        cases hx
        refine ⟨⟨hd1, a.1, e.1, ha, ⟨_, _, m, he, hm, rfl⟩, c1 ▸ c2 ▸ hq⟩, ⟨_, rfl⟩, fun y hy => ?_, fun y hy => ?_, fun y hy => ?_⟩
        · exact (eqC_iff _ _).1 c4 y hy
        · exact (ent_condOpt hO k1.inv k2 k3 he hm).1 c5 y hy
        · rcases hf with hf | ⟨i, hf⟩ <;> rw [hf] at hy <;> cases hy
          show Obj.lit (some d) q.2.2 = .lit (some d) i
          rw [(eqC_iff _ _).1 c6 i (by rw [← hcv, hf])]
      · cases hr
    · rintro ⟨hh, ⟨i, hi⟩, m1, m2, m3⟩
      obtain ⟨xs, xp, xo⟩ := x
      dsimp only at hi
      subst hi
      obtain ⟨_, a, e, h3, ⟨n, name, m, h4, h5, h6⟩, h8⟩ := hh
      dsimp only at h3 h6 m1 m2 m3
      refine ⟨⟨xs, n, name, none, some i⟩, ?_, m, h5, by rw [← h6]; rfl⟩
      simp only [selectData, List.mem_flatMap]
      refine ⟨_, h8, _, h3, _, h4, ?_⟩
      rw [if_pos]
      · exact List.mem_singleton.2 rfl
      · refine ⟨rfl, rfl, (eqC_iff _ _).2 m1, (ent_condOpt hO k1.inv k2 k3 h4 h5).2 ?_, (eqC_iff _ _).2 ?_⟩
        · intro y hy
          rw [← m2 y hy, h6]
        · intro y hy
          rcases hf with hf | ⟨j, hf⟩
          · rw [← hcv, hf] at hy; cases hy
          · rw [← hcv, hf] at hy; cases hy
            have := m3 _ hf
            cases this
            rfl

theorem queries_ok [DecidableEq D] [DecidableEq V] {O : Onto D} (hO : O.WF) {pat : Pat D V} (ts : List (Tbl D)) {st : St D V} (h : Inv O st)
    (hf : ∀ t ∈ ts, Fits O pat t) (hd : ∀ d, Tbl.data d ∈ ts → d ∈ st.db.dts) :
    ∃ res st', queries O pat ts st = (.ok res, st') ∧ StepOk O st st' ∧ ∀ x, x ∈ res ↔ Has O st.db x ∧ (∃ t ∈ ts, InTbl t x) ∧ pat.matches x = true := by
  induction ts generalizing st with
  | nil => exact ⟨[], st, rfl, ⟨h, Ext.refl _⟩, fun x => by simp⟩
  | cons t ts ih =>
    obtain ⟨a, st1, h1, k1, m1⟩ := query_ok hO h (hf t (List.mem_cons_self ..)) (fun d e => hd d (e ▸ List.mem_cons_self ..))
    obtain ⟨b, st2, h2, k2, m2⟩ := ih k1.inv (fun t ht => hf t (List.mem_cons_of_mem _ ht)) (fun d hm => by rw [k1.ext.dts]; exact hd d (List.mem_cons_of_mem _ hm))
    refine ⟨a ++ b, st2, by simp only [queries, h1, h2], k1.trans k2, ?_⟩
    intro x
    rw [List.mem_append, m1, m2, has_ext h k1.inv k1.ext x]
    simp only [List.mem_cons, exists_eq_or_imp]
    constructor
    · rintro (⟨q1, q2, q3⟩ | ⟨q1, q2, q3⟩)
      · exact ⟨q1, Or.inl q2, q3⟩
      · exact ⟨q1, Or.inr q2, q3⟩
    · rintro ⟨q1, q2 | q2, q3⟩
      · exact Or.inl ⟨q1, q2, q3⟩
      · exact Or.inr ⟨q1, q2, q3⟩

end Osp.Tables
