import Verif.Persist.Spec
/-!
# Commits and loads refine the set of facts
-/
namespace Osp.Persist
open Tables

variable {D V : Type}

/-! ### triples and facts -/

theorem said_zero_inj {a b : Uid} (h : said 0 a = said 0 b) : a = b := by
  unfold said at h
  split at h <;> split at h <;> first | (rename_i x y; exact x.trans y.symm) | (cases h <;> rfl) | skip

theorem saidTriple_zero_inj {a b : Triple D V} (h : saidTriple 0 a = saidTriple 0 b) : a = b := by
  obtain ⟨s, p, o⟩ := a
  obtain ⟨s', p', o'⟩ := b
  unfold saidTriple at h
  injection h with h1 h2 h3
  dsimp only at h1 h2 h3
  have e : o = o' := by
    cases o <;> cases o' <;> simp only [saidObj, FObj.node.injEq, FObj.ent.injEq, FObj.lit.injEq, reduceCtorEq] at h3
    · rw [said_zero_inj h3]
    · rw [h3]
    · rw [h3.1, h3.2]
  rw [said_zero_inj h1, h2, e]

/-- What is written for `u`. -/
def slot (w u : Uid) : Uid := if u = w then 0 else u

theorem said_slot {w u : Uid} (hu : u ≠ 0) : said 0 (slot w u) = said w u := by
  unfold said slot
  by_cases h : u = w
  · simp [h]
  · simp [h, hu]

theorem slot_zero {w u : Uid} (h : slot w u = 0) (hu : u ≠ 0) : u = w := by
  unfold slot at h
  split at h
  · assumption
  · exact absurd h hu

theorem seen_said {w u : Uid} : seen w (said w u) = u := by
  unfold said
  split
  · rename_i h; exact h.symm
  · rfl

theorem seen_said_zero {w u : Uid} : seen w (said 0 u) = if u = 0 then w else u := by
  unfold said
  split <;> rfl

/-- No literal that looks like an IRI. -/
def Plain (E : Env D V) (o : Obj D V) : Prop := ∀ d v, o = .lit d v → E.looks v = none

theorem substObj_plain {E : Env D V} {a b : Uid} {o : Obj D V} (h : Plain E o) : substObj E a b o = .ok (swapObj a b o) := by
  cases o with
  | cuds u => rfl
  | ent i => rfl
  | lit d v => simp only [substObj, h d v rfl, swapObj]

theorem subst_plain {E : Env D V} {a b : Uid} : ∀ {ts : List (Triple D V)}, (∀ t ∈ ts, Plain E t.o) → subst E a b ts = .ok (ts.map (swap a b))
  | [], _ => rfl
  | t :: ts, h => by
    have h1 := substObj_plain (a := a) (b := b) (h t List.mem_cons_self)
    have h2 := subst_plain (a := a) (b := b) (fun x hx => h x (List.mem_cons_of_mem _ hx))
    simp only [subst, substTriple, h1, h2, List.map_cons, swap]

theorem seen_swap (w : Uid) (t : Triple D V) : swap 0 w t = seenTriple w (saidTriple 0 t) := by
  obtain ⟨s, p, o⟩ := t
  simp only [swap, seenTriple, saidTriple, seen_said_zero]
  cases o <;> simp only [swapObj, seenObj, saidObj, seen_said_zero]

theorem said_swap {w : Uid} {t : Triple D V} (hs : t.s ≠ 0) (ho : ∀ u, t.o = .cuds u → u ≠ 0) : saidTriple 0 (swap w 0 t) = saidTriple w t := by
  obtain ⟨s, p, o⟩ := t
  have h1 : said 0 (if s = w then 0 else s) = said w s := said_slot hs
  cases o with
  | cuds u =>
    have h2 : said 0 (if u = w then 0 else u) = said w u := said_slot (ho u rfl)
    simp only [swap, saidTriple, swapObj, saidObj, h1, h2]
  | ent i => simp only [swap, saidTriple, swapObj, saidObj, h1]
  | lit d v => simp only [swap, saidTriple, swapObj, saidObj, h1]

theorem swap_ok {O : Tables.Onto D} {dts : List D} {a b : Uid} {t : Triple D V} (h : t.Ok O dts) : (swap a b t).Ok O dts := by
  obtain ⟨s, p, o⟩ := t
  cases o <;> exact h

theorem swap_plain {E : Env D V} {a b : Uid} {t : Triple D V} (h : Plain E t.o) : Plain E (swap a b t).o := by
  obtain ⟨s, p, o⟩ := t
  cases o with
  | cuds u => intro d v e; cases e
  | ent i => intro d v e; cases e
  | lit d v => exact h

/-! ### the tables keep a set of facts -/

/-- The tables keep exactly the facts `S`. -/
def Keeps (E : Env D V) (st : St D V) (S : Facts D V) : Prop :=
  ∃ L, Stores E.toOnto st L ∧ (∀ t ∈ L, Plain E t.o) ∧ ∀ f, S f ↔ ∃ t ∈ L, f = saidTriple 0 t

theorem Keeps.congr {E : Env D V} {st : St D V} {S S' : Facts D V} (h : Keeps E st S) (e : ∀ f, S' f ↔ S f) : Keeps E st S' := by
  obtain ⟨L, h1, h2, h3⟩ := h
  exact ⟨L, h1, h2, fun f => (e f).trans (h3 f)⟩

theorem Keeps.ext {E : Env D V} {st st' : St D V} {S : Facts D V} (h : Keeps E st S) (k : StepOk E.toOnto st st') : Keeps E st' S := by
  obtain ⟨L, h1, h2, h3⟩ := h
  exact ⟨L, h1.ext k, h2, h3⟩

variable [DecidableEq D] [DecidableEq V]

theorem addAll_ok {O : Tables.Onto D} (hO : O.WF) : ∀ (ts : List (Triple D V)) {st : St D V} {L : List (Triple D V)}, Stores O st L → (∀ t ∈ ts, t.Ok O st.db.dts) →
    (addAll O ts st).1 = .ok () ∧ (addAll O ts st).2.db.dts = st.db.dts ∧ ∃ L', Stores O (addAll O ts st).2 L' ∧ ∀ x, x ∈ L' ↔ x ∈ L ∨ x ∈ ts
  | [], st, L, h, _ => ⟨rfl, rfl, L, h, by simp⟩
  | t :: ts, st, L, h, ht => by
    obtain ⟨a1, a2, a3⟩ := Tables.step_ok hO h (op := .add t) (ht t List.mem_cons_self)
    have a3' : (add O t st).2.db.dts = st.db.dts := a3
    have a1' : (add O t st).1 = .ok () := a1
    have a2' : Stores O (add O t st).2 (t :: L) := a2
    obtain ⟨b1, b2, L', b3, b4⟩ := addAll_ok hO ts a2' (fun x hx => by rw [a3']; exact ht x (List.mem_cons_of_mem _ hx))
    have hrun : addAll O (t :: ts) st = addAll O ts (add O t st).2 := by
      show (match add O t st with
        | (.error e, st) => ((.error e : Except PyErr Unit), st)
        | (.ok _, st) => addAll O ts st) = _
      generalize add O t st = y at a1'
      obtain ⟨r, s⟩ := y
      dsimp only at a1'
      subst a1'
      rfl
    rw [hrun]
    refine ⟨b1, b2.trans a3', L', b3, fun x => ?_⟩
    rw [b4, List.mem_cons, List.mem_cons]
    constructor
    · rintro ((h | h) | h)
      · exact Or.inr (Or.inl h)
      · exact Or.inl h
      · exact Or.inr (Or.inr h)
    · rintro (h | h | h)
      · exact Or.inl (Or.inr h)
      · exact Or.inl (Or.inl h)
      · exact Or.inr h

/-- Writing an entry adds its facts. -/
theorem addEntry_ok {E : Env D V} (hO : E.toOnto.WF) {w : Uid} {e : Entry D V} {st : St D V} {S : Facts D V} (h : Keeps E st S) (he : e.Ok E st.db.dts) :
    (addEntry E w e st).1 = .ok () ∧ (addEntry E w e st).2.db.dts = st.db.dts ∧ Keeps E (addEntry E w e st).2 (fun f => S f ∨ e.says w f) := by
  obtain ⟨L, h1, h2, h3⟩ := h
  have hpl : ∀ t ∈ e.triples, Plain E t.o := by
    intro t ht
    obtain ⟨x, hx, rfl⟩ := List.mem_map.1 ht
    exact (he.2 x hx).2.1
  have hsub := subst_plain (a := w) (b := 0) hpl
  have hok : ∀ t ∈ e.triples.map (swap w 0), t.Ok E.toOnto st.db.dts := by
    intro t ht
    obtain ⟨y, hy, rfl⟩ := List.mem_map.1 ht
    obtain ⟨x, hx, rfl⟩ := List.mem_map.1 hy
    exact swap_ok (he.2 x hx).2.2
  obtain ⟨b1, b2, L', b3, b4⟩ := addAll_ok hO _ h1 hok
  have hrun : addEntry E w e st = addAll E.toOnto (e.triples.map (swap w 0)) st := by
    unfold addEntry
    rw [hsub]
  rw [hrun]
  refine ⟨b1, b2, L', b3, ?_, ?_⟩
  · intro t ht
    rcases (b4 t).1 ht with ht | ht
    · exact h2 t ht
    · obtain ⟨y, hy, rfl⟩ := List.mem_map.1 ht
      exact swap_plain (hpl y hy)
  · intro f
    show (S f ∨ e.says w f) ↔ _
    rw [h3]
    constructor
    · rintro (⟨t, ht, rfl⟩ | ⟨x, hx, rfl⟩)
      · exact ⟨t, (b4 t).2 (Or.inl ht), rfl⟩
      · exact ⟨swap w 0 ⟨e.u, x.1, x.2⟩, (b4 _).2 (Or.inr (List.mem_map_of_mem (List.mem_map.2 ⟨x, hx, rfl⟩))), (said_swap he.1 (he.2 x hx).1).symm⟩
    · rintro ⟨t, ht, rfl⟩
      rcases (b4 t).1 ht with ht | ht
      · exact Or.inl ⟨t, ht, rfl⟩
      · obtain ⟨y, hy, rfl⟩ := List.mem_map.1 ht
        obtain ⟨x, hx, rfl⟩ := List.mem_map.1 hy
        exact Or.inr ⟨x, hx, said_swap he.1 (he.2 x hx).1⟩

/-- Removing an object removes the facts about it. -/
theorem removeObj_ok {E : Env D V} (hO : E.toOnto.WF) {w u : Uid} {st : St D V} {S : Facts D V} (h : Keeps E st S) (hu : u ≠ 0) :
    (removeObj E w u st).1 = .ok () ∧ (removeObj E w u st).2.db.dts = st.db.dts ∧ Keeps E (removeObj E w u st).2 (fun f => S f ∧ f.s ≠ said w u) := by
  obtain ⟨L, h1, h2, h3⟩ := h
  obtain ⟨a1, a2, a3⟩ := Tables.step_ok hO h1 (op := .remove ⟨some (slot w u), none, none⟩) trivial
  refine ⟨a1, a3, _, a2, fun t ht => h2 t (List.mem_filter.1 ht).1, fun f => ?_⟩
  have hm : ∀ t : Triple D V, (⟨some (slot w u), none, none⟩ : Pat D V).matches t = decide (t.s = slot w u) := by
    intro t; simp [Pat.matches]
  show (S f ∧ f.s ≠ said w u) ↔ _
  rw [h3]
  constructor
  · rintro ⟨⟨t, ht, rfl⟩, hn⟩
    refine ⟨t, ?_, rfl⟩
    simp only [Tables.specStep, hm, List.mem_filter, Bool.not_eq_true', decide_eq_false_iff_not]
    refine ⟨ht, fun e => hn ?_⟩
    rw [← said_slot hu, ← e]
    rfl
  · rintro ⟨t, ht, rfl⟩
    simp only [Tables.specStep, hm, List.mem_filter, Bool.not_eq_true', decide_eq_false_iff_not] at ht
    refine ⟨⟨t, ht.1, rfl⟩, fun e => ht.2 ?_⟩
    rw [← said_slot hu] at e
    exact said_zero_inj e

/-! ### commit -/

omit [DecidableEq D] [DecidableEq V] in
theorem pairOk {α : Type} {r : Except PyErr α × St D V} {x : α} (h : r.1 = .ok x) : r = (.ok x, r.2) := Prod.ext h rfl

theorem applyAdded_ok {E : Env D V} (hO : E.toOnto.WF) {w : Uid} : ∀ (es : List (Entry D V)) {st : St D V} {S : Facts D V}, Keeps E st S → (∀ e ∈ es, e.Ok E st.db.dts) →
    (applyAdded E w es st).1 = .ok () ∧ (applyAdded E w es st).2.db.dts = st.db.dts ∧ Keeps E (applyAdded E w es st).2 (fun f => S f ∨ ∃ e ∈ es, e.says w f)
  | [], st, S, h, _ => ⟨rfl, rfl, h.congr (by simp)⟩
  | e :: es, st, S, h, he => by
    obtain ⟨a1, a2, a3⟩ := addEntry_ok hO (w := w) h (he e List.mem_cons_self)
    obtain ⟨b1, b2, b3⟩ := applyAdded_ok hO (w := w) es a3 (fun x hx => by rw [a2]; exact he x (List.mem_cons_of_mem _ hx))
    have hrun : applyAdded E w (e :: es) st = applyAdded E w es (addEntry E w e st).2 := by
      rw [applyAdded, pairOk a1]
    rw [hrun]
    refine ⟨b1, b2.trans a2, b3.congr fun f => ?_⟩
    simp only [List.mem_cons, exists_eq_or_imp, or_assoc]

omit [DecidableEq D] [DecidableEq V] in
theorem says_s {w : Uid} {e : Entry D V} {f : Fact D V} (h : e.says w f) : f.s = said w e.u := by
  obtain ⟨x, _, rfl⟩ := h
  rfl

theorem said_inj {w a b : Uid} (h : said w a = said w b) : a = b := by
  have := congrArg (seen w) h
  rwa [seen_said, seen_said] at this

theorem applyUpdated_ok {E : Env D V} (hO : E.toOnto.WF) {w : Uid} : ∀ (es : List (Entry D V)) {st : St D V} {S : Facts D V}, Keeps E st S → (∀ e ∈ es, e.Ok E st.db.dts) →
    (es.map Entry.u).Nodup →
    (applyUpdated E w es st).1 = .ok () ∧ (applyUpdated E w es st).2.db.dts = st.db.dts ∧
      Keeps E (applyUpdated E w es st).2 (fun f => (∃ e ∈ es, e.says w f) ∨ (∀ e ∈ es, f.s ≠ said w e.u) ∧ S f)
  | [], st, S, h, _, _ => ⟨rfl, rfl, h.congr (by simp)⟩
  | e :: es, st, S, h, he, hn => by
    obtain ⟨r1, r2, r3⟩ := removeObj_ok hO (w := w) h (he e List.mem_cons_self).1
    obtain ⟨a1, a2, a3⟩ := addEntry_ok hO (w := w) r3 (by rw [r2]; exact he e List.mem_cons_self)
    rw [List.map_cons, List.nodup_cons] at hn
    obtain ⟨b1, b2, b3⟩ := applyUpdated_ok hO (w := w) es a3 (fun x hx => by rw [a2, r2]; exact he x (List.mem_cons_of_mem _ hx)) hn.2
    have hrun : applyUpdated E w (e :: es) st = applyUpdated E w es (addEntry E w e (removeObj E w e.u st).2).2 := by
      rw [applyUpdated, pairOk r1]
      show (match addEntry E w e (removeObj E w e.u st).2 with
        | (.error x, st) => ((.error x : Except PyErr Unit), st)
        | (.ok _, st) => applyUpdated E w es st) = _
      rw [pairOk a1]
    rw [hrun]
    refine ⟨b1, b2.trans (a2.trans r2), b3.congr fun f => ?_⟩
    simp only [List.mem_cons, exists_eq_or_imp, forall_eq_or_imp]
    constructor
    · rintro ((hs | hs) | ⟨⟨k1, k2⟩, k3⟩)
      · refine Or.inr ⟨fun x hx hh => ?_, Or.inr hs⟩
        rw [says_s hs] at hh
        exact hn.1 (List.mem_map.2 ⟨x, hx, (said_inj hh).symm⟩)
      · exact Or.inl hs
      · exact Or.inr ⟨k2, Or.inl ⟨k3, k1⟩⟩
    · rintro (hs | ⟨k2, ⟨k3, k1⟩ | hs⟩)
      · exact Or.inl (Or.inr hs)
      · exact Or.inr ⟨⟨k1, k2⟩, k3⟩
      · exact Or.inl (Or.inl hs)

theorem applyDeleted_ok {E : Env D V} (hO : E.toOnto.WF) {w : Uid} : ∀ (us : List Uid) {st : St D V} {S : Facts D V}, Keeps E st S → (∀ u ∈ us, u ≠ 0) →
    (applyDeleted E w us st).1 = .ok () ∧ (applyDeleted E w us st).2.db.dts = st.db.dts ∧ Keeps E (applyDeleted E w us st).2 (fun f => (∀ u ∈ us, f.s ≠ said w u) ∧ S f)
  | [], st, S, h, _ => ⟨rfl, rfl, h.congr (by simp)⟩
  | u :: us, st, S, h, hu => by
    obtain ⟨a1, a2, a3⟩ := removeObj_ok hO (w := w) h (hu u List.mem_cons_self)
    obtain ⟨b1, b2, b3⟩ := applyDeleted_ok hO (w := w) us a3 (fun x hx => hu x (List.mem_cons_of_mem _ hx))
    have hrun : applyDeleted E w (u :: us) st = applyDeleted E w us (removeObj E w u st).2 := by
      rw [applyDeleted, pairOk a1]
    rw [hrun]
    refine ⟨b1, b2.trans a2, b3.congr fun f => ?_⟩
    simp only [List.mem_cons, forall_eq_or_imp]
    constructor
    · rintro ⟨⟨k1, k2⟩, k3⟩; exact ⟨k2, k3, k1⟩
    · rintro ⟨k2, k3, k1⟩; exact ⟨⟨k1, k2⟩, k3⟩

/-- **C85.** A commit in scope does not raise, and afterwards the tables keep exactly the facts of the specification: nothing about deleted objects, exactly the triples of
updated objects, the triples of added objects besides what was stored about them, and what was stored about all the others. -/
theorem commit_exact {E : Env D V} (hO : E.toOnto.WF) {w : Uid} {b : Bufs D V} {st : St D V} {S : Facts D V} (h : Keeps E st S) (hb : b.Ok E st.db.dts) :
    (commit E w b st).1 = .ok () ∧ (commit E w b st).2.db.dts = st.db.dts ∧ Keeps E (commit E w b st).2 (specCommit w b S) := by
  obtain ⟨a1, a2, a3⟩ := applyAdded_ok hO (w := w) b.added h hb.1
  obtain ⟨b1, b2, b3⟩ := applyUpdated_ok hO (w := w) b.updated a3 (fun e he => by rw [a2]; exact hb.2.1 e he) hb.2.2.1
  obtain ⟨c1, c2, c3⟩ := applyDeleted_ok hO (w := w) b.deleted b3 hb.2.2.2
  have hrun : applyAll E w b st = applyDeleted E w b.deleted (applyUpdated E w b.updated (applyAdded E w b.added st).2).2 := by
    rw [applyAll, pairOk a1]
    show (match applyUpdated E w b.updated (applyAdded E w b.added st).2 with
      | (.error x, st) => ((.error x : Except PyErr Unit), st)
      | (.ok _, st) => applyDeleted E w b.deleted st) = _
    rw [pairOk b1]
  have hrun2 : commit E w b st = (.ok (), (applyAll E w b st).2) := by
    have hh : (applyAll E w b st).1 = .ok () := by rw [hrun]; exact c1
    rw [commit, pairOk hh]
  rw [hrun2, hrun]
  exact ⟨rfl, c2.trans (b2.trans a2), c3⟩

end Osp.Persist
