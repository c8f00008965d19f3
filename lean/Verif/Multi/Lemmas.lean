import Verif.Multi.Spec
/-!
# Loading without assumptions on the pending changes
-/
namespace Osp.Multi
open Osp.Sess

/-- Proof device; nothing in /repo: only registered objects have triples in the session. -/
def Tidy (s : St) : Prop := ∀ u, u ∉ s.reg → s.g u = ∅

/-- Proof device; nothing in /repo: what an object that is not expired shows was shown before or is stored. -/
structure Trace (s s' : St) : Prop where
  user : s'.user = s.user
  db : s'.db = s.db
  root : s'.root = s.root
  ctx : s'.ctx = s.ctx
  tidy : Tidy s'
  cell : ∀ v, v ∈ s'.reg → v ∉ s'.expired → (v ∈ s.reg ∧ v ∉ s.expired ∧ s'.g v = s.g v) ∨ s'.g v = s.stored v

theorem Trace.refl {s : St} (h : Tidy s) : Trace s s := ⟨rfl, rfl, rfl, rfl, h, fun _ a b => Or.inl ⟨a, b, rfl⟩⟩

theorem Trace.trans {a b c : St} (h : Trace a b) (k : Trace b c) : Trace a c := by
  refine ⟨k.user.trans h.user, k.db.trans h.db, k.root.trans h.root, k.ctx.trans h.ctx, k.tidy, fun v h1 h2 => ?_⟩
  rcases k.cell v h1 h2 with ⟨x, y, z⟩ | z
  · rcases h.cell v x y with ⟨x', y', z'⟩ | z'
    · exact Or.inl ⟨x', y', z.trans z'⟩
    · exact Or.inr (z.trans z')
  · exact Or.inr (z.trans (stored_eq h.root h.db v))

theorem trace_expire {s : St} (h : Tidy s) (us : List Uid) : Trace s (s.expire us).2 := by
  refine ⟨rfl, rfl, rfl, rfl, h, fun v h1 h2 => Or.inl ⟨h1, fun he => h2 ?_, rfl⟩⟩
  exact (mem_expire s us v).2 ⟨Or.inl he, h1⟩

/-- One round of a load. -/
theorem loadStep_weak {P : Params} {s : St} (hroot : s.root ≠ none) (ht : Tidy s) (hc : s.ctx = .engine) (he : s.engine = .empty) (uids missing : List Uid) {u : Uid} (hm : u ∈ missing) :
    ∃ s', St.loadStep P uids missing u s = (.ok (if s.stored u ≠ ∅ then some u else none), s') ∧ s'.user = s.user ∧ s'.db = s.db ∧ s'.root = s.root ∧ s'.ctx = .engine ∧ Tidy s' ∧
      (u ∈ s'.reg ↔ s.stored u ≠ ∅) ∧ s'.g u = s.stored u ∧ (∀ v, v ≠ u → (v ∈ s'.reg ↔ v ∈ s.reg) ∧ s'.g v = s.g v ∧ (v ∈ s.expired → v ∈ s.reg → v ∈ s'.expired)) := by
  have hdel : u ∉ s.engine.deleted := by rw [he]; simp [Buf.empty]
  unfold St.loadStep
  rw [if_neg (by simpa using hm)]
  rcases loadByIri_spec hroot hc (ht u) hdel with ⟨hst, hl⟩ | ⟨hst, e, hed, hl⟩
  · simp only [hl, hst, ne_eq, not_true_eq_false, if_false, iff_false]
    by_cases hreg : u ∈ s.reg
    · simp only [hreg, if_true, St.afterLoad, Option.isSome_none, Bool.false_eq_true, if_false, true_and]
      generalize htt : (if s.root = some u then s else (s.expire ((P.diff (s.g u) ∅).filter (· ∉ uids))).2) = t
      have h1 : t.user = s.user ∧ t.db = s.db ∧ t.root = s.root ∧ t.ctx = .engine ∧ t.reg = s.reg ∧ t.g = s.g := by
        rw [← htt]; split
        · exact ⟨rfl, rfl, rfl, hc, rfl, rfl⟩
        · exact ⟨rfl, rfl, rfl, hc, rfl, rfl⟩
      have h2 : ∀ v, v ∈ s.expired → v ∈ s.reg → v ∈ t.expired := by
        rw [← htt]; split
        · exact fun _ h _ => h
        · exact fun v h k => (mem_expire _ _ _).2 ⟨Or.inl h, k⟩
      obtain ⟨a1, a2, a3, a4, a5, a6⟩ := h1
      obtain ⟨e, hdt⟩ := deleteTriples_engine (P := P) a4 (u := u) (by rw [a5]; exact hreg)
      rw [if_pos (by rw [a5]; exact hreg), hdt]
      refine ⟨_, rfl, a1, a2, a3, a4, ?_, ?_, by simp, ?_⟩
      · intro v hv
        have hv' : v ∉ del t.reg u := hv
        rw [mem_del, a5] at hv'
        show Function.update t.g u ∅ v = ∅
        by_cases hvu : v = u
        · subst hvu; simp
        · rw [Function.update_of_ne hvu, a6]
          exact ht v (by tauto)
      · show u ∉ del t.reg u
        rw [mem_del]; tauto
      · intro v hv
        refine ⟨?_, by simp [hv, a6], h2 v⟩
        show v ∈ del t.reg u ↔ _
        rw [mem_del, a5]; tauto
    · simp only [hreg, if_false, St.afterLoad]
      exact ⟨s, rfl, rfl, rfl, rfl, hc, ht, hreg, ht u hreg, fun _ _ => ⟨Iff.rfl, rfl, fun h _ => h⟩⟩
  · simp only [hl, hst, ne_eq, not_false_eq_true, if_true, iff_true]
    have key : ∀ x : List Uid, Tidy ({ s with reg := ins s.reg u, g := Function.update s.g u (s.stored u), expired := x, engine := e } : St) := by
      intro x v hv
      have hv' : v ∉ ins s.reg u := hv
      rw [mem_ins] at hv'
      have hvu : v ≠ u := by tauto
      show Function.update s.g u (s.stored u) v = ∅
      rw [Function.update_of_ne hvu]
      exact ht v (by tauto)
    have cellv : ∀ v, v ≠ u → (v ∈ ins s.reg u ↔ v ∈ s.reg) ∧ Function.update s.g u (s.stored u) v = s.g v := by
      intro v hv
      exact ⟨by rw [mem_ins]; tauto, Function.update_of_ne hv _ _⟩
    by_cases hreg : u ∈ s.reg
    · simp only [hreg, if_true, St.afterLoad, reduceCtorEq, false_and, if_false]
      by_cases hru : s.root = some u
      · simp only [hru, if_true]
        refine ⟨_, rfl, rfl, rfl, hru.symm ▸ rfl, hc, ?_, (mem_ins _ _ _).2 (Or.inr rfl), by simp, fun v hv => ⟨(cellv v hv).1, (cellv v hv).2, fun h _ => (mem_del _ _ _).2 ⟨h, hv⟩⟩⟩
        exact key []
      · simp only [hru, if_false]
        refine ⟨_, rfl, rfl, rfl, rfl, hc, ?_, (mem_ins _ _ _).2 (Or.inr rfl), by simp [St.expire], fun v hv => ⟨(cellv v hv).1, (cellv v hv).2, fun h k => ?_⟩⟩
        · exact key []
        · exact (mem_expire _ _ _).2 ⟨Or.inl ((mem_del _ _ _).2 ⟨h, hv⟩), (cellv v hv).1.2 k⟩
    · simp only [hreg, if_false, St.afterLoad]
      exact ⟨_, rfl, rfl, rfl, rfl, hc, key _, (mem_ins _ _ _).2 (Or.inr rfl), by simp, fun v hv => ⟨(cellv v hv).1, (cellv v hv).2, fun h _ => (mem_del _ _ _).2 ⟨h, hv⟩⟩⟩

/-- The loop of a load. -/
theorem loadLoop_weak {P : Params} (uids missing : List Uid) : ∀ (us : List Uid) (s : St), s.root ≠ none → Tidy s → s.ctx = .user → (∀ u ∈ us, u ∉ missing → u ∈ s.reg) →
    ∃ xs s', St.loadLoop P uids missing us s = (.ok xs, s') ∧ s'.user = s.user ∧ s'.db = s.db ∧ s'.root = s.root ∧ s'.ctx = .user ∧ Tidy s' ∧
      (∀ u ∈ us, u ∈ missing → (u ∈ s'.reg ↔ s.stored u ≠ ∅) ∧ s'.g u = s.stored u) ∧
      (∀ v, v ∉ us ∨ v ∉ missing → (v ∈ s'.reg ↔ v ∈ s.reg) ∧ s'.g v = s.g v ∧ (v ∈ s.expired → v ∈ s.reg → v ∈ s'.expired)) := by
  intro us
  induction us with
  | nil =>
    intro s _ ht hc _
    exact ⟨[], s, rfl, rfl, rfl, rfl, hc, ht, by simp, fun _ _ => ⟨Iff.rfl, rfl, fun h _ => h⟩⟩
  | cons u us ih =>
    intro s hroot ht hc hnm
    have h1 : ∃ x s1, s.inEngine (St.loadStep P uids missing u) = (.ok x, s1) ∧ s1.user = s.user ∧ s1.db = s.db ∧ s1.root = s.root ∧ s1.ctx = .user ∧ Tidy s1 ∧
        (u ∈ missing → (u ∈ s1.reg ↔ s.stored u ≠ ∅) ∧ s1.g u = s.stored u) ∧
        (∀ v, v ≠ u ∨ v ∉ missing → (v ∈ s1.reg ↔ v ∈ s.reg) ∧ s1.g v = s.g v ∧ (v ∈ s.expired → v ∈ s.reg → v ∈ s1.expired)) := by
      unfold St.inEngine
      simp only [hc, ne_eq, reduceCtorEq, not_false_eq_true, if_true]
      by_cases hm : u ∈ missing
      · obtain ⟨s', b1, b2, b3, b4, b5, b6, b7, b8, b9⟩ := loadStep_weak (P := P) (s := { s with engine := .empty, ctx := .engine }) hroot ht rfl rfl uids missing hm
        rw [b1]
        refine ⟨_, _, rfl, b2, b3, b4, rfl, b6, fun _ => ⟨b7, b8⟩, ?_⟩
        rintro v (hv | hv)
        · exact b9 v hv
        · exact b9 v (by rintro rfl; exact hv hm)
      · unfold St.loadStep
        have hr := hnm u List.mem_cons_self hm
        simp only [hm, not_false_eq_true, if_true, hr]
        exact ⟨_, _, rfl, rfl, rfl, rfl, rfl, ht, fun h => absurd h (by simp), fun _ _ => ⟨Iff.rfl, rfl, fun h _ => h⟩⟩
    obtain ⟨x, s1, c1, c2, c3, c4, c5, c6, c7, c8⟩ := h1
    have hst1 := stored_eq c4 c3
    obtain ⟨xs, s', d1, d2, d3, d4, d5, d6, d7, d8⟩ := ih s1 (by rw [c4]; exact hroot) c6 c5 (fun v hv hm => (c8 v (Or.inr hm)).1.2 (hnm v (List.mem_cons_of_mem _ hv) hm))
    refine ⟨x :: xs, s', by unfold St.loadLoop; rw [c1]; dsimp only; rw [d1], d2.trans c2, d3.trans c3, d4.trans c4, d5, d6, ?_, ?_⟩
    · intro v hv hm
      by_cases hvs : v ∈ us
      · have := d7 v hvs hm
        rw [hst1] at this
        exact this
      · have hvu : v = u := by
          rcases List.mem_cons.1 hv with h | h
          · exact h
          · exact absurd h hvs
        subst hvu
        obtain ⟨e1, e2, _⟩ := d8 v (Or.inl hvs)
        obtain ⟨e3, e4⟩ := c7 hm
        exact ⟨e1.trans e3, e2.trans e4⟩
    · intro v hv
      obtain ⟨e1, e2, e3⟩ := d8 v (hv.imp_left (fun h k => h (List.mem_cons_of_mem _ k)))
      obtain ⟨e4, e5, e6⟩ := c8 v (hv.imp_left (fun h k => h (k ▸ List.mem_cons_self)))
      exact ⟨e1.trans e4, e2.trans e5, fun h k => e3 (e6 h k) (e4.2 k)⟩

/-- `load` of any objects. -/
theorem load_weak {P : Params} {s : St} (hroot : s.root ≠ none) (ht : Tidy s) (hc : s.ctx = .user) (us : List Uid) :
    ∃ xs s', s.load P us = (.ok xs, s') ∧ Trace s s' ∧ (∀ u ∈ us, u ∉ s.reg ∨ u ∈ s.expired → (u ∈ s'.reg ↔ s.stored u ≠ ∅) ∧ s'.g u = s.stored u) := by
  unfold St.load
  rw [if_neg hroot]
  have hmm : ∀ u, u ∈ us.filter (fun u => u ∉ s.reg ∨ u ∈ us.filter (· ∈ s.expired)) ↔ u ∈ us ∧ (u ∉ s.reg ∨ u ∈ s.expired) := by
    intro u
    simp only [List.mem_filter, decide_eq_true_eq]
    tauto
  obtain ⟨xs, s', d1, d2, d3, d4, d5, d6, d7, d8⟩ := loadLoop_weak (P := P) us (us.filter (fun u => u ∉ s.reg ∨ u ∈ us.filter (· ∈ s.expired))) us
    { s with expired := s.expired.filter (· ∉ us.filter (· ∈ s.expired)) } hroot ht hc
    (fun u hu hm => by
      rw [hmm] at hm
      show u ∈ s.reg
      tauto)
  dsimp only
  rw [d1]
  refine ⟨xs, s', rfl, ⟨d2, d3, d4, d5.trans hc.symm, d6, fun v h1 h2 => ?_⟩, fun u hu hm => d7 u hu ((hmm u).2 ⟨hu, hm⟩)⟩
  by_cases hv : v ∈ us ∧ (v ∉ s.reg ∨ v ∈ s.expired)
  · exact Or.inr (d7 v hv.1 ((hmm v).2 hv)).2
  · obtain ⟨e1, e2, e3⟩ := d8 v (by rw [hmm]; tauto)
    have hr : v ∈ s.reg := e1.1 h1
    refine Or.inl ⟨hr, fun he => h2 (e3 ?_ hr), e2⟩
    have hvn : v ∉ us := by tauto
    simp [he, hvn]

theorem refresh_weak {P : Params} {s : St} (hroot : s.root ≠ none) (ht : Tidy s) (hc : s.ctx = .user) (us : List Uid) :
    ∃ s', s.refresh P us = (.ok (), s') ∧ Trace s s' ∧ (∀ u ∈ us, u ∉ s.user.uids → u ∈ s.reg → (u ∈ s'.reg ↔ s.stored u ≠ ∅) ∧ s'.g u = s.stored u) := by
  unfold St.refresh
  by_cases hn : us = []
  · subst hn
    rw [if_pos rfl]
    exact ⟨s, rfl, Trace.refl ht, by simp⟩
  · rw [if_neg hn]
    have hE := trace_expire ht us
    obtain ⟨xs, s', l1, l2, l3⟩ := load_weak (P := P) (s := (s.expire us).2) hroot ht hc (s.expire us).1
    have hpair : s.expire us = ((s.expire us).1, (s.expire us).2) := rfl
    rw [hpair]
    dsimp only
    rw [l1]
    refine ⟨s', rfl, hE.trans l2, fun u hu hp hr => ?_⟩
    exact l3 u ((mem_expire_fst s us u).2 ⟨hu, hp, hr⟩) (Or.inr ((mem_expire s us u).2 ⟨Or.inr ⟨hu, hp⟩, hr⟩))

theorem notifyRead_weak {P : Params} {s : St} (hroot : s.root ≠ none) (ht : Tidy s) (hc : s.ctx = .user) (u : Uid) :
    ∃ s', s.notifyRead P u = (.ok (), s') ∧ Trace s s' ∧ (u ∈ s.expired → u ∉ s.user.uids → u ∈ s.reg → (u ∈ s'.reg ↔ s.stored u ≠ ∅) ∧ s'.g u = s.stored u) := by
  unfold St.notifyRead
  by_cases he : u ∈ s.expired
  · rw [if_pos he]
    obtain ⟨s', r1, r2, r3⟩ := refresh_weak (P := P) hroot ht hc [u]
    exact ⟨s', r1, r2, fun _ a b => r3 u List.mem_cons_self a b⟩
  · rw [if_neg he]
    exact ⟨s, rfl, Trace.refl ht, fun h => absurd h he⟩

theorem loadFound_weak : ∀ (us : List Uid) {s : St}, s.root ≠ none → Tidy s → s.ctx = .user → ∃ xs s', s.loadFound us = (.ok xs, s') ∧ Trace s s'
  | [], s, _, ht, _ => ⟨[], s, rfl, Trace.refl ht⟩
  | u :: us, s, hroot, ht, hc => by
    have h1 : ∃ x s1, s.inEngine (fun s => s.loadByIri u) = (.ok x, s1) ∧ Trace s s1 := by
      unfold St.inEngine
      simp only [hc, ne_eq, reduceCtorEq, not_false_eq_true, if_true]
      rcases loadByIri_spec (s := { s with engine := .empty, ctx := .engine }) hroot rfl (u := u) (ht u) (by simp [Buf.empty]) with ⟨a, b⟩ | ⟨a, e, _, b⟩
      · rw [b]
        exact ⟨_, _, rfl, ⟨rfl, rfl, rfl, hc.symm, ht, fun _ h k => Or.inl ⟨h, k, rfl⟩⟩⟩
      · rw [b]
        refine ⟨_, _, rfl, ⟨rfl, rfl, rfl, hc.symm, fun v hv => ?_, fun v h k => ?_⟩⟩
        · have hv' : v ∉ ins s.reg u := hv
          rw [mem_ins] at hv'
          have hvu : v ≠ u := by tauto
          show Function.update s.g u _ v = ∅
          rw [Function.update_of_ne hvu]
          exact ht v (by tauto)
        · have hv' : v ∈ ins s.reg u := h
          have hk : v ∉ del s.expired u := k
          rw [mem_ins] at hv'
          rw [mem_del] at hk
          by_cases hvu : v = u
          · subst hvu
            right
            show Function.update s.g v _ v = _
            rw [Function.update_self]
            rfl
          · left
            refine ⟨by tauto, by tauto, ?_⟩
            show Function.update s.g u _ v = _
            rw [Function.update_of_ne hvu]
    obtain ⟨x, s1, a1, a2⟩ := h1
    obtain ⟨xs, s', b1, b2⟩ := loadFound_weak us (s := s1) (by rw [a2.root]; exact hroot) a2.tidy (a2.ctx.trans hc)
    refine ⟨x :: xs, s', ?_, a2.trans b2⟩
    unfold St.loadFound
    rw [a1]
    dsimp only
    rw [b1]

end Osp.Multi
