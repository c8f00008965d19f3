import Verif.Sess.Spec
import Mathlib.Tactic.Tauto
/-!
# Helper lemmas: engine moves
-/
namespace Osp.Sess

theorem empty_union' (c : Content) : ∅ ∪ c = c := by
  ext x
  simp

theorem mem_ins (l : List Uid) (u v : Uid) : v ∈ ins l u ↔ v ∈ l ∨ v = u := by
  unfold ins
  split
  · constructor
    · exact Or.inl
    · rintro (h | rfl) <;> assumption
  · simp

theorem mem_del (l : List Uid) (u v : Uid) : v ∈ del l u ↔ v ∈ l ∧ v ≠ u := by
  unfold del
  simp

theorem mem_uids (b : Buf) (u : Uid) : u ∈ b.uids ↔ u ∈ b.added ∨ u ∈ b.updated ∨ u ∈ b.deleted := by
  unfold Buf.uids
  simp

/-- Invariant of a session in normal use. -/
structure Inv (s : St) : Prop where
  d1 : ∀ u ∈ s.user.added, u ∉ s.user.updated
  d2 : ∀ u ∈ s.user.added, u ∉ s.user.deleted
  d3 : ∀ u ∈ s.user.updated, u ∉ s.user.deleted
  pend : ∀ u, u ∈ s.user.added ∨ u ∈ s.user.updated → u ∈ s.reg ∧ u ∉ s.expired
  delreg : ∀ u ∈ s.user.deleted, u ∉ s.reg
  unreg : ∀ u, u ∉ s.reg → s.g u = ∅
  nonempty : ∀ u ∈ s.reg, s.g u ≠ ∅
  addedSub : ∀ u ∈ s.user.added, s.stored u ⊆ s.g u ∧ (s.root ≠ some u → s.stored u = ∅)
  zero : 0 ∉ s.reg ∧ 0 ∉ s.user.deleted
  root : s.root ≠ none ∧ s.root ≠ some 0

/-- The session graph holds the logical content of every registered object (nothing stale). -/
def Exact (s : St) : Prop := ∀ u ∈ s.reg, s.g u = s.L u

/-- What loading and expiring may do. -/
structure Eng (s s' : St) : Prop where
  user : s'.user = s.user
  db : s'.db = s.db
  root : s'.root = s.root
  keep : ∀ v ∈ s.user.uids, (v ∈ s'.reg ↔ v ∈ s.reg) ∧ s'.g v = s.g v
  exp : ∀ v ∈ s.user.uids, v ∈ s'.expired → v ∈ s.expired
  cell : ∀ v, (s'.g v = s.g v ∧ (v ∈ s'.reg ↔ v ∈ s.reg)) ∨ (v ∈ s'.reg ∧ s'.g v = s.stored v ∧ s.stored v ≠ ∅ ∧ v ≠ 0) ∨
    (v ∉ s'.reg ∧ s'.g v = ∅ ∧ s.stored v = ∅)

theorem slot_eq {s s' : St} (h : s'.root = s.root) (u : Uid) : s'.slot u = s.slot u := by
  unfold St.slot; rw [h]

theorem stored_eq {s s' : St} (hr : s'.root = s.root) (hd : s'.db = s.db) (u : Uid) : s'.stored u = s.stored u := by
  unfold St.stored; rw [hd, slot_eq hr]

theorem Eng.refl (s : St) : Eng s s :=
  ⟨rfl, rfl, rfl, fun _ _ => ⟨Iff.rfl, rfl⟩, fun _ _ h => h, fun _ => Or.inl ⟨rfl, Iff.rfl⟩⟩

theorem Eng.trans {a b c : St} (h : Eng a b) (k : Eng b c) : Eng a c := by
  have hst := stored_eq h.root h.db
  refine ⟨k.user.trans h.user, k.db.trans h.db, k.root.trans h.root, ?_, ?_, ?_⟩
  · intro v hv
    have hk := k.keep v (by rw [h.user]; exact hv)
    have hh := h.keep v hv
    exact ⟨hk.1.trans hh.1, hk.2.trans hh.2⟩
  · intro v hv hx
    exact h.exp v hv (k.exp v (by rw [h.user]; exact hv) hx)
  · intro v
    rcases k.cell v with ⟨k1, k2⟩ | ⟨k1, k2, k3, k4⟩ | ⟨k1, k2, k3⟩
    · rcases h.cell v with ⟨h1, h2⟩ | ⟨h1, h2, h3, h4⟩ | ⟨h1, h2, h3⟩
      · exact Or.inl ⟨k1.trans h1, k2.trans h2⟩
      · exact Or.inr (Or.inl ⟨k2.2 h1, k1.trans h2, h3, h4⟩)
      · exact Or.inr (Or.inr ⟨fun x => h1 (k2.1 x), k1.trans h2, h3⟩)
    · rw [hst] at k2 k3
      exact Or.inr (Or.inl ⟨k1, k2, k3, k4⟩)
    · rw [hst] at k3
      exact Or.inr (Or.inr ⟨k1, k2, k3⟩)

theorem Eng.inv {s s' : St} (h : Eng s s') (hi : Inv s) : Inv s' := by
  have hst := stored_eq h.root h.db
  refine ⟨?_, ?_, ?_, ?_, ?_, ?_, ?_, ?_, ?_, ?_⟩
  · rw [h.user]; exact hi.d1
  · rw [h.user]; exact hi.d2
  · rw [h.user]; exact hi.d3
  · rw [h.user]
    intro u hu
    have hm : u ∈ s.user.uids := (mem_uids _ _).2 (by tauto)
    exact ⟨(h.keep u hm).1.2 (hi.pend u hu).1, fun x => (hi.pend u hu).2 (h.exp u hm x)⟩
  · rw [h.user]
    intro u hu
    have hm : u ∈ s.user.uids := (mem_uids _ _).2 (by tauto)
    exact fun x => hi.delreg u hu ((h.keep u hm).1.1 x)
  · intro u hu
    rcases h.cell u with ⟨h1, h2⟩ | ⟨h1, _⟩ | ⟨_, h2, _⟩
    · rw [h1]; exact hi.unreg u (fun x => hu (h2.2 x))
    · exact absurd h1 hu
    · exact h2
  · intro u hu
    rcases h.cell u with ⟨h1, h2⟩ | ⟨_, h2, h3, _⟩ | ⟨h1, _⟩
    · rw [h1]; exact hi.nonempty u (h2.1 hu)
    · rw [h2]; exact h3
    · exact absurd hu h1
  · rw [h.user]
    intro u hu
    rw [hst, (h.keep u ((mem_uids _ _).2 (by tauto))).2, h.root]
    exact hi.addedSub u hu
  · rw [h.user]
    refine ⟨?_, hi.zero.2⟩
    intro h0
    rcases h.cell 0 with ⟨_, h2⟩ | ⟨_, _, _, h4⟩ | ⟨h1, _⟩
    · exact hi.zero.1 (h2.1 h0)
    · exact h4 rfl
    · exact h1 h0
  · rw [h.root]; exact hi.root

theorem L_pend {s : St} (hi : Inv s) {u : Uid} (hu : u ∈ s.user.added ∨ u ∈ s.user.updated) : s.L u = s.g u := by
  unfold St.L St.content
  rw [if_pos hu, if_pos (hi.pend u hu).1]

theorem L_del {s : St} (hi : Inv s) {u : Uid} (hu : u ∈ s.user.deleted) : s.L u = ∅ := by
  unfold St.L
  rw [if_neg, if_pos hu]
  rintro (h | h)
  · exact hi.d2 u h hu
  · exact hi.d3 u h hu

theorem L_free {s : St} {u : Uid} (hu : u ∉ s.user.uids) : s.L u = s.stored u := by
  rw [mem_uids] at hu
  unfold St.L
  rw [if_neg (by tauto), if_neg (by tauto)]
  rfl

theorem Eng.view {s s' : St} (h : Eng s s') (hi : Inv s) (u : Uid) : s'.L u = s.L u := by
  have hi' := h.inv hi
  by_cases hu : u ∈ s.user.uids
  · have hk := h.keep u hu
    rw [mem_uids] at hu
    by_cases hp : u ∈ s.user.added ∨ u ∈ s.user.updated
    · rw [L_pend hi hp, L_pend hi' (by rw [h.user]; exact hp), hk.2]
    · have hd : u ∈ s.user.deleted := by tauto
      rw [L_del hi hd, L_del hi' (by rw [h.user]; exact hd)]
  · rw [L_free hu, L_free (by rw [h.user]; exact hu), stored_eq h.root h.db]

theorem Eng.exact {s s' : St} (h : Eng s s') (hi : Inv s) (he : Exact s) : Exact s' := by
  intro u hu
  rw [h.view hi]
  rcases h.cell u with ⟨h1, h2⟩ | ⟨h1, h2, h3, _⟩ | ⟨h1, _⟩
  · rw [h1]; exact he u (h2.1 hu)
  · by_cases hm : u ∈ s.user.uids
    · rw [(h.keep u hm).2]; exact he u ((h.keep u hm).1.1 hu)
    · rw [h2, L_free hm]
  · exact absurd hu h1

/-! ### the engine primitives -/

theorem eng_ctx (s : St) (c : Ctx) : Eng s { s with ctx := c } :=
  ⟨rfl, rfl, rfl, fun _ _ => ⟨Iff.rfl, rfl⟩, fun _ _ h => h, fun _ => Or.inl ⟨rfl, Iff.rfl⟩⟩

theorem eng_engine (s : St) (e : Buf) : Eng s { s with engine := e } :=
  ⟨rfl, rfl, rfl, fun _ _ => ⟨Iff.rfl, rfl⟩, fun _ _ h => h, fun _ => Or.inl ⟨rfl, Iff.rfl⟩⟩

theorem mem_expire (s : St) (us : List Uid) (v : Uid) :
    v ∈ (s.expire us).2.expired ↔ (v ∈ s.expired ∨ (v ∈ us ∧ v ∉ s.user.uids)) ∧ v ∈ s.reg := by
  unfold St.expire
  simp only [List.mem_filter, List.mem_append, decide_eq_true_eq]
  constructor
  · rintro ⟨h | ⟨h, _⟩, k⟩
    · exact ⟨Or.inl h, k⟩
    · exact ⟨Or.inr h, k⟩
  · rintro ⟨h | h, k⟩
    · exact ⟨Or.inl h, k⟩
    · by_cases he : v ∈ s.expired
      · exact ⟨Or.inl he, k⟩
      · exact ⟨Or.inr ⟨h, he⟩, k⟩

theorem eng_expire (s : St) (us : List Uid) : Eng s (s.expire us).2 := by
  refine ⟨rfl, rfl, rfl, fun _ _ => ⟨Iff.rfl, rfl⟩, ?_, fun _ => Or.inl ⟨rfl, Iff.rfl⟩⟩
  intro v hv hx
  rw [mem_expire] at hx
  rcases hx.1 with h | ⟨_, h⟩
  · exact h
  · exact absurd hv h

/-- Loading one object. -/
theorem loadByIri_spec {s : St} (hroot : s.root ≠ none) (hc : s.ctx = .engine) {u : Uid} (hun : u ∉ s.reg → s.g u = ∅) (hd : u ∉ s.engine.deleted) :
    (s.stored u = ∅ ∧ s.loadByIri u = (.ok none, s)) ∨
    (s.stored u ≠ ∅ ∧ ∃ e : Buf, (∀ v ∈ e.deleted, v ∈ s.engine.deleted) ∧
      s.loadByIri u = (.ok (some u), { s with reg := ins s.reg u, g := Function.update s.g u (s.stored u), expired := del s.expired u, engine := e })) := by
  by_cases hst : s.stored u = ∅
  · left
    refine ⟨hst, ?_⟩
    unfold St.loadByIri
    unfold St.stored at hst
    simp [hst]
  · right
    refine ⟨hst, ?_⟩
    obtain ⟨r, hr⟩ := Option.ne_none_iff_exists'.1 hroot
    have hslot : s.db (s.slot u) = s.stored u := rfl
    unfold St.loadByIri
    simp only [hslot, if_neg hst]
    by_cases hreg : u ∈ s.reg
    · simp only [hreg, if_true, St.notifyUpdate, St.buf, hc, hd, if_false, St.setBuf]
      have hins : ins s.reg u = s.reg := by unfold ins; rw [if_pos hreg]
      by_cases hup : u ∉ s.engine.added ∧ u ∉ s.engine.updated
      · refine ⟨{ s.engine with updated := s.engine.updated ++ [u] }, fun v h => h, ?_⟩
        rw [if_pos hup, hins]
        simp [empty_union']
      · refine ⟨s.engine, fun v h => h, ?_⟩
        rw [if_neg hup, hins]
        simp [empty_union']
    · have hg := hun hreg
      have hda : u ∉ del s.engine.deleted u := by rw [mem_del]; tauto
      have hia : u ∈ ins s.engine.added u := by rw [mem_ins]; tauto
      refine ⟨{ s.engine with deleted := del s.engine.deleted u, added := ins s.engine.added u }, ?_, ?_⟩
      · intro v hv
        exact ((mem_del _ _ _).1 hv).1
      · simp only [hreg, if_false, St.store, St.notifyUpdate, St.buf, hc, St.setBuf, hr, hda, hia, not_true_eq_false, false_and]
        simp [hg, empty_union']

theorem eng_loaded (s : St) (u : Uid) (e : Buf) (hu : u ∉ s.user.uids) (h0 : u ≠ 0) (hst : s.stored u ≠ ∅) :
    Eng s { s with reg := ins s.reg u, g := Function.update s.g u (s.stored u), expired := del s.expired u, engine := e } := by
  refine ⟨rfl, rfl, rfl, ?_, ?_, ?_⟩
  · intro v hv
    have hne : v ≠ u := fun h => hu (h ▸ hv)
    refine ⟨?_, by simp [hne]⟩
    show v ∈ ins s.reg u ↔ _
    rw [mem_ins]; tauto
  · intro v _ hx
    exact ((mem_del _ _ _).1 hx).1
  · intro v
    by_cases hv : v = u
    · subst hv
      right; left
      refine ⟨?_, by simp, hst, h0⟩
      show v ∈ ins s.reg v
      rw [mem_ins]; tauto
    · left
      refine ⟨by simp [hv], ?_⟩
      show v ∈ ins s.reg u ↔ _
      rw [mem_ins]; tauto

theorem deleteTriples_engine {P : Params} {s : St} (hc : s.ctx = .engine) {u : Uid} (hreg : u ∈ s.reg) :
    ∃ e : Buf, s.deleteTriples P u = (.ok (), { s with reg := del s.reg u, det := Function.update s.det u (P.typePart (s.g u)), g := Function.update s.g u ∅, engine := e }) := by
  unfold St.deleteTriples St.notifyDelete
  simp only [hreg, not_true_eq_false, if_false, St.buf, hc, St.setBuf]
  by_cases h1 : u ∈ s.engine.added
  · exact ⟨_, by rw [if_pos h1]⟩
  · rw [if_neg h1]
    by_cases h2 : u ∈ s.engine.updated
    · exact ⟨_, by rw [if_pos h2]⟩
    · rw [if_neg h2]
      by_cases h3 : u ∉ s.engine.deleted
      · exact ⟨_, by rw [if_pos h3]⟩
      · exact ⟨s.engine, by rw [if_neg h3]⟩

theorem eng_gone (s : St) (u : Uid) (e : Buf) (d : Uid → Content) (hu : u ∉ s.user.uids) (hst : s.stored u = ∅) :
    Eng s { s with reg := del s.reg u, det := d, g := Function.update s.g u ∅, engine := e } := by
  refine ⟨rfl, rfl, rfl, ?_, fun _ _ h => h, ?_⟩
  · intro v hv
    have hne : v ≠ u := fun h => hu (h ▸ hv)
    refine ⟨?_, by simp [hne]⟩
    show v ∈ del s.reg u ↔ _
    rw [mem_del]; tauto
  · intro v
    by_cases hv : v = u
    · subst hv
      right; right
      refine ⟨?_, by simp, hst⟩
      show v ∉ del s.reg v
      rw [mem_del]; tauto
    · left
      refine ⟨by simp [hv], ?_⟩
      show v ∈ del s.reg u ↔ _
      rw [mem_del]; tauto

/-- One round of a load of an object without pending changes. -/
theorem loadStep_spec {P : Params} {s : St} (hi : Inv s) (hc : s.ctx = .engine) (he : s.engine = .empty) (uids missing : List Uid) {u : Uid}
    (hm : u ∈ missing) (hu : u ∉ s.user.uids) (h0 : u ≠ 0) :
    ∃ s', St.loadStep P uids missing u s = (.ok (if s.stored u ≠ ∅ then some u else none), s') ∧ Eng s s' ∧ s'.ctx = .engine ∧
      (u ∈ s'.reg ↔ s.stored u ≠ ∅) ∧ s'.g u = s.stored u ∧
      (∀ v, v ≠ u → (v ∈ s'.reg ↔ v ∈ s.reg) ∧ s'.g v = s.g v) ∧
      (∀ v ∈ uids, v ∈ s'.expired → v ∈ s.expired) := by
  have hdel : u ∉ s.engine.deleted := by rw [he]; simp [Buf.empty]
  unfold St.loadStep
  rw [if_neg (by simpa using hm)]
  have expiry : ∀ (t : St) (l : List Uid), ∀ v ∈ uids, v ∈ (t.expire (l.filter (· ∉ uids))).2.expired → v ∈ t.expired := by
    intro t l v hv hx
    rw [mem_expire] at hx
    rcases hx.1 with h | ⟨h, _⟩
    · exact h
    · simp [hv] at h
  rcases loadByIri_spec hi.root.1 hc (hi.unreg u) hdel with ⟨hst, hl⟩ | ⟨hst, e, hed, hl⟩
  · simp only [hl, hst, ne_eq, not_true_eq_false, if_false, iff_false]
    by_cases hreg : u ∈ s.reg
    · simp only [hreg, if_true, St.afterLoad, Option.isSome_none, Bool.false_eq_true, if_false, true_and]
      generalize ht : (if s.root = some u then s else (s.expire ((P.diff (s.g u) ∅).filter (· ∉ uids))).2) = t
      have hE : Eng s t := by
        rw [← ht]; split
        · exact Eng.refl s
        · exact eng_expire s _
      have htc : t.ctx = .engine := by rw [← ht]; split <;> exact hc
      have htr : t.reg = s.reg := by rw [← ht]; split <;> rfl
      have htg : t.g = s.g := by rw [← ht]; split <;> rfl
      have hte : ∀ v ∈ uids, v ∈ t.expired → v ∈ s.expired := by
        rw [← ht]; split
        · exact fun _ _ h => h
        · exact expiry s _
      obtain ⟨e, hdt⟩ := deleteTriples_engine (P := P) htc (u := u) (by rw [htr]; exact hreg)
      rw [if_pos (by rw [htr]; exact hreg), hdt]
      refine ⟨_, rfl, hE.trans (eng_gone t u e _ (by rw [hE.user]; exact hu) (by rw [stored_eq hE.root hE.db]; exact hst)), htc, ?_, by simp, ?_, hte⟩
      · show u ∉ del t.reg u
        rw [mem_del]; tauto
      · intro v hv
        refine ⟨?_, by simp [hv, htg]⟩
        show v ∈ del t.reg u ↔ _
        rw [mem_del, htr]; tauto
    · simp only [hreg, if_false, St.afterLoad]
      exact ⟨s, rfl, Eng.refl s, hc, hreg, hi.unreg u hreg, fun _ _ => ⟨Iff.rfl, rfl⟩, fun _ _ h => h⟩
  · simp only [hl, hst, ne_eq, not_false_eq_true, if_true, iff_true]
    have hE1 := eng_loaded s u e hu h0 hst
    by_cases hreg : u ∈ s.reg
    · simp only [hreg, if_true, St.afterLoad, reduceCtorEq, false_and, if_false]
      refine ⟨_, rfl, ?_, ?_, ?_, ?_, ?_, ?_⟩
      · split
        · exact hE1
        · exact hE1.trans (eng_expire _ _)
      · split <;> exact hc
      · split <;> exact (mem_ins _ _ _).2 (Or.inr rfl)
      · split <;> simp [St.expire]
      · intro v hv
        split <;> refine ⟨?_, by simp [St.expire, hv]⟩ <;> (show v ∈ ins s.reg u ↔ _) <;> rw [mem_ins] <;> tauto
      · intro v hv hx
        split at hx
        · exact ((mem_del _ _ _).1 hx).1
        · exact ((mem_del _ _ _).1 (expiry _ _ v hv hx)).1
    · simp only [hreg, if_false, St.afterLoad]
      refine ⟨_, rfl, hE1, hc, (mem_ins _ _ _).2 (Or.inr rfl), by simp, ?_, ?_⟩
      · intro v hv
        refine ⟨?_, by simp [hv]⟩
        show v ∈ ins s.reg u ↔ _
        rw [mem_ins]; tauto
      · intro v _ hx
        exact ((mem_del _ _ _).1 hx).1

/-- The loop of `load`. -/
theorem loadLoop_spec {P : Params} (uids missing : List Uid) :
    ∀ (us : List Uid) (s : St), Inv s → s.ctx = .user → (∀ u ∈ us, u ∈ uids) →
      (∀ u ∈ us, u ∈ missing → u ∉ s.user.uids ∧ u ≠ 0) → (∀ u ∈ us, u ∉ missing → u ∈ s.reg) →
      ∃ xs s', St.loadLoop P uids missing us s = (.ok xs, s') ∧ Eng s s' ∧ s'.ctx = .user ∧
        xs = us.map (fun u => if u ∈ s'.reg then some u else none) ∧
        (∀ u ∈ us, u ∈ missing → (u ∈ s'.reg ↔ s.stored u ≠ ∅) ∧ s'.g u = s.stored u) ∧
        (∀ v, v ∉ us ∨ v ∉ missing → (v ∈ s'.reg ↔ v ∈ s.reg) ∧ s'.g v = s.g v) ∧
        (∀ v ∈ uids, v ∈ s'.expired → v ∈ s.expired) := by
  intro us
  induction us with
  | nil =>
    intro s _ hc _ _ _
    exact ⟨[], s, rfl, Eng.refl s, hc, rfl, by simp, fun _ _ => ⟨Iff.rfl, rfl⟩, fun _ _ h => h⟩
  | cons u us ih =>
    intro s hi hc hin hmis hnm
    have h1 : ∃ x s1, s.inEngine (St.loadStep P uids missing u) = (.ok x, s1) ∧ Eng s s1 ∧ s1.ctx = .user ∧
        (x = if u ∈ s1.reg then some u else none) ∧
        (u ∈ missing → (u ∈ s1.reg ↔ s.stored u ≠ ∅) ∧ s1.g u = s.stored u) ∧
        (∀ v, v ≠ u ∨ v ∉ missing → (v ∈ s1.reg ↔ v ∈ s.reg) ∧ s1.g v = s.g v) ∧
        (∀ v ∈ uids, v ∈ s1.expired → v ∈ s.expired) := by
      unfold St.inEngine
      simp only [hc, ne_eq, reduceCtorEq, not_false_eq_true, if_true]
      by_cases hm : u ∈ missing
      · obtain ⟨a1, a2⟩ := hmis u List.mem_cons_self hm
        have hE0 : Eng s { s with engine := .empty, ctx := .engine } := (eng_engine s .empty).trans (eng_ctx { s with engine := .empty } .engine)
        obtain ⟨s', b1, b2, b3, b4, b5, b6, b7⟩ := loadStep_spec (P := P) (s := { s with engine := .empty, ctx := .engine }) (hE0.inv hi) rfl rfl uids missing hm a1 a2
        rw [b1]
        refine ⟨_, _, rfl, (hE0.trans b2).trans (eng_ctx _ _), rfl, ?_, fun _ => ⟨b4, b5⟩, ?_, b7⟩
        · have : (u ∈ s'.reg) ↔ s.stored u ≠ ∅ := b4
          show (if s.stored u ≠ ∅ then some u else none) = if u ∈ s'.reg then some u else none
          simp only [this]
        · rintro v (hv | hv)
          · exact b6 v hv
          · have : v ≠ u := by rintro rfl; exact hv hm
            exact b6 v this
      · unfold St.loadStep
        have hr := hnm u List.mem_cons_self hm
        simp only [hm, not_false_eq_true, if_true, hr]
        exact ⟨_, _, rfl, (eng_engine s .empty).trans (eng_ctx { s with engine := .empty } .user), rfl, by simp [hr], fun h => absurd h (by simp),
          fun _ _ => ⟨Iff.rfl, rfl⟩, fun _ _ h => h⟩
    obtain ⟨x, s1, c1, c2, c3, c4, c5, c6, c7⟩ := h1
    have hst1 := stored_eq c2.root c2.db
    obtain ⟨xs, s', d1, d2, d3, d4, d5, d6, d7⟩ := ih s1 (c2.inv hi) c3 (fun v hv => hin v (List.mem_cons_of_mem _ hv))
      (fun v hv hm => by rw [c2.user]; exact hmis v (List.mem_cons_of_mem _ hv) hm)
      (fun v hv hm => (c6 v (Or.inr hm)).1.2 (hnm v (List.mem_cons_of_mem _ hv) hm))
    have hu' : (u ∈ s'.reg ↔ u ∈ s1.reg) ∧ s'.g u = s1.g u := by
      by_cases huu : u ∈ us ∧ u ∈ missing
      · obtain ⟨e1, e2⟩ := d5 u huu.1 huu.2
        obtain ⟨e3, e4⟩ := c5 huu.2
        rw [hst1] at e1 e2
        exact ⟨e1.trans e3.symm, e2.trans e4.symm⟩
      · exact d6 u (by tauto)
    refine ⟨x :: xs, s', by unfold St.loadLoop; rw [c1]; dsimp only; rw [d1], c2.trans d2, d3, ?_, ?_, ?_, ?_⟩
    · rw [List.map_cons, ← d4, c4]
      simp only [hu'.1]
    · intro v hv hm
      rcases List.mem_cons.1 hv with rfl | hv
      · obtain ⟨e3, e4⟩ := c5 hm
        exact ⟨hu'.1.trans e3, hu'.2.trans e4⟩
      · have := d5 v hv hm
        rw [hst1] at this
        exact this
    · intro v hv
      have hv1 : v ∉ us ∨ v ∉ missing := hv.imp_left (fun h k => h (List.mem_cons_of_mem _ k))
      have hv2 : v ≠ u ∨ v ∉ missing := hv.imp_left (fun h k => h (k ▸ List.mem_cons_self))
      obtain ⟨e1, e2⟩ := d6 v hv1
      obtain ⟨e3, e4⟩ := c6 v hv2
      exact ⟨e1.trans e3, e2.trans e4⟩
    · intro v hv hx
      exact c7 v hv (d7 v hv hx)

/-- `load`. -/
theorem load_spec {P : Params} {s : St} (hi : Inv s) (hc : s.ctx = .user) (us : List Uid) (h0 : 0 ∉ us) (hd : ∀ u ∈ us, u ∉ s.user.deleted) :
    ∃ s', s.load P us = (.ok (us.map (fun u => if u ∈ s'.reg then some u else none)), s') ∧ Eng s s' ∧ s'.ctx = .user ∧
      (∀ u ∈ us, u ∉ s.reg ∨ u ∈ s.expired → (u ∈ s'.reg ↔ s.stored u ≠ ∅) ∧ s'.g u = s.stored u) ∧
      (∀ v, v ∉ us ∨ (v ∈ s.reg ∧ v ∉ s.expired) → (v ∈ s'.reg ↔ v ∈ s.reg) ∧ s'.g v = s.g v) ∧
      (∀ v ∈ us, v ∉ s'.expired) := by
  unfold St.load
  rw [if_neg hi.root.1]
  have hE : Eng s { s with expired := s.expired.filter (· ∉ us.filter (· ∈ s.expired)) } := by
    refine ⟨rfl, rfl, rfl, fun _ _ => ⟨Iff.rfl, rfl⟩, ?_, fun _ => Or.inl ⟨rfl, Iff.rfl⟩⟩
    intro v _ hx
    exact (List.mem_filter.1 hx).1
  have hmm : ∀ u, u ∈ us.filter (fun u => u ∉ s.reg ∨ u ∈ us.filter (· ∈ s.expired)) ↔ u ∈ us ∧ (u ∉ s.reg ∨ u ∈ s.expired) := by
    intro u
    simp only [List.mem_filter, decide_eq_true_eq]
    tauto
  obtain ⟨xs, s', d1, d2, d3, d4, d5, d6, d7⟩ := loadLoop_spec (P := P) us (us.filter (fun u => u ∉ s.reg ∨ u ∈ us.filter (· ∈ s.expired))) us
    { s with expired := s.expired.filter (· ∉ us.filter (· ∈ s.expired)) } (hE.inv hi) hc (fun _ h => h)
    (fun u hu hm => by
      rw [hmm] at hm
      refine ⟨?_, fun h => h0 (h ▸ hu)⟩
      show u ∉ s.user.uids
      rw [mem_uids]
      rintro (h | h | h)
      · have := hi.pend u (Or.inl h); tauto
      · have := hi.pend u (Or.inr h); tauto
      · exact hd u hu h)
    (fun u hu hm => by
      rw [hmm] at hm
      show u ∈ s.reg
      tauto)
  dsimp only
  rw [d1, d4]
  refine ⟨s', rfl, hE.trans d2, d3, ?_, ?_, ?_⟩
  · intro u hu hm
    exact d5 u hu ((hmm u).2 ⟨hu, hm⟩)
  · intro v hv
    apply d6
    rw [hmm]
    tauto
  · intro v hv hx
    have := d7 v hv hx
    simp only [List.mem_filter, decide_eq_true_eq] at this
    tauto

theorem mem_expire_fst (s : St) (us : List Uid) (v : Uid) : v ∈ (s.expire us).1 ↔ v ∈ us ∧ v ∉ s.user.uids ∧ v ∈ s.reg := by
  unfold St.expire
  simp
  tauto

/-- `refresh`: every given object that is registered and has no pending changes is loaded again. -/
theorem refresh_spec {P : Params} {s : St} (hi : Inv s) (hc : s.ctx = .user) (us : List Uid) :
    ∃ s', s.refresh P us = (.ok (), s') ∧ Eng s s' ∧ s'.ctx = .user ∧
      (∀ u ∈ us, u ∉ s.user.uids → u ∈ s.reg → (u ∈ s'.reg ↔ s.stored u ≠ ∅) ∧ s'.g u = s.stored u ∧ u ∉ s'.expired) ∧
      (∀ v, v ∉ us ∨ v ∈ s.user.uids ∨ v ∉ s.reg → (v ∈ s'.reg ↔ v ∈ s.reg) ∧ s'.g v = s.g v) := by
  unfold St.refresh
  by_cases hn : us = []
  · subst hn
    rw [if_pos rfl]
    exact ⟨s, rfl, Eng.refl s, hc, by simp, fun _ _ => ⟨Iff.rfl, rfl⟩⟩
  · rw [if_neg hn]
    have hE := eng_expire s us
    have hmem := mem_expire_fst s us
    obtain ⟨s', l1, l2, l3, l4, l5, l6⟩ := load_spec (P := P) (hE.inv hi) (s := (s.expire us).2) hc (s.expire us).1
      (fun h => hi.zero.1 ((hmem 0).1 h).2.2)
      (fun u hu => by
        have := (hmem u).1 hu
        show u ∉ s.user.deleted
        rw [mem_uids] at this
        tauto)
    have hpair : s.expire us = ((s.expire us).1, (s.expire us).2) := rfl
    rw [hpair]
    dsimp only
    rw [l1]
    refine ⟨s', rfl, hE.trans l2, l3, ?_, ?_⟩
    · intro u hu hp hr
      have hm := (hmem u).2 ⟨hu, hp, hr⟩
      obtain ⟨a, b⟩ := l4 u hm (Or.inr ((mem_expire s us u).2 ⟨Or.inr ⟨hu, hp⟩, hr⟩))
      exact ⟨a, b, l6 u hm⟩
    · intro v hv
      apply l5
      left
      rw [hmem]
      tauto

/-- `_notify_read`. -/
theorem notifyRead_spec {P : Params} {s : St} (hi : Inv s) (hc : s.ctx = .user) (u : Uid) :
    ∃ s', s.notifyRead P u = (.ok (), s') ∧ Eng s s' ∧ s'.ctx = .user ∧
      (u ∈ s.reg → u ∈ s.expired → (u ∈ s'.reg ↔ s.stored u ≠ ∅) ∧ s'.g u = s.stored u ∧ u ∉ s'.expired) ∧
      (u ∉ s.reg ∨ u ∉ s.expired → (u ∈ s'.reg ↔ u ∈ s.reg) ∧ s'.g u = s.g u) ∧
      (u ∉ s.expired → s' = s) := by
  unfold St.notifyRead
  by_cases he : u ∈ s.expired
  · rw [if_pos he]
    obtain ⟨s', r1, r2, r3, r4, r5⟩ := refresh_spec (P := P) hi hc [u]
    refine ⟨s', r1, r2, r3, ?_, ?_, fun h => absurd he h⟩
    · intro hr _
      refine r4 u (by simp) ?_ hr
      rw [mem_uids]
      rintro (h | h | h)
      · exact (hi.pend u (Or.inl h)).2 he
      · exact (hi.pend u (Or.inr h)).2 he
      · exact hi.delreg u h hr
    · intro h
      exact r5 u (by tauto)
  · rw [if_neg he]
    exact ⟨s, rfl, Eng.refl s, hc, fun _ h => absurd h he, fun _ => ⟨Iff.rfl, rfl⟩, fun _ => rfl⟩

end Osp.Sess
