import Verif.Sess.Buffers
/-!
# Every safe operation does what the specification says
-/
namespace Osp.Sess

theorem slot_inj {s : St} {u v : Uid} (hu : u ≠ 0) (hv : v ≠ 0) (h : s.slot u = s.slot v) : u = v := by
  unfold St.slot at h
  by_cases h1 : s.root = some u
  · by_cases h2 : s.root = some v
    · rw [h1] at h2; injection h2
    · rw [if_pos h1, if_neg h2] at h; exact absurd h.symm hv
  · by_cases h2 : s.root = some v
    · rw [if_neg h1, if_pos h2] at h; exact absurd h hu
    · rw [if_neg h1, if_neg h2] at h; exact h

/-! ### commit -/

theorem fold_add (sl : Uid → Uid) (ct : Uid → Content) (u : Uid) : ∀ (l : List Uid) (db : Uid → Content), (∀ v ∈ l, sl v = sl u → v = u) →
    (l.map (fun v => DbOp.add (sl v) (ct v))).foldl DbOp.run db (sl u) = if u ∈ l then db (sl u) ∪ ct u else db (sl u) := by
  intro l
  induction l with
  | nil => intro db _; simp
  | cons v l ih =>
    intro db hv
    rw [List.map_cons, List.foldl_cons, ih _ (fun w hw => hv w (List.mem_cons_of_mem _ hw))]
    by_cases hvu : v = u
    · subst hvu
      simp only [DbOp.run, Function.update_self, List.mem_cons_self, if_true]
      split
      · ext x; simp only [Finset.mem_union]; tauto
      · rfl
    · have hne : sl u ≠ sl v := fun h => hvu (hv v List.mem_cons_self h.symm)
      have huv : u ≠ v := fun h => hvu h.symm
      simp only [DbOp.run, Function.update_of_ne hne, List.mem_cons, huv, false_or]

theorem fold_upd (sl : Uid → Uid) (ct : Uid → Content) (u : Uid) : ∀ (l : List Uid) (db : Uid → Content), (∀ v ∈ l, sl v = sl u → v = u) →
    (l.flatMap (fun v => [DbOp.remove (sl v), DbOp.add (sl v) (ct v)])).foldl DbOp.run db (sl u) = if u ∈ l then ct u else db (sl u) := by
  intro l
  induction l with
  | nil => intro db _; simp
  | cons v l ih =>
    intro db hv
    rw [List.flatMap_cons, List.foldl_append, ih _ (fun w hw => hv w (List.mem_cons_of_mem _ hw))]
    by_cases hvu : v = u
    · subst hvu
      simp only [List.foldl_cons, List.foldl_nil, DbOp.run, Function.update_self, empty_union', List.mem_cons_self, if_true, ite_self]
    · have hne : sl u ≠ sl v := fun h => hvu (hv v List.mem_cons_self h.symm)
      have huv : u ≠ v := fun h => hvu h.symm
      simp only [List.foldl_cons, List.foldl_nil, DbOp.run, Function.update_of_ne hne, List.mem_cons, huv, false_or]

theorem fold_del (sl : Uid → Uid) (u : Uid) : ∀ (l : List Uid) (db : Uid → Content), (∀ v ∈ l, sl v = sl u → v = u) →
    (l.map (fun v => DbOp.remove (sl v))).foldl DbOp.run db (sl u) = if u ∈ l then ∅ else db (sl u) := by
  intro l
  induction l with
  | nil => intro db _; simp
  | cons v l ih =>
    intro db hv
    rw [List.map_cons, List.foldl_cons, ih _ (fun w hw => hv w (List.mem_cons_of_mem _ hw))]
    by_cases hvu : v = u
    · subst hvu
      simp only [DbOp.run, Function.update_self, List.mem_cons_self, if_true, ite_self]
    · have hne : sl u ≠ sl v := fun h => hvu (hv v List.mem_cons_self h.symm)
      have huv : u ≠ v := fun h => hvu h.symm
      simp only [DbOp.run, Function.update_of_ne hne, List.mem_cons, huv, false_or]

theorem commitOps_exact (s : St) (h0 : 0 ∉ s.user.uids) {u : Uid} (hu : u ≠ 0) :
    s.commitOps.foldl DbOp.run s.db (s.slot u) = if u ∈ s.user.deleted then ∅ else if u ∈ s.user.updated then s.content u
      else if u ∈ s.user.added then s.stored u ∪ s.content u else s.stored u := by
  have inj : ∀ l : List Uid, (∀ v ∈ l, v ∈ s.user.uids) → ∀ v ∈ l, s.slot v = s.slot u → v = u := by
    intro l hl v hv he
    exact slot_inj (fun h => h0 (h ▸ hl v hv)) hu he
  unfold St.commitOps
  rw [List.foldl_append, List.foldl_append, fold_del _ u _ _ (inj _ (fun v hv => (mem_uids _ _).2 (by tauto))),
    fold_upd _ s.content u _ _ (inj _ (fun v hv => (mem_uids _ _).2 (by tauto))),
    fold_add _ s.content u _ _ (inj _ (fun v hv => (mem_uids _ _).2 (by tauto)))]
  rfl

/-- A successful commit. -/
theorem commit_ok {s : St} (hc : s.ctx = .user) {r : Uid} (hr : s.root = some r) (hreg : r ∈ s.reg) :
    s.commit none = (.ok (), { s with engine := .empty, user := .empty, db := s.commitOps.foldl DbOp.run s.db, expired := (s.expired ++ s.reg.filter (· ∉ s.expired)).filter (· ∈ s.reg) }) := by
  unfold St.commit St.inEngine St.commitBody
  simp only [hc, ne_eq, reduceCtorEq, not_false_eq_true, if_true, hr, hreg, not_true_eq_false, if_false, St.expire, Buf.uids, Buf.empty,
    List.append_nil, List.not_mem_nil, decide_true, List.filter_true]
  congr 1
  cases s
  simp only at hc hr
  subst hc hr
  rfl

/-- A commit that fails before the last step. -/
theorem commit_fail {s : St} (hc : s.ctx = .user) {k : Nat} (hk : k < s.commitOps.length) :
    ∃ e, s.commit (some k) = (.error e, { s with engine := .empty }) := by
  have hcc : ({ s with engine := Buf.empty, ctx := Ctx.engine } : St).commitOps = s.commitOps := rfl
  unfold St.commit St.inEngine St.commitBody
  simp only [hc, ne_eq, reduceCtorEq, not_false_eq_true, if_true, hcc, hk]
  split
  · exact ⟨_, rfl⟩
  · split <;> exact ⟨_, rfl⟩

/-! ### the query by class -/

theorem loadFound_spec : ∀ (us : List Uid) (s : St), Inv s → s.ctx = .user → 0 ∉ us → (∀ u ∈ us, u ∉ s.user.uids) →
    ∃ s', s.loadFound us = (.ok (us.map (fun u => if s.stored u ≠ ∅ then some u else none)), s') ∧ Eng s s' ∧ s'.ctx = .user ∧
      (∀ u ∈ us, s.stored u ≠ ∅ → u ∈ s'.reg ∧ s'.g u = s.stored u) := by
  intro us
  induction us with
  | nil => intro s _ hc _ _; exact ⟨s, rfl, Eng.refl s, hc, by simp⟩
  | cons u us ih =>
    intro s hi hc h0 hp
    have hu0 : u ≠ 0 := fun h => h0 (h ▸ List.mem_cons_self)
    have hup := hp u List.mem_cons_self
    have hE0 : Eng s { s with engine := .empty, ctx := .engine } := (eng_engine s .empty).trans (eng_ctx { s with engine := .empty } .engine)
    have h1 : ∃ s1, s.inEngine (fun s => s.loadByIri u) = (.ok (if s.stored u ≠ ∅ then some u else none), s1) ∧ Eng s s1 ∧ s1.ctx = .user ∧
        (s.stored u ≠ ∅ → u ∈ s1.reg ∧ s1.g u = s.stored u) := by
      unfold St.inEngine
      simp only [hc, ne_eq, reduceCtorEq, not_false_eq_true, if_true]
      rcases loadByIri_spec (s := { s with engine := .empty, ctx := .engine }) hi.root.1 rfl (u := u) (hi.unreg u) (by simp [Buf.empty]) with ⟨a, b⟩ | ⟨a, e, _, b⟩
      · rw [b]
        have a' : s.stored u = ∅ := a
        refine ⟨_, ?_, hE0.trans (eng_ctx _ .user), rfl, fun h => absurd a' h⟩
        rw [if_neg (by simpa using a')]
      · rw [b]
        have a' : s.stored u ≠ ∅ := a
        refine ⟨_, ?_, (hE0.trans (eng_loaded _ u e hup hu0 a)).trans (eng_ctx _ .user), rfl, fun _ => ⟨(mem_ins _ _ _).2 (Or.inr rfl), by simp; rfl⟩⟩
        rw [if_pos a']
    obtain ⟨s1, a1, a2, a3, a4⟩ := h1
    have hst := stored_eq a2.root a2.db
    obtain ⟨s', b1, b2, b3, b4⟩ := ih s1 (a2.inv hi) a3 (fun h => h0 (List.mem_cons_of_mem _ h))
      (fun v hv => by rw [a2.user]; exact hp v (List.mem_cons_of_mem _ hv))
    refine ⟨s', ?_, a2.trans b2, b3, ?_⟩
    · unfold St.loadFound
      rw [a1]
      dsimp only
      rw [b1]
      simp only [hst, List.map_cons]
    · intro v hv hne
      by_cases hvs : v ∈ us
      · have := b4 v hvs
        rw [hst] at this
        exact this hne
      · have hvu : v = u := by
          rcases List.mem_cons.1 hv with h | h
          · exact h
          · exact absurd h hvs
        subst hvu
        obtain ⟨c1, c2⟩ := a4 hne
        rcases b2.cell v with ⟨d1, d2⟩ | ⟨d1, d2, _, _⟩ | ⟨_, _, d3⟩
        · exact ⟨d2.2 c1, d1.trans c2⟩
        · rw [hst] at d2; exact ⟨d1, d2⟩
        · rw [hst] at d3; exact absurd d3 hne

theorem loadByOclass_spec (us : List Uid) (s : St) (hi : Inv s) (hc : s.ctx = .user) (h0 : 0 ∉ us) (hp : ∀ u ∈ us, u ∉ s.user.uids) :
    ∃ s', s.loadByOclass us = (.ok (us.map (fun u => if s.stored u ≠ ∅ then some u else none)), s') ∧ Eng s s' ∧ s'.ctx = .user ∧
      (∀ u ∈ us, s.stored u ≠ ∅ → u ∈ s'.reg ∧ s'.g u = s.stored u) := by
  unfold St.loadByOclass
  rw [if_neg hi.root.1]
  exact loadFound_spec us s hi hc h0 hp

/-! ### user changes -/

/-- Change of one cell by the user. -/
theorem L_other {s s' : St} {u v : Uid} (hvu : v ≠ u) (hr : s'.root = s.root) (hd : s'.db = s.db) (hg : s'.g v = s.g v) (hdet : s'.det v = s.det v)
    (hreg : v ∈ s'.reg ↔ v ∈ s.reg) (ha : v ∈ s'.user.added ↔ v ∈ s.user.added) (hup : v ∈ s'.user.updated ↔ v ∈ s.user.updated)
    (hde : v ∈ s'.user.deleted ↔ v ∈ s.user.deleted) : s'.L v = s.L v := by
  have _ := hvu
  unfold St.L St.content
  simp only [ha, hup, hde, hreg, hg, hdet, hd, slot_eq hr]

theorem create_spec {P : Params} {s : St} (hi : Inv s) (hc : s.ctx = .user) {u : Uid} {c : Content} (hs : Safe s (.create u c)) :
    ∃ s', s.create P u c = (.ok (), s') ∧ Inv s' ∧ s'.ctx = .user ∧ (∀ v, s'.L v = Function.update s.L u c v) ∧ s'.root = s.root ∧ s'.db = s.db ∧
      (Exact s → Exact s') := by
  obtain ⟨h0, hreg, huids, hexp, hst, hce⟩ := hs
  obtain ⟨r, hr⟩ := Option.ne_none_iff_exists'.1 hi.root.1
  rw [mem_uids] at huids
  have hg := hi.unreg u hreg
  have hs1 : s.store u c = { s with user := s.user.store s.reg u, reg := ins s.reg u, g := Function.update s.g u c } := by
    unfold St.store
    simp only [St.buf, St.setBuf, hc, hr, hg, empty_union']
    unfold Buf.store
    rfl
  refine ⟨s.store u c, ?_, ?_⟩
  · unfold St.create
    rw [if_neg h0]
    simp only [hr, reduceCtorEq, if_false]
  rw [hs1]
  have hba : ∀ v, v ∈ (s.user.store s.reg u).added ↔ v ∈ s.user.added ∨ v = u := by
    intro v; unfold Buf.store; rw [if_neg hreg]; exact mem_ins _ _ _
  have hbu : ∀ v, v ∈ (s.user.store s.reg u).updated ↔ v ∈ s.user.updated := by
    intro v; unfold Buf.store; rw [if_neg hreg]
  have hbd : ∀ v, v ∈ (s.user.store s.reg u).deleted ↔ v ∈ s.user.deleted := by
    intro v; unfold Buf.store; rw [if_neg hreg]; show v ∈ del _ _ ↔ _; rw [mem_del]
    constructor
    · exact And.left
    · intro h; refine ⟨h, ?_⟩; rintro rfl; tauto
  generalize hb : s.user.store s.reg u = b at hba hbu hbd
  have hstv : ∀ v, St.stored { s with user := b, reg := ins s.reg u, g := Function.update s.g u c } v = s.stored v := fun v => rfl
  have hL : ∀ v, St.L { s with user := b, reg := ins s.reg u, g := Function.update s.g u c } v = Function.update s.L u c v := by
    intro v
    by_cases hvu : v = u
    · subst hvu
      unfold St.L St.content
      simp [hba, mem_ins]
    · rw [Function.update_of_ne hvu]
      refine L_other hvu rfl rfl (by simp [hvu]) rfl ?_ ?_ ?_ ?_
      · show v ∈ ins s.reg u ↔ _; rw [mem_ins]; tauto
      · show v ∈ b.added ↔ _; rw [hba]; tauto
      · exact hbu v
      · exact hbd v
  refine ⟨⟨?_, ?_, ?_, ?_, ?_, ?_, ?_, ?_, ?_, hi.root⟩, hc, hL, rfl, rfl, ?_⟩
  · intro v hv
    show v ∉ b.updated
    rw [hbu]
    rcases (hba v).1 hv with h | rfl
    · exact hi.d1 v h
    · tauto
  · intro v hv
    show v ∉ b.deleted
    rw [hbd]
    rcases (hba v).1 hv with h | rfl
    · exact hi.d2 v h
    · tauto
  · intro v hv
    show v ∉ b.deleted
    rw [hbd]
    exact hi.d3 v ((hbu v).1 hv)
  · intro v hv
    show v ∈ ins s.reg u ∧ v ∉ s.expired
    rw [mem_ins]
    have hv' : (v ∈ s.user.added ∨ v = u) ∨ v ∈ s.user.updated := by
      rcases hv with h | h
      · exact Or.inl ((hba v).1 h)
      · exact Or.inr ((hbu v).1 h)
    by_cases hvu : v = u
    · subst hvu; tauto
    · have := hi.pend v (by tauto); tauto
  · intro v hv
    show v ∉ ins s.reg u
    rw [mem_ins]
    have hv' := (hbd v).1 hv
    have := hi.delreg v hv'
    rintro (h | rfl)
    · exact this h
    · tauto
  · intro v hv
    have hv' : v ∉ ins s.reg u := hv
    rw [mem_ins] at hv'
    have hvu : v ≠ u := by tauto
    show Function.update s.g u c v = ∅
    rw [Function.update_of_ne hvu]
    exact hi.unreg v (by tauto)
  · intro v hv
    have hv' : v ∈ ins s.reg u := hv
    rw [mem_ins] at hv'
    show Function.update s.g u c v ≠ ∅
    by_cases hvu : v = u
    · subst hvu; rw [Function.update_self]; exact hce
    · rw [Function.update_of_ne hvu]; exact hi.nonempty v (by tauto)
  · intro v hv
    have hv' := (hba v).1 hv
    show s.stored v ⊆ Function.update s.g u c v ∧ (s.root ≠ some v → s.stored v = ∅)
    by_cases hvu : v = u
    · subst hvu; rw [hst]; exact ⟨Finset.empty_subset _, fun _ => rfl⟩
    · rw [Function.update_of_ne hvu]; exact hi.addedSub v (by tauto)
  · refine ⟨?_, ?_⟩
    · show 0 ∉ ins s.reg u
      rw [mem_ins]
      rintro (h | h)
      · exact hi.zero.1 h
      · exact h0 h.symm
    · show 0 ∉ b.deleted
      rw [hbd]; exact hi.zero.2
  · intro he v hv
    rw [hL v]
    have hv' : v ∈ ins s.reg u := hv
    rw [mem_ins] at hv'
    show Function.update s.g u c v = _
    by_cases hvu : v = u
    · subst hvu; rw [Function.update_self, Function.update_self]
    · rw [Function.update_of_ne hvu, Function.update_of_ne hvu]; exact he v (by tauto)

theorem mem_notifyUpdate {b : Buf} {u : Uid} (hd : u ∉ b.deleted) (v : Uid) :
    (v ∈ (b.notifyUpdate u).added ↔ v ∈ b.added) ∧ (v ∈ (b.notifyUpdate u).updated ↔ v ∈ b.updated ∨ (v = u ∧ u ∉ b.added)) ∧
    (v ∈ (b.notifyUpdate u).deleted ↔ v ∈ b.deleted) := by
  unfold Buf.notifyUpdate
  rw [if_neg hd]
  split
  · rename_i h
    refine ⟨Iff.rfl, ?_, Iff.rfl⟩
    simp only [List.mem_append, List.mem_cons, List.not_mem_nil, or_false]
    tauto
  · refine ⟨Iff.rfl, ?_, Iff.rfl⟩
    constructor
    · exact Or.inl
    · rintro (h | ⟨rfl, h⟩)
      · exact h
      · tauto

/-- Writing new triples of a registered object without expiry. -/
theorem write_spec {s : St} (hi : Inv s) (hc : s.ctx = .user) {u : Uid} (hreg : u ∈ s.reg) (hexp : u ∉ s.expired) {c : Content} (hce : c ≠ ∅)
    (hsub : s.root = some u → u ∈ s.user.added → s.stored u ⊆ c) :
    ∃ s', St.notifyUpdate { s with g := Function.update s.g u c } u = (.ok (), s') ∧ Inv s' ∧ s'.ctx = .user ∧
      (∀ v, s'.L v = Function.update s.L u c v) ∧ s'.root = s.root ∧ s'.db = s.db ∧ (Exact s → Exact s') := by
  have hdel : u ∉ s.user.deleted := fun h => hi.delreg u h hreg
  rw [notifyUpdate_eq, buf_user (by exact hc), setBuf_user (by exact hc)]
  have hm := mem_notifyUpdate hdel
  refine ⟨_, by rw [if_neg (by exact hdel)], ?_⟩
  dsimp only
  generalize hb : s.user.notifyUpdate u = b at hm
  have hL : ∀ v, St.L { s with user := b, g := Function.update s.g u c } v = Function.update s.L u c v := by
    intro v
    by_cases hvu : v = u
    · subst hvu
      unfold St.L St.content
      have : v ∈ b.added ∨ v ∈ b.updated := by
        rw [(hm v).1, (hm v).2.1]; tauto
      simp [this, hreg]
    · rw [Function.update_of_ne hvu]
      refine L_other hvu rfl rfl (by simp [hvu]) rfl Iff.rfl (hm v).1 ?_ (hm v).2.2
      show v ∈ b.updated ↔ _
      rw [(hm v).2.1]; tauto
  refine ⟨⟨?_, ?_, ?_, ?_, ?_, ?_, ?_, ?_, ?_, hi.root⟩, hc, hL, rfl, rfl, ?_⟩
  · intro v hv
    show v ∉ b.updated
    have hv' := (hm v).1.1 hv
    rw [(hm v).2.1]
    have := hi.d1 v hv'
    rintro (h | ⟨rfl, h⟩) <;> tauto
  · intro v hv
    show v ∉ b.deleted
    rw [(hm v).2.2]
    exact hi.d2 v ((hm v).1.1 hv)
  · intro v hv
    show v ∉ b.deleted
    rw [(hm v).2.2]
    rcases (hm v).2.1.1 hv with h | ⟨rfl, _⟩
    · exact hi.d3 v h
    · exact hdel
  · intro v hv
    show v ∈ s.reg ∧ v ∉ s.expired
    by_cases hvu : v = u
    · subst hvu; exact ⟨hreg, hexp⟩
    · apply hi.pend v
      rcases hv with h | h
      · exact Or.inl ((hm v).1.1 h)
      · rcases (hm v).2.1.1 h with k | k
        · exact Or.inr k
        · exact absurd k.1 hvu
  · intro v hv
    exact hi.delreg v ((hm v).2.2.1 hv)
  · intro v hv
    have hvu : v ≠ u := by rintro rfl; exact hv hreg
    show Function.update s.g u c v = ∅
    rw [Function.update_of_ne hvu]; exact hi.unreg v hv
  · intro v hv
    show Function.update s.g u c v ≠ ∅
    by_cases hvu : v = u
    · subst hvu; rw [Function.update_self]; exact hce
    · rw [Function.update_of_ne hvu]; exact hi.nonempty v hv
  · intro v hv
    have hv' := (hm v).1.1 hv
    have := hi.addedSub v hv'
    show s.stored v ⊆ Function.update s.g u c v ∧ (s.root ≠ some v → s.stored v = ∅)
    refine ⟨?_, this.2⟩
    by_cases hvu : v = u
    · subst hvu; rw [Function.update_self]
      by_cases hr : s.root = some v
      · exact hsub hr hv'
      · rw [this.2 hr]; exact Finset.empty_subset _
    · rw [Function.update_of_ne hvu]; exact this.1
  · exact ⟨hi.zero.1, fun h => hi.zero.2 ((hm 0).2.2.1 h)⟩
  · intro he v hv
    rw [hL v]
    show Function.update s.g u c v = _
    by_cases hvu : v = u
    · subst hvu; rw [Function.update_self, Function.update_self]
    · rw [Function.update_of_ne hvu, Function.update_of_ne hvu]; exact he v hv

theorem modify_spec {P : Params} {s : St} (hi : Inv s) (hc : s.ctx = .user) {u : Uid} {f : Content → Content} (hs : Safe s (.modify u f)) :
    ∃ s', s.modify P u f = (.ok (), s') ∧ Inv s' ∧ s'.ctx = .user ∧
      (Exact s → ∀ v, s'.L v = Function.update s.L u (f (s.L u)) v) ∧ (∀ v, v ≠ u → s'.L v = s.L v) ∧
      s'.root = s.root ∧ s'.db = s.db ∧ (Exact s → Exact s') := by
  obtain ⟨hreg, hx, hsub, hf⟩ := hs
  obtain ⟨s1, r1, r2, r3, r4, r5, r6⟩ := notifyRead_spec (P := P) hi hc u
  have hi1 := r2.inv hi
  have hreg1 : u ∈ s1.reg := by
    by_cases he : u ∈ s.expired
    · exact (r4 hreg he).1.2 (hx he)
    · exact (r5 (Or.inr he)).1.2 hreg
  have hexp1 : u ∉ s1.expired := by
    by_cases he : u ∈ s.expired
    · exact (r4 hreg he).2.2
    · rw [r6 he]; exact he
  unfold St.modify
  rw [r1]
  dsimp only
  rw [if_pos hreg1]
  obtain ⟨s', w1, w2, w3, w4, w5, w6, w7⟩ := write_spec hi1 r3 hreg1 hexp1 (hf _ (hi1.nonempty u hreg1)) (c := f (s1.g u)) (by
    rw [r2.root, r2.user, stored_eq r2.root r2.db]
    intro hr ha
    have he := (hi.pend u (Or.inl ha)).2
    rw [r6 he]
    exact hsub hr ha)
  refine ⟨s', w1, w2, w3, ?_, ?_, w5.trans r2.root, w6.trans r2.db, fun he => w7 (r2.exact hi he)⟩
  · intro he v
    rw [w4, r2.exact hi he u hreg1, r2.view hi]
    by_cases hvu : v = u
    · subst hvu; rw [Function.update_self, Function.update_self]
    · rw [Function.update_of_ne hvu, Function.update_of_ne hvu, r2.view hi]
  · intro v hvu
    rw [w4, Function.update_of_ne hvu, r2.view hi]

theorem mem_notifyDelete {b : Buf} (hd : Disj b) (u v : Uid) :
    (v ∈ (b.notifyDelete u).added ↔ v ∈ b.added ∧ v ≠ u) ∧ (v ∈ (b.notifyDelete u).updated ↔ v ∈ b.updated ∧ v ≠ u) ∧
    (v ∈ (b.notifyDelete u).deleted ↔ v ∈ b.deleted ∨ (v = u ∧ u ∉ b.added)) := by
  have h1 := hd u
  unfold Buf.notifyDelete
  by_cases ha : u ∈ b.added
  · rw [if_pos ha]
    simp only [mem_del]
    have h3 : u ∉ b.updated := by tauto
    refine ⟨trivial, ⟨fun h => ⟨h, fun e => h3 (e ▸ h)⟩, And.left⟩, ⟨Or.inl, fun h => h.elim id (fun k => absurd ha k.2)⟩⟩
  · rw [if_neg ha]
    have hne : ∀ l : List Uid, u ∉ l → (v ∈ l ↔ v ∈ l ∧ v ≠ u) := fun l hl => ⟨fun h => ⟨h, fun e => hl (e ▸ h)⟩, And.left⟩
    by_cases hu : u ∈ b.updated
    · rw [if_pos hu]
      simp only [mem_del, mem_ins]
      exact ⟨hne _ ha, trivial, or_congr Iff.rfl ⟨fun h => ⟨h, ha⟩, And.left⟩⟩
    · rw [if_neg hu]
      by_cases hdd : u ∈ b.deleted
      · rw [if_neg (not_not.2 hdd)]
        exact ⟨hne _ ha, hne _ hu, Or.inl, fun h => h.elim id (fun k => k.1 ▸ hdd)⟩
      · rw [if_pos hdd]
        simp only [List.mem_append, List.mem_cons, List.not_mem_nil, or_false]
        exact ⟨hne _ ha, hne _ hu, or_congr Iff.rfl ⟨fun h => ⟨h, ha⟩, And.left⟩⟩

theorem Inv.disj {s : St} (hi : Inv s) : Disj s.user := fun u =>
  ⟨fun h => hi.d1 u h.1 h.2, fun h => hi.d2 u h.1 h.2, fun h => hi.d3 u h.1 h.2⟩

theorem drop_spec {P : Params} {s : St} (hi : Inv s) (hc : s.ctx = .user) {u : Uid} (hreg : u ∈ s.reg) (hroot : s.root ≠ some u) :
    ∃ s', s.deleteTriples P u = (.ok (), s') ∧ Inv s' ∧ s'.ctx = .user ∧ (∀ v, s'.L v = Function.update s.L u ∅ v) ∧ s'.root = s.root ∧ s'.db = s.db ∧
      (Exact s → Exact s') := by
  unfold St.deleteTriples
  rw [if_neg (not_not.2 hreg), notifyDelete_eq, buf_user (by exact hc), setBuf_user (by exact hc)]
  have hm := mem_notifyDelete hi.disj u
  refine ⟨_, rfl, ?_⟩
  dsimp only
  generalize hb : s.user.notifyDelete u = b at hm
  generalize hdet : Function.update s.det u (P.typePart (s.g u)) = d
  have hdv : ∀ v, v ≠ u → d v = s.det v := by intro v hv; rw [← hdet, Function.update_of_ne hv]
  have hL : ∀ v, St.L { s with user := b, reg := del s.reg u, det := d, g := Function.update s.g u ∅ } v = Function.update s.L u ∅ v := by
    intro v
    by_cases hvu : v = u
    · subst hvu
      rw [Function.update_self]
      unfold St.L
      have h1 : ¬ (v ∈ b.added ∨ v ∈ b.updated) := by rw [(hm v).1, (hm v).2.1]; tauto
      rw [if_neg h1]
      by_cases h2 : v ∈ b.deleted
      · rw [if_pos h2]
      · rw [if_neg h2]
        have ha : v ∈ s.user.added := by
          rw [(hm v).2.2] at h2; tauto
        exact (hi.addedSub v ha).2 hroot
    · rw [Function.update_of_ne hvu]
      refine L_other hvu rfl rfl (by simp [hvu]) (hdv v hvu) ?_ ?_ ?_ ?_
      · show v ∈ del s.reg u ↔ _; rw [mem_del]; tauto
      · show v ∈ b.added ↔ _; rw [(hm v).1]; tauto
      · show v ∈ b.updated ↔ _; rw [(hm v).2.1]; tauto
      · show v ∈ b.deleted ↔ _; rw [(hm v).2.2]; tauto
  refine ⟨⟨?_, ?_, ?_, ?_, ?_, ?_, ?_, ?_, ?_, hi.root⟩, hc, hL, rfl, rfl, ?_⟩
  · intro v hv
    show v ∉ b.updated
    have hv' := (hm v).1.1 hv
    rw [(hm v).2.1]
    have := hi.d1 v hv'.1
    tauto
  · intro v hv
    show v ∉ b.deleted
    have hv' := (hm v).1.1 hv
    rw [(hm v).2.2]
    have := hi.d2 v hv'.1
    tauto
  · intro v hv
    show v ∉ b.deleted
    have hv' := (hm v).2.1.1 hv
    rw [(hm v).2.2]
    have := hi.d3 v hv'.1
    tauto
  · intro v hv
    show v ∈ del s.reg u ∧ v ∉ s.expired
    rw [mem_del]
    have hv' : (v ∈ s.user.added ∨ v ∈ s.user.updated) ∧ v ≠ u := by
      rcases hv with h | h
      · have := (hm v).1.1 h; tauto
      · have := (hm v).2.1.1 h; tauto
    have := hi.pend v hv'.1
    tauto
  · intro v hv
    show v ∉ del s.reg u
    rw [mem_del]
    rcases (hm v).2.2.1 hv with h | h
    · have := hi.delreg v h; tauto
    · tauto
  · intro v hv
    show Function.update s.g u ∅ v = ∅
    by_cases hvu : v = u
    · subst hvu; rw [Function.update_self]
    · rw [Function.update_of_ne hvu]
      refine hi.unreg v (fun h => hv ?_)
      show v ∈ del s.reg u
      rw [mem_del]; exact ⟨h, hvu⟩
  · intro v hv
    have hv' := (mem_del _ _ _).1 hv
    show Function.update s.g u ∅ v ≠ ∅
    rw [Function.update_of_ne hv'.2]; exact hi.nonempty v hv'.1
  · intro v hv
    have hv' := (hm v).1.1 hv
    show s.stored v ⊆ Function.update s.g u ∅ v ∧ (s.root ≠ some v → s.stored v = ∅)
    rw [Function.update_of_ne hv'.2]; exact hi.addedSub v hv'.1
  · refine ⟨fun h => hi.zero.1 ((mem_del _ _ _).1 h).1, ?_⟩
    show 0 ∉ b.deleted
    rw [(hm 0).2.2]
    rintro (h | ⟨h, _⟩)
    · exact hi.zero.2 h
    · exact hi.zero.1 (h ▸ hreg)
  · intro he v hv
    rw [hL v]
    have hv' := (mem_del _ _ _).1 hv
    show Function.update s.g u ∅ v = _
    rw [Function.update_of_ne hv'.2, Function.update_of_ne hv'.2]; exact he v hv'.1

theorem delete_spec {P : Params} {s : St} (hi : Inv s) (hc : s.ctx = .user) {u : Uid} (hs : Safe s (.delete u)) :
    ∃ s', s.delete P u = (.ok (), s') ∧ Inv s' ∧ s'.ctx = .user ∧ (∀ v, s'.L v = Function.update s.L u ∅ v) ∧ s'.root = s.root ∧ s'.db = s.db ∧
      (Exact s → Exact s') := by
  obtain ⟨hreg, hx, hroot⟩ := hs
  obtain ⟨s1, r1, r2, r3, r4, r5, r6⟩ := notifyRead_spec (P := P) hi hc u
  have hreg1 : u ∈ s1.reg := by
    by_cases he : u ∈ s.expired
    · exact (r4 hreg he).1.2 (hx he)
    · exact (r5 (Or.inr he)).1.2 hreg
  obtain ⟨s', w1, w2, w3, w4, w5, w6, w7⟩ := drop_spec (P := P) (r2.inv hi) r3 hreg1 (by rw [r2.root]; exact hroot)
  unfold St.delete
  rw [r1]
  dsimp only
  refine ⟨s', w1, w2, w3, ?_, w5.trans r2.root, w6.trans r2.db, fun he => w7 (r2.exact hi he)⟩
  intro v
  rw [w4]
  by_cases hvu : v = u
  · subst hvu; rw [Function.update_self, Function.update_self]
  · rw [Function.update_of_ne hvu, Function.update_of_ne hvu, r2.view hi]

end Osp.Sess
