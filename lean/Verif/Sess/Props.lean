import Verif.Sess.Steps
/-!
# Database sessions: what is shown, loaded and stored (C12, C14, C41, C42, C43)
-/
namespace Osp.Sess

/-- The wrapper is registered and not empty. -/
def RootIn (s : St) : Prop := ∃ r, s.root = some r ∧ r ∈ s.reg ∧ s.L r ≠ ∅

theorem Eng.rootIn {s s' : St} (h : Eng s s') (hi : Inv s) (hr : RootIn s) : RootIn s' := by
  obtain ⟨r, a, b, c⟩ := hr
  refine ⟨r, h.root.trans a, ?_, by rw [h.view hi]; exact c⟩
  rcases h.cell r with ⟨_, h2⟩ | ⟨h1, _⟩ | ⟨h1, _, h3⟩
  · exact h2.2 b
  · exact h1
  · exfalso
    by_cases hm : r ∈ s.user.uids
    · exact h1 ((h.keep r hm).1.2 b)
    · exact c (by rw [L_free hm]; exact h3)

/-- What is proved about every safe operation. -/
structure StepOk (s : St) (o : Op) (res : Res Unit) : Prop where
  inv : Inv res.2
  rootIn : RootIn res.2
  ctx : res.2.ctx = .user
  root : res.2.root = s.root
  ok : (∀ k, o ≠ .commit (some k)) → res.1 = .ok ()
  exact : Closed o → Exact s → Exact res.2
  view : Closed o → Exact s → ∀ u, u ≠ 0 → res.2.L u = specView s.L o u
  store : Closed o → ∀ u, u ≠ 0 → res.2.stored u = specStored s.L s.stored o u

theorem StepOk.ofEng {s : St} {o : Op} {s' : St} (hi : Inv s) (hr : RootIn s) (h : Eng s s') (hc : s'.ctx = .user)
    (hv : ∀ L, specView L o = L) (hst : ∀ L st, specStored L st o = st) : StepOk s o (.ok (), s') :=
  ⟨h.inv hi, h.rootIn hi hr, hc, h.root, fun _ => rfl, fun _ he => h.exact hi he, fun _ _ u _ => by rw [hv]; exact h.view hi u,
    fun _ u _ => by rw [hst]; exact stored_eq h.root h.db u⟩

theorem step_spec {P : Params} {s : St} (hi : Inv s) (hr : RootIn s) (hc : s.ctx = .user) {o : Op} (hs : Safe s o) :
    StepOk s o (step P s o) := by
  obtain ⟨r, r1, r2, r3⟩ := hr
  have hr : RootIn s := ⟨r, r1, r2, r3⟩
  cases o with
  | create u c =>
    obtain ⟨s', a1, a2, a3, a4, a5, a6, a7⟩ := create_spec (P := P) hi hc hs
    show StepOk s _ (s.create P u c)
    rw [a1]
    have hne : r ≠ u := by rintro rfl; exact hs.2.1 r2
    refine ⟨a2, ⟨r, a5.trans r1, ?_, by rw [a4, Function.update_of_ne hne]; exact r3⟩, a3, a5, fun _ => rfl, fun _ => a7,
      fun _ _ v _ => a4 v, fun _ v _ => stored_eq a5 a6 v⟩
    by_contra hn
    have h1 := a2.unreg r hn
    have h2 : s'.L r ≠ ∅ := by rw [a4, Function.update_of_ne hne]; exact r3
    by_cases hm : r ∈ s'.user.added ∨ r ∈ s'.user.updated
    · exact hn (a2.pend r hm).1
    · have heq : s.create P u c = (.ok (), s') := a1
      have := (user_create (P := P) hc u c).1
      have hk : r ∈ (s.create P u c).2.reg := by
        unfold St.create
        rw [if_neg hs.1]
        simp only [r1, reduceCtorEq, if_false]
        obtain ⟨q, hq⟩ := store_eq s u c
        rw [hq]
        exact (mem_ins _ _ _).2 (Or.inl r2)
      rw [heq] at hk
      exact hn hk
  | modify u f =>
    obtain ⟨s', a1, a2, a3, a4, a8, a5, a6, a7⟩ := modify_spec (P := P) hi hc hs
    show StepOk s _ (s.modify P u f)
    have hreg' : s'.reg = (s.notifyRead P u).2.reg := by
      have : (s.modify P u f).2 = s' := by rw [a1]
      rw [← this]
      unfold St.modify
      cases hread : s.notifyRead P u with
      | mk x s1 => cases x with
        | error e => rfl
        | ok x =>
          dsimp only
          rw [notifyUpdate_eq]
          dsimp only
          unfold St.setBuf
          split <;> split <;> rfl
    rw [a1]
    obtain ⟨s1, n1, n2, n3, n4, n5, n6⟩ := notifyRead_spec (P := P) hi hc u
    obtain ⟨q, q1, q2, q3⟩ := n2.rootIn hi hr
    have hqr : q = r := by rw [n2.root, r1] at q1; injection q1 with h; exact h.symm
    subst hqr
    have hregq : q ∈ s'.reg := by rw [hreg', n1]; exact q2
    refine ⟨a2, ⟨q, a5.trans r1, hregq, ?_⟩, a3, a5, fun _ => rfl, fun _ => a7, fun _ he v _ => a4 he v, fun _ v _ => stored_eq a5 a6 v⟩
    by_cases hqu : q = u
    · subst hqu
      have hp : q ∈ s'.user.added ∨ q ∈ s'.user.updated := by
        rcases user_modify (P := P) hc q f with ⟨_, e, h⟩ | ⟨h, _⟩
        · rw [a1] at h; cases h
        · rw [a1] at h
          have h' : s'.user = s.user.notifyUpdate q := h
          have hd : q ∉ s.user.deleted := fun h => hi.delreg q h r2
          rw [h', (mem_notifyUpdate hd q).1, (mem_notifyUpdate hd q).2.1]
          tauto
      rw [L_pend a2 hp]
      exact a2.nonempty q hregq
    · rw [a8 q hqu]; exact r3
  | delete u =>
    obtain ⟨s', a1, a2, a3, a4, a5, a6, a7⟩ := delete_spec (P := P) hi hc hs
    show StepOk s _ (s.delete P u)
    have hne : r ≠ u := by rintro rfl; exact hs.2.2 r1
    have hreg' : r ∈ (s.delete P u).2.reg := by
      obtain ⟨s1, n1, n2, n3, n4, n5, n6⟩ := notifyRead_spec (P := P) hi hc u
      obtain ⟨q, q1, q2, q3⟩ := n2.rootIn hi hr
      have hqr : q = r := by rw [n2.root, r1] at q1; injection q1 with h; exact h.symm
      subst hqr
      unfold St.delete
      rw [n1]
      dsimp only
      unfold St.deleteTriples
      split
      · exact q2
      · dsimp only
        rw [notifyDelete_eq]
        unfold St.setBuf
        split <;> exact (mem_del _ _ _).2 ⟨q2, hne⟩
    rw [a1] at hreg' ⊢
    exact ⟨a2, ⟨r, a5.trans r1, hreg', by rw [a4, Function.update_of_ne hne]; exact r3⟩, a3, a5, fun _ => rfl, fun _ => a7, fun _ _ v _ => a4 v,
      fun _ v _ => stored_eq a5 a6 v⟩
  | drop u =>
    obtain ⟨s', a1, a2, a3, a4, a5, a6, a7⟩ := drop_spec (P := P) hi hc hs.1 hs.2
    show StepOk s _ (s.deleteTriples P u)
    have hne : r ≠ u := by rintro rfl; exact hs.2 r1
    have hreg' : r ∈ (s.deleteTriples P u).2.reg := by
      unfold St.deleteTriples
      split
      · exact r2
      · dsimp only
        rw [notifyDelete_eq]
        unfold St.setBuf
        split <;> exact (mem_del _ _ _).2 ⟨r2, hne⟩
    rw [a1] at hreg' ⊢
    exact ⟨a2, ⟨r, a5.trans r1, hreg', by rw [a4, Function.update_of_ne hne]; exact r3⟩, a3, a5, fun _ => rfl, fun _ => a7, fun _ _ v _ => a4 v,
      fun _ v _ => stored_eq a5 a6 v⟩
  | read u =>
    obtain ⟨s', n1, n2, n3, _⟩ := notifyRead_spec (P := P) hi hc u
    show StepOk s _ (s.notifyRead P u)
    rw [n1]
    exact StepOk.ofEng hi hr n2 n3 (fun _ => rfl) (fun _ _ => rfl)
  | load us =>
    obtain ⟨s', n1, n2, n3, _⟩ := load_spec (P := P) hi hc us hs.1 hs.2
    show StepOk s _ (Res.unit (s.load P us))
    rw [n1]
    exact StepOk.ofEng hi hr n2 n3 (fun _ => rfl) (fun _ _ => rfl)
  | loadByOclass us =>
    obtain ⟨s', n1, n2, n3, _⟩ := loadByOclass_spec us s hi hc hs.1 hs.2
    show StepOk s _ (Res.unit (s.loadByOclass us))
    rw [n1]
    exact StepOk.ofEng hi hr n2 n3 (fun _ => rfl) (fun _ _ => rfl)
  | expire us => exact StepOk.ofEng hi hr (eng_expire s us) hc (fun _ => rfl) (fun _ _ => rfl)
  | expireAll => exact StepOk.ofEng hi hr (eng_expire s s.reg) hc (fun _ => rfl) (fun _ _ => rfl)
  | refresh us =>
    obtain ⟨s', n1, n2, n3, _⟩ := refresh_spec (P := P) hi hc us
    show StepOk s _ (s.refresh P us)
    rw [n1]
    exact StepOk.ofEng hi hr n2 n3 (fun _ => rfl) (fun _ _ => rfl)
  | commit fail =>
    cases fail with
    | some k =>
      obtain ⟨e, he⟩ := commit_fail hc hs
      show StepOk s _ (s.commit (some k))
      rw [he]
      have hE := eng_engine s .empty
      exact ⟨hE.inv hi, hE.rootIn hi hr, hc, rfl, fun h => absurd rfl (h k), fun _ => hE.exact hi, fun _ _ u _ => hE.view hi u, fun _ u _ => rfl⟩
    | none =>
      show StepOk s _ (s.commit none)
      rw [commit_ok hc r1 r2]
      have h0 : 0 ∉ s.user.uids := by
        rw [mem_uids]
        rintro (h | h | h)
        · exact hi.zero.1 (hi.pend 0 (Or.inl h)).1
        · exact hi.zero.1 (hi.pend 0 (Or.inr h)).1
        · exact hi.zero.2 h
      have hst : ∀ u, u ≠ 0 → s.commitOps.foldl DbOp.run s.db (s.slot u) = s.L u := by
        intro u hu
        rw [commitOps_exact s h0 hu]
        by_cases h1 : u ∈ s.user.deleted
        · rw [if_pos h1, L_del hi h1]
        · rw [if_neg h1]
          by_cases h2 : u ∈ s.user.updated
          · rw [if_pos h2, L_pend hi (Or.inr h2)]
            unfold St.content
            rw [if_pos (hi.pend u (Or.inr h2)).1]
          · rw [if_neg h2]
            by_cases h3 : u ∈ s.user.added
            · rw [if_pos h3, L_pend hi (Or.inl h3)]
              unfold St.content
              rw [if_pos (hi.pend u (Or.inl h3)).1]
              exact Finset.union_eq_right.2 (hi.addedSub u h3).1
            · rw [if_neg h3]
              rw [L_free]
              rw [mem_uids]; tauto
      generalize hex : (s.expired ++ s.reg.filter (· ∉ s.expired)).filter (· ∈ s.reg) = ex
      generalize hdb : s.commitOps.foldl DbOp.run s.db = db' at hst
      have hL : ∀ u, u ≠ 0 → St.L { s with engine := .empty, user := .empty, db := db', expired := ex } u = s.L u := by
        intro u hu
        rw [L_free (by simp [Buf.uids, Buf.empty])]
        exact hst u hu
      have hr0 : r ≠ 0 := by rintro rfl; exact hi.zero.1 r2
      refine ⟨⟨?_, ?_, ?_, ?_, ?_, hi.unreg, hi.nonempty, ?_, ⟨hi.zero.1, by simp [Buf.empty]⟩, hi.root⟩, ⟨r, r1, r2, by rw [hL r hr0]; exact r3⟩, hc, rfl, fun _ => rfl,
        ?_, fun _ _ u hu => hL u hu, fun _ u hu => hst u hu⟩
      · simp [Buf.empty]
      · simp [Buf.empty]
      · simp [Buf.empty]
      · simp [Buf.empty]
      · simp [Buf.empty]
      · simp [Buf.empty]
      · intro _ he u hu
        have hu0 : u ≠ 0 := by rintro rfl; exact hi.zero.1 hu
        rw [hL u hu0]
        exact he u hu
  | extern k c =>
    have hk := hs.1
    have hslot : ∀ u, St.slot { s with db := Function.update s.db k c } u = s.slot u := fun _ => rfl
    have hkeep : ∀ u ∈ s.user.uids, St.stored { s with db := Function.update s.db k c } u = s.stored u := by
      intro u hu
      unfold St.stored
      rw [hslot]
      exact Function.update_of_ne (hk u hu) _ _
    refine ⟨⟨hi.d1, hi.d2, hi.d3, hi.pend, hi.delreg, hi.unreg, hi.nonempty, ?_, hi.zero, hi.root⟩, ⟨r, r1, r2, ?_⟩, hc, rfl, fun _ => rfl,
      fun h => h.elim, fun h => h.elim, fun h => h.elim⟩
    · intro u hu
      show St.stored { s with db := Function.update s.db k c } u ⊆ s.g u ∧ (s.root ≠ some u → St.stored { s with db := Function.update s.db k c } u = ∅)
      rw [hkeep u ((mem_uids _ _).2 (by tauto))]
      exact hi.addedSub u hu
    · by_cases hm : r ∈ s.user.uids
      · have : St.L { s with db := Function.update s.db k c } r = s.L r := by
          unfold St.L
          show (if r ∈ s.user.added ∨ r ∈ s.user.updated then s.content r else if r ∈ s.user.deleted then ∅ else _) = _
          rw [mem_uids] at hm
          by_cases h1 : r ∈ s.user.added ∨ r ∈ s.user.updated
          · rw [if_pos h1, if_pos h1]
          · have h2 : r ∈ s.user.deleted := by tauto
            rw [if_neg h1, if_neg h1, if_pos h2, if_pos h2]
        show St.L { s with db := Function.update s.db k c } r ≠ ∅
        rw [this]; exact r3
      · have hz : s.slot r = 0 := by unfold St.slot; rw [if_pos r1]
        show St.L { s with db := Function.update s.db k c } r ≠ ∅
        rw [L_free (by exact hm)]
        show Function.update s.db k c (s.slot r) ≠ ∅
        rw [hz]
        by_cases hk0 : k = 0
        · subst hk0; rw [Function.update_self]; exact hs.2 rfl
        · rw [Function.update_of_ne (fun h => hk0 h.symm)]
          rw [L_free hm] at r3
          unfold St.stored at r3
          rw [hz] at r3
          exact r3

/-! ### opening -/

theorem loadAll_spec : ∀ (us : List Uid) (s : St), s.ctx = .engine → (∀ u, u ∉ s.engine.deleted) → s.root ≠ none → (∀ u, u ∉ s.reg → s.g u = ∅) →
    ∃ s', s.loadAll us = (.ok (), s') ∧ s'.user = s.user ∧ s'.db = s.db ∧ s'.root = s.root ∧ (∀ u, u ∉ s'.reg → s'.g u = ∅) ∧
      (∀ v ∈ us, s.stored v ≠ ∅ → v ∈ s'.reg ∧ s'.g v = s.stored v) ∧
      (∀ v, v ∉ us ∨ s.stored v = ∅ → (v ∈ s'.reg ↔ v ∈ s.reg) ∧ s'.g v = s.g v) ∧ (∀ v ∈ s'.expired, v ∈ s.expired) := by
  intro us
  induction us with
  | nil =>
    intro s _ _ _ hu
    exact ⟨s, rfl, rfl, rfl, rfl, hu, by simp, fun _ _ => ⟨Iff.rfl, rfl⟩, fun _ h => h⟩
  | cons u us ih =>
    intro s hc hd hr hu
    unfold St.loadAll
    rcases loadByIri_spec hr hc (u := u) (hu u) (hd u) with ⟨a, b⟩ | ⟨a, e, hed, b⟩
    · rw [b]
      dsimp only
      obtain ⟨s', c1, c2, c3, c4, c5, c6, c7, c8⟩ := ih s hc hd hr hu
      refine ⟨s', c1, c2, c3, c4, c5, ?_, ?_, c8⟩
      · intro v hv hne
        rcases List.mem_cons.1 hv with rfl | h
        · exact absurd a hne
        · exact c6 v h hne
      · intro v hv
        apply c7
        rcases hv with h | h
        · exact Or.inl (fun k => h (List.mem_cons_of_mem _ k))
        · exact Or.inr h
    · rw [b]
      dsimp only
      have hstv : ∀ v, St.stored { s with reg := ins s.reg u, g := Function.update s.g u (s.stored u), expired := del s.expired u, engine := e } v = s.stored v :=
        fun _ => rfl
      obtain ⟨s', c1, c2, c3, c4, c5, c6, c7, c8⟩ := ih { s with reg := ins s.reg u, g := Function.update s.g u (s.stored u), expired := del s.expired u, engine := e } hc
        (fun v hv => hd v (hed v hv)) hr (by
          intro v hv
          have hv' : v ∉ ins s.reg u := hv
          rw [mem_ins] at hv'
          have hvu : v ≠ u := by tauto
          show Function.update s.g u (s.stored u) v = ∅
          rw [Function.update_of_ne hvu]
          exact hu v (by tauto))
      refine ⟨s', c1, c2, c3, c4, c5, ?_, ?_, fun v hv => ((mem_del _ _ _).1 (c8 v hv)).1⟩
      · intro v hv hne
        by_cases hvs : v ∈ us
        · exact c6 v hvs hne
        · have hvu : v = u := by
            rcases List.mem_cons.1 hv with h | h
            · exact h
            · exact absurd h hvs
          subst hvu
          obtain ⟨d1, d2⟩ := c7 v (Or.inl hvs)
          refine ⟨d1.2 ((mem_ins _ _ _).2 (Or.inr rfl)), d2.trans ?_⟩
          exact Function.update_self _ _ _
      · intro v hv
        have hvu : v ≠ u := by
          rintro rfl
          rcases hv with h | h
          · exact h List.mem_cons_self
          · exact a h
        obtain ⟨d1, d2⟩ := c7 v (by
          rcases hv with h | h
          · exact Or.inl (fun k => h (List.mem_cons_of_mem _ k))
          · exact Or.inr h)
        refine ⟨d1.trans ?_, d2.trans ?_⟩
        · show v ∈ ins s.reg u ↔ _
          rw [mem_ins]; tauto
        · exact Function.update_of_ne hvu _ _

/-- Opening a session: connecting and creating the wrapper. -/
theorem open_spec (P : Params) (db : Uid → Content) {r : Uid} (hr0 : r ≠ 0) {c : Content} (hce : c ≠ ∅) :
    ∃ s, (St.opened db).create P r c = (.ok (), s) ∧ Inv s ∧ RootIn s ∧ Exact s ∧ s.ctx = .user ∧ s.root = some r ∧ s.db = db ∧
      (∀ u, s.L u = specOpen db r c u) ∧ (∀ u, s.stored u = specOpenStored db r u) := by
  have hstore : (St.opened db).store r c = { St.opened db with reg := [r], user := ⟨[r], [], []⟩, g := Function.update (fun _ => ∅) r c, root := some r } := by
    unfold St.store St.opened
    simp [St.buf, St.setBuf, ins, del, Buf.empty, empty_union']
  unfold St.create
  rw [if_neg hr0]
  have hn : (St.opened db).root = none := rfl
  simp only [hn, if_true, hstore]
  unfold St.inEngine
  have hctx : (St.opened db).ctx = .user := rfl
  simp only [hctx, ne_eq, reduceCtorEq, not_false_eq_true, if_true]
  generalize hs0 : ({ reg := [r], g := Function.update (fun _ => ∅) r c, det := (St.opened db).det, user := ⟨[r], [], []⟩, engine := Buf.empty, ctx := Ctx.engine, expired := (St.opened db).expired, root := some r, db := (St.opened db).db } : St) = s0
  have hst : ∀ u, s0.stored u = specOpenStored db r u := by
    intro u
    rw [← hs0]
    unfold St.stored St.slot specOpenStored
    show db (if some r = some u then 0 else u) = if u = r then db 0 else db u
    by_cases h : u = r
    · subst h; simp
    · have : ¬ (some r = some u) := fun k => h (by injection k with k; exact k.symm)
      rw [if_neg this, if_neg h]
  generalize hus : P.order _ = us0
  have hmem : ∀ v, v ∈ us0 → v = r ∨ v ≠ 0 := by
    intro v hv
    rw [← hus, P.order_mem] at hv
    rcases List.mem_cons.1 hv with k | k
    · exact Or.inl k
    · have := (List.mem_filter.1 k).2
      exact Or.inr (by simpa using this)
  obtain ⟨s', c1, c2, c3, c4, c5, c6, c7, c8⟩ := loadAll_spec us0 s0 (by rw [← hs0]) (by rw [← hs0]; simp [Buf.empty])
    (by rw [← hs0]; simp) (by
      rw [← hs0]
      intro u hu
      have : u ≠ r := by rintro rfl; exact hu (by simp)
      simp [this])
  rw [c1]
  have hroot : s'.root = some r := by rw [c4, ← hs0]
  have huser : s'.user = ⟨[r], [], []⟩ := by rw [c2, ← hs0]
  have hdb : s'.db = db := by rw [c3, ← hs0]; rfl
  have hexp : ∀ v, v ∉ s'.expired := by
    intro v hv
    have := c8 v hv
    rw [← hs0] at this
    exact absurd this (by simp [St.opened])
  have hstv : ∀ u, s'.stored u = specOpenStored db r u := by
    intro u
    rw [← hst]
    exact stored_eq c4 c3 u
  have hrm : r ∈ us0 := by rw [← hus]; exact (P.order_mem _ _).2 List.mem_cons_self
  have hr1 : r ∈ s'.reg := by
    by_cases h : s0.stored r = ∅
    · refine (c7 r (Or.inr h)).1.2 ?_
      rw [← hs0]; simp
    · exact (c6 r hrm h).1
  have hgr : s'.g r = specOpen db r c r := by
    unfold specOpen
    rw [if_pos rfl]
    have h0 : s0.stored r = db 0 := by rw [hst]; unfold specOpenStored; rw [if_pos rfl]
    by_cases h : db 0 = ∅
    · rw [if_pos h]
      rw [(c7 r (Or.inr (h0.trans h))).2, ← hs0]
      simp only [Function.update_self]
    · rw [if_neg h]
      rw [(c6 r hrm (by rw [h0]; exact h)).2, h0]
  have hgv : ∀ v ∈ s'.reg, v ≠ r → s'.g v = s0.stored v ∧ s0.stored v ≠ ∅ ∧ v ≠ 0 := by
    intro v hv hvr
    by_cases h : v ∈ us0 ∧ s0.stored v ≠ ∅
    · refine ⟨(c6 v h.1 h.2).2, h.2, ?_⟩
      rcases hmem v h.1 with k | k
      · exact absurd k hvr
      · exact k
    · exfalso
      have h' : v ∉ us0 ∨ s0.stored v = ∅ := by tauto
      have := (c7 v h').1.1 hv
      rw [← hs0] at this
      exact hvr (by simpa using this)
  have hL : ∀ u, St.L { s' with ctx := .user } u = specOpen db r c u := by
    intro u
    by_cases h : u = r
    · subst h
      unfold St.L St.content
      simp only [huser]
      simp [hr1, hgr]
    · unfold St.L
      simp only [huser]
      simp only [List.mem_cons, List.not_mem_nil, or_false, h, if_false]
      show s'.stored u = _
      rw [hstv]
      unfold specOpenStored specOpen
      rw [if_neg h, if_neg h]
  refine ⟨{ s' with ctx := .user }, rfl, ⟨?_, ?_, ?_, ?_, ?_, c5, ?_, ?_, ⟨?_, ?_⟩, ⟨?_, ?_⟩⟩, ⟨r, hroot, hr1, ?_⟩, ?_, rfl, hroot, hdb, hL, hstv⟩
  · simp [huser]
  · simp [huser]
  · simp [huser]
  · intro u hu
    simp only [huser, List.mem_cons, List.not_mem_nil, or_false] at hu
    subst hu
    exact ⟨hr1, hexp u⟩
  · simp [huser]
  · intro u hu
    show s'.g u ≠ ∅
    by_cases h : u = r
    · subst h
      rw [hgr]
      unfold specOpen
      rw [if_pos rfl]
      split
      · exact hce
      · assumption
    · obtain ⟨a, b, _⟩ := hgv u hu h
      rw [a]; exact b
  · intro u hu
    simp only [huser, List.mem_cons, List.not_mem_nil, or_false] at hu
    subst hu
    refine ⟨?_, fun h => absurd hroot h⟩
    show s'.stored u ⊆ s'.g u
    rw [hstv, hgr]
    unfold specOpenStored specOpen
    rw [if_pos rfl, if_pos rfl]
    split
    · rename_i h; rw [h]; exact Finset.empty_subset _
    · exact Finset.Subset.refl _
  · intro h
    by_cases h0 : (0 : Uid) = r
    · exact hr0 h0.symm
    · exact (hgv 0 h h0).2.2 rfl
  · simp [huser]
  · show s'.root ≠ none
    rw [hroot]; simp
  · show s'.root ≠ some 0
    rw [hroot]
    intro h; injection h with h; exact hr0 h
  · rw [hL]
    unfold specOpen
    rw [if_pos rfl]
    split
    · exact hce
    · assumption
  · intro u hu
    rw [hL]
    show s'.g u = _
    by_cases h : u = r
    · subst h; exact hgr
    · rw [(hgv u hu h).1, hst]
      unfold specOpenStored specOpen
      rw [if_neg h, if_neg h]

/-! ### histories -/

theorem specView_congr {L L' : Uid → Content} (h : ∀ u, u ≠ 0 → L u = L' u) (o : Op) : ∀ u, u ≠ 0 → specView L o u = specView L' o u := by
  intro u hu
  cases o <;> simp only [specView] <;> (try exact h u hu)
  · rename_i v c
    by_cases hv : u = v
    · subst hv; simp
    · simp [hv, h u hu]
  · rename_i v f
    by_cases hv : u = v
    · subst hv; simp [h u hu]
    · simp [hv, h u hu]
  · rename_i v
    by_cases hv : u = v
    · subst hv; simp
    · simp [hv, h u hu]
  · rename_i v
    by_cases hv : u = v
    · subst hv; simp
    · simp [hv, h u hu]

theorem specStored_congr {L L' st st' : Uid → Content} (h : ∀ u, u ≠ 0 → L u = L' u) (k : ∀ u, u ≠ 0 → st u = st' u) (o : Op) :
    ∀ u, u ≠ 0 → specStored L st o u = specStored L' st' o u := by
  intro u hu
  cases o with
  | commit f => cases f with
    | none => exact h u hu
    | some _ => exact k u hu
  | _ => exact k u hu

theorem specRun_congr : ∀ (ops : List Op) {L L' st st' : Uid → Content}, (∀ u, u ≠ 0 → L u = L' u) → (∀ u, u ≠ 0 → st u = st' u) →
    ∀ u, u ≠ 0 → (specRun L st ops).1 u = (specRun L' st' ops).1 u ∧ (specRun L st ops).2 u = (specRun L' st' ops).2 u := by
  intro ops
  induction ops with
  | nil => intro L L' st st' h k u hu; exact ⟨h u hu, k u hu⟩
  | cons o os ih =>
    intro L L' st st' h k u hu
    exact ih (specView_congr h o) (specStored_congr h k o) u hu

/-- The states reached in normal use, with or without foreign changes of the database. -/
theorem run_inv (P : Params) : ∀ (ops : List Op) (s : St), Inv s → RootIn s → s.ctx = .user → Along P Safe s ops →
    Inv (run P s ops) ∧ RootIn (run P s ops) ∧ (run P s ops).ctx = .user ∧ (run P s ops).root = s.root := by
  intro ops
  induction ops with
  | nil => intro s hi hr hc _; exact ⟨hi, hr, hc, rfl⟩
  | cons o os ih =>
    intro s hi hr hc hal
    have h := step_spec (P := P) hi hr hc hal.1
    obtain ⟨a, b, c, d⟩ := ih _ h.inv h.rootIn h.ctx hal.2
    exact ⟨a, b, c, d.trans h.root⟩

theorem run_refines (P : Params) : ∀ (ops : List Op) (s : St), Inv s → RootIn s → Exact s → s.ctx = .user → Along P Safe s ops → (∀ o ∈ ops, Closed o) →
    Exact (run P s ops) ∧ ∀ u, u ≠ 0 → (run P s ops).L u = (specRun s.L s.stored ops).1 u ∧ (run P s ops).stored u = (specRun s.L s.stored ops).2 u := by
  intro ops
  induction ops with
  | nil => intro s _ _ he _ _ _; exact ⟨he, fun u _ => ⟨rfl, rfl⟩⟩
  | cons o os ih =>
    intro s hi hr he hc hal hcl
    have h := step_spec (P := P) hi hr hc hal.1
    have ho := hcl o List.mem_cons_self
    obtain ⟨a, b⟩ := ih _ h.inv h.rootIn (h.exact ho he) h.ctx hal.2 (fun o' h' => hcl o' (List.mem_cons_of_mem _ h'))
    refine ⟨a, ?_⟩
    intro u hu
    obtain ⟨c1, c2⟩ := b u hu
    obtain ⟨d1, d2⟩ := specRun_congr os (h.view ho he) (h.store ho) u hu
    exact ⟨c1.trans d1, c2.trans d2⟩

/-- A session on the database `db`: its wrapper `r` is created with content `c`, then the user works with it. -/
def session (P : Params) (db : Uid → Content) (r : Uid) (c : Content) (ops : List Op) : St := run P (St.opened db) (.create r c :: ops)

/-- The user's operations after the wrapper was created are safe. -/
def SafeSession (P : Params) (db : Uid → Content) (r : Uid) (c : Content) (ops : List Op) : Prop :=
  r ≠ 0 ∧ c ≠ ∅ ∧ Along P Safe (session P db r c []) ops

theorem session_inv {P : Params} {db : Uid → Content} {r : Uid} {c : Content} {ops : List Op} (h : SafeSession P db r c ops) :
    Inv (session P db r c ops) ∧ RootIn (session P db r c ops) ∧ (session P db r c ops).ctx = .user ∧ (session P db r c ops).root = some r := by
  obtain ⟨h0, hc, hal⟩ := h
  obtain ⟨s, a1, a2, a3, a4, a5, a6, a7, a8, a9⟩ := open_spec P db h0 hc
  have hs : session P db r c [] = s := by
    show ((St.opened db).create P r c).2 = s
    rw [a1]
  rw [hs] at hal
  have hs2 : session P db r c ops = run P s ops := by rw [← hs]; rfl
  rw [hs2]
  obtain ⟨b1, b2, b3, b4⟩ := run_inv P ops s a2 a3 a5 hal
  exact ⟨b1, b2, b3, b4.trans a6⟩

/-- **C41** (with C14 and C43). For every database, every wrapper and every history of creations, modifications, deletions, reads, loads, queries, expirations,
refreshes, commits and failing commits in normal use, the session shows for every object exactly the content the specification computes from the history alone,
and the database contains exactly what the specification says is stored: the contents at the last successful commit. Partial: `Safe` lists what is
excluded; the theorems named in its comment show that the property fails there. -/
theorem session_refines_partial (P : Params) (db : Uid → Content) (r : Uid) (c : Content) (ops : List Op) (h : SafeSession P db r c ops) (hcl : ∀ o ∈ ops, Closed o)
    (u : Uid) (hu : u ≠ 0) :
    (session P db r c ops).L u = (specRun (specOpen db r c) (specOpenStored db r) ops).1 u ∧
    (session P db r c ops).stored u = (specRun (specOpen db r c) (specOpenStored db r) ops).2 u ∧
    (u ∈ (session P db r c ops).reg → (session P db r c ops).g u = (specRun (specOpen db r c) (specOpenStored db r) ops).1 u) := by
  obtain ⟨h0, hc, hal⟩ := h
  obtain ⟨s, a1, a2, a3, a4, a5, a6, a7, a8, a9⟩ := open_spec P db h0 hc
  have hs : session P db r c [] = s := by
    show ((St.opened db).create P r c).2 = s
    rw [a1]
  rw [hs] at hal
  have hs2 : session P db r c ops = run P s ops := by rw [← hs]; rfl
  rw [hs2]
  obtain ⟨b1, b2⟩ := run_refines P ops s a2 a3 a4 a5 hal hcl
  obtain ⟨c1, c2⟩ := b2 u hu
  obtain ⟨d1, d2⟩ := specRun_congr ops (fun v _ => a8 v) (fun v _ => a9 v) u hu
  exact ⟨c1.trans d1, c2.trans d2, fun hr => (b1 u hr).trans (c1.trans d1)⟩

theorem session_exact {P : Params} {db : Uid → Content} {r : Uid} {c : Content} {ops : List Op} (h : SafeSession P db r c ops) (hcl : ∀ o ∈ ops, Closed o) :
    Exact (session P db r c ops) := by
  obtain ⟨h0, hc, hal⟩ := h
  obtain ⟨s, a1, a2, a3, a4, a5, a6, a7, a8, a9⟩ := open_spec P db h0 hc
  have hs : session P db r c [] = s := by
    show ((St.opened db).create P r c).2 = s
    rw [a1]
  rw [hs] at hal
  have hs2 : session P db r c ops = run P s ops := by rw [← hs]; rfl
  rw [hs2]
  exact (run_refines P ops s a2 a3 a4 a5 hal hcl).1

/-- Loading objects in such a session returns exactly the objects that exist, and their contents are the ones of the specification. -/
theorem load_returns_contents_partial (P : Params) (db : Uid → Content) (r : Uid) (c : Content) (ops : List Op) (h : SafeSession P db r c ops)
    (hcl : ∀ o ∈ ops, Closed o) (us : List Uid) (hs : Safe (session P db r c ops) (.load us)) :
    ∃ s', (session P db r c ops).load P us = (.ok (us.map (fun u => if (specRun (specOpen db r c) (specOpenStored db r) ops).1 u ≠ ∅ then some u else none)), s') ∧
      ∀ u ∈ us, s'.g u = (specRun (specOpen db r c) (specOpenStored db r) ops).1 u := by
  obtain ⟨hi, hr, hc, _⟩ := session_inv h
  have hex := session_exact h hcl
  have href := session_refines_partial P db r c ops h hcl
  generalize session P db r c ops = s at *
  obtain ⟨s', a1, a2, a3, a4, a5, a6⟩ := load_spec (P := P) hi hc us hs.1 hs.2
  have key : ∀ u ∈ us, (u ∈ s'.reg ↔ s.L u ≠ ∅) ∧ s'.g u = s.L u := by
    intro u hu
    by_cases hm : u ∉ s.reg ∨ u ∈ s.expired
    · obtain ⟨b1, b2⟩ := a4 u hu hm
      have hf : u ∉ s.user.uids := by
        rw [mem_uids]
        rintro (k | k | k)
        · have := hi.pend u (Or.inl k); tauto
        · have := hi.pend u (Or.inr k); tauto
        · exact hs.2 u hu k
      rw [L_free hf]
      exact ⟨b1, b2⟩
    · have hm' : u ∈ s.reg ∧ u ∉ s.expired := by tauto
      obtain ⟨b1, b2⟩ := a5 u (Or.inr hm')
      rw [← hex u hm'.1]
      exact ⟨⟨fun _ => hi.nonempty u hm'.1, fun _ => b1.2 hm'.1⟩, b2⟩
  refine ⟨s', ?_, ?_⟩
  · rw [a1]
    congr 2
    apply List.map_congr_left
    intro u hu
    have h0 : u ≠ 0 := fun k => hs.1 (k ▸ hu)
    simp only [(key u hu).1, (href u h0).1]
  · intro u hu
    have h0 : u ≠ 0 := fun k => hs.1 (k ▸ hu)
    rw [(key u hu).2, (href u h0).1]

/-- **C12** (freshness). Also when others change the database: loading an object that is expired or not known yet gives what is stored at that moment. -/
theorem load_fresh_partial (P : Params) (db : Uid → Content) (r : Uid) (c : Content) (ops : List Op) (h : SafeSession P db r c ops)
    (us : List Uid) (hs : Safe (session P db r c ops) (.load us)) :
    ∃ s', (session P db r c ops).load P us = (.ok (us.map (fun u => if u ∈ s'.reg then some u else none)), s') ∧
      ∀ u ∈ us, u ∉ (session P db r c ops).reg ∨ u ∈ (session P db r c ops).expired →
        (u ∈ s'.reg ↔ (session P db r c ops).stored u ≠ ∅) ∧ s'.g u = (session P db r c ops).stored u := by
  obtain ⟨hi, hr, hc, _⟩ := session_inv h
  obtain ⟨s', a1, a2, a3, a4, a5, a6⟩ := load_spec (P := P) hi hc us hs.1 hs.2
  exact ⟨s', a1, a4⟩

/-- **C12**. Also when others change the database: refreshing or loading never changes an object with pending changes. -/
theorem pending_survive_partial (P : Params) (db : Uid → Content) (r : Uid) (c : Content) (ops : List Op) (h : SafeSession P db r c ops)
    (o : Op) (ho : (∃ us, o = .refresh us) ∨ (∃ u, o = .read u) ∨ (∃ us, o = .expire us) ∨ o = .expireAll ∨ (∃ us, o = .load us) ∨ (∃ us, o = .loadByOclass us))
    (hs : Safe (session P db r c ops) o) (u : Uid) (hp : u ∈ (session P db r c ops).user.uids) :
    (step P (session P db r c ops) o).2.g u = (session P db r c ops).g u ∧
    (u ∈ (step P (session P db r c ops) o).2.reg ↔ u ∈ (session P db r c ops).reg) := by
  obtain ⟨hi, hr, hc, _⟩ := session_inv h
  generalize session P db r c ops = s at *
  have key : Eng s (step P s o).2 := by
    rcases ho with ⟨us, rfl⟩ | ⟨v, rfl⟩ | ⟨us, rfl⟩ | rfl | ⟨us, rfl⟩ | ⟨us, rfl⟩
    · obtain ⟨s', n1, n2, _⟩ := refresh_spec (P := P) hi hc us
      show Eng s (s.refresh P us).2; rw [n1]; exact n2
    · obtain ⟨s', n1, n2, _⟩ := notifyRead_spec (P := P) hi hc v
      show Eng s (s.notifyRead P v).2; rw [n1]; exact n2
    · exact eng_expire s us
    · exact eng_expire s s.reg
    · obtain ⟨s', n1, n2, _⟩ := load_spec (P := P) hi hc us hs.1 hs.2
      show Eng s (s.load P us).2; rw [n1]; exact n2
    · obtain ⟨s', n1, n2, _⟩ := loadByOclass_spec us s hi hc hs.1 hs.2
      show Eng s (s.loadByOclass us).2; rw [n1]; exact n2
  exact ⟨(key.keep u hp).2, (key.keep u hp).1⟩

/-! ### commit in any state -/

/-- **C41**, **C14**: in any state whatsoever, what a successful commit stores: nothing for deleted objects, exactly the triples of updated objects, the triples of
added objects *in addition* to what was stored, and nothing else changes; then the buffers are empty and all registered objects are expired. -/
theorem commit_exact (s : St) (hc : s.ctx = .user) (h0 : 0 ∉ s.user.uids) (hok : (s.commit none).1 = .ok ()) :
    (∀ u, u ≠ 0 → (s.commit none).2.stored u =
      if u ∈ s.user.deleted then ∅ else if u ∈ s.user.updated then s.content u else if u ∈ s.user.added then s.stored u ∪ s.content u else s.stored u) ∧
    (s.commit none).2.user = .empty ∧ (∀ u, u ∈ (s.commit none).2.expired ↔ u ∈ s.reg) ∧ (s.commit none).2.reg = s.reg ∧ (s.commit none).2.g = s.g := by
  have hroot : ∃ r, s.root = some r ∧ r ∈ s.reg := by
    unfold St.commit St.inEngine St.commitBody at hok
    simp only [hc, ne_eq, reduceCtorEq, not_false_eq_true, if_true] at hok
    cases hr : s.root with
    | none => rw [hr] at hok; cases hok
    | some r =>
      rw [hr] at hok
      by_cases hreg : r ∈ s.reg
      · exact ⟨r, rfl, hreg⟩
      · simp only [hreg, not_false_eq_true, if_true] at hok; cases hok
  obtain ⟨r, hr, hreg⟩ := hroot
  rw [commit_ok hc hr hreg]
  refine ⟨fun u hu => commitOps_exact s h0 hu, rfl, ?_, rfl, rfl⟩
  intro u
  simp only [List.mem_filter, List.mem_append, decide_eq_true_eq]
  tauto

/-- **C42**: a commit that fails while the changes are written leaves the database, the buffers and the session content as they were. -/
theorem failed_commit_changes_nothing_partial (s : St) (hc : s.ctx = .user) (k : Nat) (hk : k < s.commitOps.length) :
    (s.commit (some k)).1 ≠ .ok () ∧ (s.commit (some k)).2.db = s.db ∧ (s.commit (some k)).2.user = s.user ∧ (s.commit (some k)).2.reg = s.reg ∧
    (s.commit (some k)).2.g = s.g ∧ (s.commit (some k)).2.expired = s.expired ∧
    -- the next commit does what it would have done
    ((s.commit (some k)).2.commit none).2.db = (s.commit none).2.db ∧ ((s.commit (some k)).2.commit none).1 = (s.commit none).1 := by
  obtain ⟨e, he⟩ := commit_fail hc hk
  rw [he]
  refine ⟨(by intro h; cases h), rfl, rfl, rfl, rfl, rfl, ?_, ?_⟩
  · unfold St.commit St.inEngine
    dsimp only
    rw [if_pos (by rw [hc]; decide), if_pos (by rw [hc]; decide)]
  · unfold St.commit St.inEngine
    dsimp only
    rw [if_pos (by rw [hc]; decide), if_pos (by rw [hc]; decide)]

/-- **C42**: the database never holds a part of the changes, whatever step fails. -/
theorem failed_commit_atomic (s : St) (k : Nat) : (s.commit (some k)).2.db = s.db := by
  unfold St.commit St.inEngine
  dsimp only
  generalize ht : ({ (if s.ctx ≠ .engine then { s with engine := Buf.empty } else s) with ctx := Ctx.engine } : St) = t
  have hu : t.db = s.db := by rw [← ht]; dsimp only; split <;> rfl
  rw [← hu]
  unfold St.commitBody
  split
  · rfl
  · split
    · rfl
    · dsimp only; split <;> rfl

/-! ### C43 -/

/-- **C43.** A new session (with a new wrapper) on the database of an old one shows, for every object, what the old one had committed, and for its wrapper what
the old one had committed for its own wrapper; loading gives these contents. -/
theorem reopen_partial (P : Params) (db : Uid → Content) (r : Uid) (c : Content) (ops : List Op) (h : SafeSession P db r c ops) (hcl : ∀ o ∈ ops, Closed o)
    (hne : (specRun (specOpen db r c) (specOpenStored db r) ops).2 r ≠ ∅)
    (r' : Uid) (hr' : r' ≠ 0) (c' : Content) (hc' : c' ≠ ∅) (us : List Uid) (h0 : 0 ∉ us) :
    ∃ s', (session P (session P db r c ops).db r' c' []).load P us = (.ok (us.map (fun u => if u ∈ s'.reg then some u else none)), s') ∧
      (∀ u ∈ us, u ≠ r → u ≠ r' → s'.g u = (specRun (specOpen db r c) (specOpenStored db r) ops).2 u ∧
        (u ∈ s'.reg ↔ (specRun (specOpen db r c) (specOpenStored db r) ops).2 u ≠ ∅)) ∧
      (r' ∈ us → s'.g r' = (specRun (specOpen db r c) (specOpenStored db r) ops).2 r ∧ r' ∈ s'.reg) := by
  obtain ⟨_, _, _, hroot⟩ := session_inv h
  have href := session_refines_partial P db r c ops h hcl
  have hr0 := h.1
  generalize session P db r c ops = s at *
  have hnew : SafeSession P s.db r' c' [] := ⟨hr', hc', trivial⟩
  have hsafe : Safe (session P s.db r' c' []) (.load us) := by
    refine ⟨h0, ?_⟩
    intro u _ hd
    have : (session P s.db r' c' []).user = ⟨[r'], [], []⟩ := by
      show ((St.opened s.db).create P r' c').2.user = _
      rw [(user_create rfl r' c').1, if_neg hr']
      rfl
    rw [this] at hd
    simp at hd
  obtain ⟨s', a1, a2⟩ := load_returns_contents_partial P s.db r' c' [] hnew (by simp) us hsafe
  obtain ⟨s'', b1, b2⟩ := load_fresh_partial P s.db r' c' [] hnew us hsafe
  have hss : s' = s'' := by rw [a1] at b1; injection b1
  subst hss
  rw [a1] at b1
  have hmap : us.map (fun u => if specOpen s.db r' c' u ≠ ∅ then some u else none) = us.map (fun u => if u ∈ s'.reg then some u else none) := by
    injection b1 with b1 _
    injection b1
  have hreg : ∀ u ∈ us, (u ∈ s'.reg ↔ specOpen s.db r' c' u ≠ ∅) := by
    intro u hu
    have := List.map_inj_left.1 hmap u hu
    by_cases h1 : specOpen s.db r' c' u ≠ ∅ <;> by_cases h2 : u ∈ s'.reg <;> simp_all
  have hdbr : s.db 0 = (specRun (specOpen db r c) (specOpenStored db r) ops).2 r := by
    rw [← (href r hr0).2.1]
    unfold St.stored St.slot
    rw [if_pos hroot]
  refine ⟨s', ?_, ?_, ?_⟩
  · rw [a1]
    congr 2
  · intro u hu hur hur'
    have hu0 : u ≠ 0 := fun k => h0 (k ▸ hu)
    have hsp : specOpen s.db r' c' u = (specRun (specOpen db r c) (specOpenStored db r) ops).2 u := by
      rw [← (href u hu0).2.1]
      show (if u = r' then (if s.db 0 = ∅ then c' else s.db 0) else s.db u) = s.stored u
      rw [if_neg hur']
      unfold St.stored St.slot
      rw [if_neg]
      rw [hroot]
      intro k; injection k with k; exact hur k.symm
    refine ⟨(a2 u hu).trans hsp, ?_⟩
    rw [hreg u hu, hsp]
  · intro hu
    have hsp : specOpen s.db r' c' r' = (specRun (specOpen db r c) (specOpenStored db r) ops).2 r := by
      rw [← hdbr]
      show (if r' = r' then (if s.db 0 = ∅ then c' else s.db 0) else s.db r') = s.db 0
      rw [if_pos rfl, if_neg (by rw [hdbr]; exact hne)]
    refine ⟨(a2 r' hu).trans hsp, ?_⟩
    rw [hreg r' hu, hsp]
    exact hne

end Osp.Sess
