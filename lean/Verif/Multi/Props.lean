import Verif.Multi.Lemmas
/-!
# Several sessions on one database (C97)
-/
namespace Osp.Multi
open Osp.Sess

/-! ### buffers -/

theorem uids_notifyUpdate (b : Buf) (u : Uid) : u ∈ (b.notifyUpdate u).uids ∧ ∀ v, v ≠ u → (v ∈ (b.notifyUpdate u).uids ↔ v ∈ b.uids) := by
  unfold Buf.notifyUpdate
  by_cases h1 : u ∈ b.deleted
  · rw [if_pos h1]
    exact ⟨(mem_uids _ _).2 (Or.inr (Or.inr h1)), fun _ _ => Iff.rfl⟩
  · rw [if_neg h1]
    by_cases h2 : u ∉ b.added ∧ u ∉ b.updated
    · rw [if_pos h2]
      refine ⟨(mem_uids _ _).2 (Or.inr (Or.inl (by simp))), fun v hv => ?_⟩
      rw [mem_uids, mem_uids]
      simp [hv]
    · rw [if_neg h2]
      refine ⟨(mem_uids _ _).2 (by tauto), fun _ _ => Iff.rfl⟩

theorem uids_store (b : Buf) (r : List Uid) (u : Uid) : u ∈ (b.store r u).uids ∧ ∀ v, v ≠ u → (v ∈ (b.store r u).uids ↔ v ∈ b.uids) := by
  unfold Buf.store
  dsimp only
  split
  · refine ⟨(mem_uids _ _).2 (Or.inr (Or.inl ((mem_ins _ _ _).2 (Or.inr rfl)))), fun v hv => ?_⟩
    rw [mem_uids, mem_uids, mem_ins, mem_del]
    tauto
  · refine ⟨(mem_uids _ _).2 (Or.inl ((mem_ins _ _ _).2 (Or.inr rfl))), fun v hv => ?_⟩
    rw [mem_uids, mem_uids, mem_ins, mem_del]
    tauto

theorem uids_notifyDelete (b : Buf) (u v : Uid) (hv : v ≠ u) : v ∈ (b.notifyDelete u).uids ↔ v ∈ b.uids := by
  unfold Buf.notifyDelete
  split
  · rw [mem_uids, mem_uids, mem_del]; tauto
  · split
    · rw [mem_uids, mem_uids, mem_del, mem_ins]; tauto
    · split
      · rw [mem_uids, mem_uids]; simp [hv]
      · rfl

/-! ### one session -/

/-- Proof device; nothing in /repo: what a session shows for an object without pending changes that is not expired has the property `Φ` of contents. -/
structure J (Φ : Uid → Content → Prop) (s : St) : Prop where
  ctx : s.ctx = .user
  tidy : Tidy s
  closed : s.root = none → s.reg = [] ∧ s.expired = []
  zero : 0 ∉ s.user.uids
  cell : ∀ u ∈ s.reg, u ∉ s.user.uids → u ∉ s.expired → Φ (s.slot u) (s.g u)

theorem J.opened (Φ : Uid → Content → Prop) (db : Uid → Content) : J Φ (St.opened db) :=
  ⟨rfl, fun _ _ => rfl, fun _ => ⟨rfl, rfl⟩, by simp [St.opened, Buf.empty, Buf.uids], fun u hu => absurd hu (by simp [St.opened])⟩

theorem J.trace {Φ : Uid → Content → Prop} {s s' : St} (h : J Φ s) (hroot : s.root ≠ none) (hΦ : ∀ k, Φ k (s.db k)) (t : Trace s s') : J Φ s' := by
  refine ⟨t.ctx.trans h.ctx, t.tidy, fun hn => absurd (t.root.symm.trans hn) hroot, by rw [t.user]; exact h.zero, fun u hu h1 h2 => ?_⟩
  rw [t.user] at h1
  rw [slot_eq t.root]
  rcases t.cell u hu h2 with ⟨a, b, c⟩ | c
  · rw [c]; exact h.cell u a h1 b
  · rw [c]; exact hΦ _

theorem J.mono {Φ Ψ : Uid → Content → Prop} {s : St} (h : J Φ s) (hi : ∀ k c, Φ k c → Ψ k c) : J Ψ s :=
  ⟨h.ctx, h.tidy, h.closed, h.zero, fun u a b c => hi _ _ (h.cell u a b c)⟩

theorem J.drop {Φ : Uid → Content → Prop} {P : Params} {s : St} (h : J Φ s) (u : Uid) (hu : u ≠ 0) : J Φ (s.deleteTriples P u).2 ∧ (s.deleteTriples P u).2.db = s.db := by
  unfold St.deleteTriples
  by_cases hr : u ∈ s.reg
  · rw [if_neg (not_not.2 hr)]
    dsimp only
    rw [notifyDelete_eq, setBuf_user (by exact h.ctx), buf_user (by exact h.ctx)]
    refine ⟨⟨h.ctx, fun v hv => ?_, fun hn => ?_, fun h0 => ?_, fun v hv h1 h2 => ?_⟩, rfl⟩
    · have hv' : v ∉ del s.reg u := hv
      rw [mem_del] at hv'
      show Function.update s.g u ∅ v = ∅
      by_cases hvu : v = u
      · subst hvu; simp
      · rw [Function.update_of_ne hvu]; exact h.tidy v (by tauto)
    · have := (h.closed hn).1
      rw [this] at hr
      exact absurd hr (by simp)
    · exact h.zero ((uids_notifyDelete s.user u 0 (Ne.symm hu)).1 h0)
    · have hv' : v ∈ del s.reg u := hv
      rw [mem_del] at hv'
      have h1' : v ∉ s.user.uids := fun k => h1 ((uids_notifyDelete s.user u v hv'.2).2 k)
      show Φ (s.slot v) (Function.update s.g u ∅ v)
      rw [Function.update_of_ne hv'.2]
      exact h.cell v hv'.1 h1' h2
  · rw [if_pos hr]
    exact ⟨h, rfl⟩

/-- Proof device; nothing in /repo: an object with pending changes may show anything. -/
theorem J.change {Φ : Uid → Content → Prop} {s s' : St} (h : J Φ s) (u : Uid) (hctx : s'.ctx = .user) (htidy : Tidy s') (hroot : s'.root = s.root) (hnone : s.root ≠ none) (h0 : 0 ∉ s'.user.uids)
    (hu : u ∈ s'.user.uids) (hv : ∀ v, v ≠ u → (v ∈ s.user.uids → v ∈ s'.user.uids) ∧ (v ∈ s'.reg → v ∈ s.reg) ∧ s'.g v = s.g v) (he : s'.expired = s.expired) : J Φ s' := by
  refine ⟨hctx, htidy, fun hn => absurd (hroot.symm.trans hn) hnone, h0, fun v h1 h2 h3 => ?_⟩
  have hvu : v ≠ u := fun k => h2 (k ▸ hu)
  obtain ⟨a, b, c⟩ := hv v hvu
  rw [slot_eq hroot, c]
  exact h.cell v (b h1) (fun k => h2 (a k)) (by rw [← he]; exact h3)

theorem J.modify {Φ : Uid → Content → Prop} {P : Params} {s : St} (h : J Φ s) (hΦ : ∀ k, Φ k (s.db k)) (u : Uid) (hu : u ≠ 0) (f : Content → Content) :
    J Φ (s.modify P u f).2 ∧ (s.modify P u f).2.db = s.db := by
  by_cases hroot : s.root = none
  · obtain ⟨hr, he⟩ := h.closed hroot
    have hn : u ∉ s.expired := by rw [he]; simp
    have hg : u ∉ s.reg := by rw [hr]; simp
    unfold St.modify St.notifyRead
    rw [if_neg hn]
    dsimp only
    rw [if_neg hg, notifyUpdate_eq, setBuf_user (by exact h.ctx), buf_user (by exact h.ctx)]
    refine ⟨⟨h.ctx, h.tidy, h.closed, fun h0 => ?_, fun v hv => absurd hv (by rw [hr]; simp)⟩, rfl⟩
    exact h.zero (((uids_notifyUpdate s.user u).2 0 (Ne.symm hu)).1 h0)
  · obtain ⟨s1, a1, a2, _⟩ := notifyRead_weak (P := P) hroot h.tidy h.ctx u
    have h1 := h.trace hroot hΦ a2
    unfold St.modify
    rw [a1]
    dsimp only
    have hctx : ∀ t : St, t.ctx = s1.ctx → t.ctx = .user := fun t k => k.trans h1.ctx
    by_cases hr : u ∈ s1.reg
    · rw [if_pos hr, notifyUpdate_eq, setBuf_user (by exact h1.ctx), buf_user (by exact h1.ctx)]
      refine ⟨h1.change u h1.ctx (fun v hv => ?_) rfl (by rw [a2.root]; exact hroot) (fun h0 => h1.zero (((uids_notifyUpdate s1.user u).2 0 (Ne.symm hu)).1 h0)) (uids_notifyUpdate s1.user u).1
        (fun v hv => ⟨((uids_notifyUpdate s1.user u).2 v hv).2, fun k => k, ?_⟩) rfl, a2.db⟩
      · have hvu : v ≠ u := fun k => hv (k ▸ hr)
        show Function.update s1.g u _ v = ∅
        rw [Function.update_of_ne hvu]
        exact h1.tidy v hv
      · exact Function.update_of_ne hv _ _
    · rw [if_neg hr, notifyUpdate_eq, setBuf_user (by exact h1.ctx), buf_user (by exact h1.ctx)]
      exact ⟨h1.change u h1.ctx h1.tidy rfl (by rw [a2.root]; exact hroot) (fun h0 => h1.zero (((uids_notifyUpdate s1.user u).2 0 (Ne.symm hu)).1 h0)) (uids_notifyUpdate s1.user u).1
        (fun v hv => ⟨((uids_notifyUpdate s1.user u).2 v hv).2, fun k => k, rfl⟩) rfl, a2.db⟩

theorem J.create {Φ : Uid → Content → Prop} {P : Params} {s : St} (h : J Φ s) (hΦ : ∀ k, Φ k (s.db k)) (u : Uid) (c : Content) : J Φ (s.create P u c).2 ∧ (s.create P u c).2.db = s.db := by
  unfold St.create
  by_cases hu : u = 0
  · rw [if_pos hu]; exact ⟨h, rfl⟩
  rw [if_neg hu]
  have hs : s.store u c = { s with user := s.user.store s.reg u, reg := ins s.reg u, g := Function.update s.g u (s.g u ∪ c), root := match s.root with
      | none => some u
      | some r => some r } := by
    unfold St.store
    simp only [St.setBuf, St.buf, h.ctx]
    rfl
  have htidy : Tidy (s.store u c) := by
    rw [hs]
    intro v hv
    have hv' : v ∉ ins s.reg u := hv
    rw [mem_ins] at hv'
    have hvu : v ≠ u := by tauto
    show Function.update s.g u _ v = ∅
    rw [Function.update_of_ne hvu]
    exact h.tidy v (by tauto)
  have h0 : 0 ∉ (s.store u c).user.uids := by
    rw [hs]
    intro k
    exact h.zero (((uids_store s.user s.reg u).2 0 (Ne.symm hu)).1 k)
  have hctx : (s.store u c).ctx = .user := by rw [hs]; exact h.ctx
  have hdb : (s.store u c).db = s.db := by rw [hs]
  by_cases hn : s.root = none
  · rw [if_pos hn]
    obtain ⟨hr, he⟩ := h.closed hn
    have hroot : (s.store u c).root = some u := by rw [hs]; dsimp only; rw [hn]
    have hreg : ∀ v, v ∈ (s.store u c).reg ↔ v = u := by
      intro v; rw [hs]
      show v ∈ ins s.reg u ↔ _
      rw [mem_ins, hr]; simp
    have hexp : (s.store u c).expired = [] := by rw [hs]; exact he
    have hup : u ∈ (s.store u c).user.uids := by rw [hs]; exact (uids_store s.user s.reg u).1
    generalize s.store u c = t at *
    unfold St.inEngine
    rw [if_pos (by rw [hctx]; decide)]
    dsimp only
    generalize P.order _ = us
    obtain ⟨s', c1, c2, c3, c4, c5, c6, c7, c8⟩ := loadAll_spec us { t with engine := .empty, ctx := .engine } rfl (by simp [Buf.empty]) (by show t.root ≠ none; rw [hroot]; simp) htidy
    rw [c1]
    have hroot' : s'.root = some u := c4.trans hroot
    refine ⟨⟨hctx, c5, fun k => absurd (hroot'.symm.trans k) (by simp), by show 0 ∉ s'.user.uids; rw [c2]; exact h0, fun v hv h1 h2 => ?_⟩, c3.trans hdb⟩
    have h1' : v ∉ t.user.uids := by rw [← c2]; exact h1
    have hvu : v ≠ u := fun k => h1' (k ▸ hup)
    show Φ (s'.slot v) (s'.g v)
    have hsl : s'.slot v = t.slot v := slot_eq c4 v
    by_cases hin : v ∈ us ∧ St.stored { t with engine := .empty, ctx := .engine } v ≠ ∅
    · rw [(c6 v hin.1 hin.2).2, hsl]
      show Φ (t.slot v) (t.db (t.slot v))
      rw [hdb]; exact hΦ _
    · have := (c7 v (by tauto)).1.1 hv
      exact absurd ((hreg v).1 this) hvu
  · rw [if_neg hn]
    refine ⟨h.change u hctx htidy ?_ hn h0 ?_ (fun v hv => ?_) ?_, hdb⟩
    · rw [hs]; dsimp only
      cases hr : s.root with
      | none => exact absurd hr hn
      | some r => rfl
    · rw [hs]; exact (uids_store s.user s.reg u).1
    · rw [hs]
      refine ⟨((uids_store s.user s.reg u).2 v hv).2, fun k => ?_, Function.update_of_ne hv _ _⟩
      have k' : v ∈ ins s.reg u := k
      rw [mem_ins] at k'
      tauto
    · rw [hs]

/-- A commit that fails in its last step. -/
theorem commit_late {s : St} (hc : s.ctx = .user) {r : Uid} (hr : s.root = some r) (hreg : r ∈ s.reg) {k : Nat} (hk : ¬ k < s.commitOps.length) :
    s.commit (some k) = (.error .exception, { s with engine := .empty, user := .empty }) := by
  obtain ⟨reg, g, det, user, engine, ctx, expired, root, db⟩ := s
  simp only at hc hr hreg
  subst hc hr
  have hk' : ¬ k < ({ reg, g, det, user, engine := Buf.empty, ctx := Ctx.engine, expired, root := some r, db } : St).commitOps.length := hk
  unfold St.commit St.inEngine St.commitBody
  simp only [ne_eq, reduceCtorEq, not_false_eq_true, if_true, hreg, not_true_eq_false, if_false, hk']

/-- A commit of a session without wrapper. -/
theorem commit_no_root {s : St} (hc : s.ctx = .user) (fail : Option Nat) (hr : ¬ ∃ r, s.root = some r ∧ r ∈ s.reg) : ∃ e, s.commit fail = (.error e, { s with engine := .empty }) := by
  obtain ⟨reg, g, det, user, engine, ctx, expired, root, db⟩ := s
  simp only at hc hr
  subst hc
  cases root with
  | none => exact ⟨.runtimeError, rfl⟩
  | some r =>
    have h2 : r ∉ reg := fun k => hr ⟨r, rfl, k⟩
    refine ⟨.keyError, ?_⟩
    unfold St.commit St.inEngine St.commitBody
    simp only [ne_eq, reduceCtorEq, not_false_eq_true, if_true, h2]

theorem J.commit {Φ : Uid → Content → Prop} {s : St} (h : J Φ s) (fail : Option Nat) (hl : (∀ k c, Φ k c) ∨ ∀ k, fail = some k → k < s.commitOps.length) :
    J Φ (s.commit fail).2 ∧ (¬ (fail = none ∧ (s.commit fail).1 = .ok ()) → (s.commit fail).2.db = s.db) := by
  have hengine : J Φ { s with engine := .empty } := ⟨h.ctx, h.tidy, h.closed, h.zero, h.cell⟩
  by_cases hr : ∃ r, s.root = some r ∧ r ∈ s.reg
  · obtain ⟨r, h1, h2⟩ := hr
    cases fail with
    | none =>
      rw [commit_ok h.ctx h1 h2]
      refine ⟨⟨h.ctx, h.tidy, fun k => absurd (h1.symm.trans k) (by simp), by simp [Buf.empty, Buf.uids], fun v hv _ hx => ?_⟩, fun k => absurd ⟨rfl, rfl⟩ k⟩
      refine absurd ?_ hx
      have hv' : v ∈ s.reg := hv
      simp only [List.mem_filter, List.mem_append, decide_eq_true_eq]
      tauto
    | some k =>
      refine ⟨?_, fun _ => failed_commit_atomic s k⟩
      by_cases hk : k < s.commitOps.length
      · obtain ⟨e, he⟩ := commit_fail h.ctx hk
        rw [he]; exact hengine
      · rcases hl with hl | hl
        · rw [commit_late h.ctx h1 h2 hk]
          exact ⟨h.ctx, h.tidy, fun k => absurd (h1.symm.trans k) (by simp), by simp [Buf.empty, Buf.uids], fun _ _ _ _ => hl _ _⟩
        · exact absurd (hl k rfl) hk
  · have : ∃ e, s.commit fail = (.error e, { s with engine := .empty }) := commit_no_root h.ctx fail hr
    obtain ⟨e, he⟩ := this
    rw [he]
    exact ⟨hengine, fun _ => rfl⟩

/-- Every call keeps the property of the contents, and only a successful commit changes the database. -/
theorem step_J {Φ : Uid → Content → Prop} {P : Params} {s : St} (h : J Φ s) (hΦ : ∀ k, Φ k (s.db k)) {o : Op} (hp : Proper o)
    (hl : (∀ k c, Φ k c) ∨ ∀ k, o = .commit (some k) → k < s.commitOps.length) :
    J Φ (Sess.step P s o).2 ∧ (¬ (o = .commit none ∧ (Sess.step P s o).1 = .ok ()) → (Sess.step P s o).2.db = s.db) := by
  have hres : ∀ {α : Type} (r : Res α), (Res.unit r).2 = r.2 := fun _ => rfl
  cases o with
  | create u c => exact ⟨(h.create hΦ u c).1, fun _ => (h.create hΦ u c).2⟩
  | modify u f => exact ⟨(h.modify hΦ u hp f).1, fun _ => (h.modify hΦ u hp f).2⟩
  | delete u =>
    show J Φ (s.delete P u).2 ∧ _
    by_cases hroot : s.root = none
    · obtain ⟨hr, he⟩ := h.closed hroot
      have hn : u ∉ s.expired := by rw [he]; simp
      have : s.delete P u = s.deleteTriples P u := by unfold St.delete St.notifyRead; rw [if_neg hn]
      have hd : Sess.step P s (.delete u) = s.deleteTriples P u := this
      rw [this, hd]
      exact ⟨(h.drop u hp).1, fun _ => (h.drop u hp).2⟩
    · obtain ⟨s1, a1, a2, _⟩ := notifyRead_weak (P := P) hroot h.tidy h.ctx u
      have : s.delete P u = s1.deleteTriples P u := by unfold St.delete; rw [a1]
      have hd : Sess.step P s (.delete u) = s1.deleteTriples P u := this
      have h1 := h.trace hroot hΦ a2
      rw [this, hd]
      exact ⟨(h1.drop u hp).1, fun _ => (h1.drop u hp).2.trans a2.db⟩
  | drop u => exact ⟨(h.drop u hp).1, fun _ => (h.drop u hp).2⟩
  | read u =>
    by_cases hroot : s.root = none
    · obtain ⟨hr, he⟩ := h.closed hroot
      have hn : u ∉ s.expired := by rw [he]; simp
      have : Sess.step P s (.read u) = (.ok (), s) := by show St.notifyRead P s u = _; unfold St.notifyRead; rw [if_neg hn]
      rw [this]
      exact ⟨h, fun _ => rfl⟩
    · obtain ⟨s1, a1, a2, _⟩ := notifyRead_weak (P := P) hroot h.tidy h.ctx u
      have : Sess.step P s (.read u) = (.ok (), s1) := a1
      rw [this]
      exact ⟨h.trace hroot hΦ a2, fun _ => a2.db⟩
  | load us =>
    show J Φ (Res.unit (s.load P us)).2 ∧ _
    by_cases hroot : s.root = none
    · have : s.load P us = (.error .runtimeError, s) := by unfold St.load; rw [if_pos hroot]
      rw [hres, this]
      exact ⟨h, fun _ => by show (Res.unit (s.load P us)).2.db = _; rw [hres, this]⟩
    · obtain ⟨xs, s1, a1, a2, _⟩ := load_weak (P := P) hroot h.tidy h.ctx us
      rw [hres, a1]
      exact ⟨h.trace hroot hΦ a2, fun _ => by show (Res.unit (s.load P us)).2.db = _; rw [hres, a1]; exact a2.db⟩
  | loadByOclass us =>
    show J Φ (Res.unit (s.loadByOclass us)).2 ∧ _
    by_cases hroot : s.root = none
    · have : s.loadByOclass us = (.error .runtimeError, s) := by unfold St.loadByOclass; rw [if_pos hroot]
      rw [hres, this]
      exact ⟨h, fun _ => by show (Res.unit (s.loadByOclass us)).2.db = _; rw [hres, this]⟩
    · obtain ⟨xs, s1, a1, a2⟩ := loadFound_weak us hroot h.tidy h.ctx
      have : s.loadByOclass us = (.ok xs, s1) := by unfold St.loadByOclass; rw [if_neg hroot]; exact a1
      rw [hres, this]
      exact ⟨h.trace hroot hΦ a2, fun _ => by show (Res.unit (s.loadByOclass us)).2.db = _; rw [hres, this]; exact a2.db⟩
  | expire us =>
    refine ⟨?_, fun _ => rfl⟩
    show J Φ (s.expire us).2
    by_cases hroot : s.root = none
    · obtain ⟨hr, he⟩ := h.closed hroot
      refine ⟨h.ctx, h.tidy, fun _ => ⟨hr, ?_⟩, h.zero, fun u hu => absurd hu (by show u ∉ s.reg; rw [hr]; simp)⟩
      exact List.eq_nil_iff_forall_not_mem.2 fun v hv => by have := ((mem_expire _ _ _).1 hv).2; rw [hr] at this; exact absurd this (by simp)
    · exact h.trace hroot hΦ (trace_expire h.tidy us)
  | expireAll =>
    refine ⟨?_, fun _ => rfl⟩
    show J Φ (s.expire s.reg).2
    by_cases hroot : s.root = none
    · obtain ⟨hr, he⟩ := h.closed hroot
      refine ⟨h.ctx, h.tidy, fun _ => ⟨hr, ?_⟩, h.zero, fun u hu => absurd hu (by show u ∉ s.reg; rw [hr]; simp)⟩
      exact List.eq_nil_iff_forall_not_mem.2 fun v hv => by have := ((mem_expire _ _ _).1 hv).2; rw [hr] at this; exact absurd this (by simp)
    · exact h.trace hroot hΦ (trace_expire h.tidy _)
  | refresh us =>
    by_cases hroot : s.root = none
    · obtain ⟨hr, he⟩ := h.closed hroot
      have hx : (s.expire us).2.root = none := hroot
      have hJ : J Φ (s.expire us).2 := by
        refine ⟨h.ctx, h.tidy, fun _ => ⟨hr, ?_⟩, h.zero, fun u hu => absurd hu (by show u ∉ s.reg; rw [hr]; simp)⟩
        exact List.eq_nil_iff_forall_not_mem.2 fun v hv => by have := ((mem_expire _ _ _).1 hv).2; rw [hr] at this; exact absurd this (by simp)
      by_cases hn : us = []
      · have : Sess.step P s (.refresh us) = (.ok (), s) := by show St.refresh P s us = _; unfold St.refresh; rw [if_pos hn]
        rw [this]; exact ⟨h, fun _ => rfl⟩
      · have : Sess.step P s (.refresh us) = (.error .runtimeError, (s.expire us).2) := by
          show St.refresh P s us = _
          unfold St.refresh
          rw [if_neg hn]
          have hpair : s.expire us = ((s.expire us).1, (s.expire us).2) := rfl
          rw [hpair]
          dsimp only
          have : (s.expire us).2.load P (s.expire us).1 = (.error .runtimeError, (s.expire us).2) := by unfold St.load; rw [if_pos hx]
          rw [this]
        rw [this]; exact ⟨hJ, fun _ => rfl⟩
    · obtain ⟨s1, a1, a2, _⟩ := refresh_weak (P := P) hroot h.tidy h.ctx us
      have : Sess.step P s (.refresh us) = (.ok (), s1) := a1
      rw [this]
      exact ⟨h.trace hroot hΦ a2, fun _ => a2.db⟩
  | commit fail =>
    have := h.commit fail (by
      rcases hl with hl | hl
      · exact Or.inl hl
      · exact Or.inr fun k hk => hl k (by rw [hk]))
    refine ⟨this.1, fun hn => this.2 fun hk => hn ⟨by rw [hk.1], hk.2⟩⟩
  | extern k c => exact absurd hp (by simp [Proper])

/-! ### what a commit writes -/

/-- Proof device; nothing in /repo: the key a backend operation changes. -/
def key : DbOp → Uid
  | .add k _ => k
  | .remove k => k

theorem fold_other (k : Uid) : ∀ (ops : List DbOp) (db : Uid → Content), (∀ o ∈ ops, key o ≠ k) → ops.foldl DbOp.run db k = db k
  | [], _, _ => rfl
  | o :: ops, db, h => by
    rw [List.foldl_cons, fold_other k ops _ (fun x hx => h x (List.mem_cons_of_mem _ hx))]
    have := h o List.mem_cons_self
    cases o with
    | add j c => exact Function.update_of_ne (fun e => this e.symm) _ _
    | remove j => exact Function.update_of_ne (fun e => this e.symm) _ _

theorem pending_iff (s : St) (u : Uid) : Pending s u ↔ u ∈ s.user.uids := (mem_uids _ _).symm

theorem commit_other (s : St) (k : Uid) (h : ∀ u, Pending s u → s.slot u ≠ k) : s.commitOps.foldl DbOp.run s.db k = s.db k := by
  refine fold_other k _ _ fun o ho => ?_
  unfold St.commitOps at ho
  simp only [List.mem_append, List.mem_map, List.mem_flatMap, List.mem_cons, List.not_mem_nil, or_false] at ho
  rcases ho with (⟨u, hu, rfl⟩ | ⟨u, hu, rfl | rfl⟩) | ⟨u, hu, rfl⟩
  · exact h u (Or.inl hu)
  · exact h u (Or.inr (Or.inl hu))
  · exact h u (Or.inr (Or.inl hu))
  · exact h u (Or.inr (Or.inr hu))

theorem commit_db {s : St} (hc : s.ctx = .user) (hok : (s.commit none).1 = .ok ()) : (s.commit none).2.db = s.commitOps.foldl DbOp.run s.db := by
  have hroot : ∃ r, s.root = some r ∧ r ∈ s.reg := by
    unfold St.commit St.inEngine St.commitBody at hok
    simp only [hc, ne_eq, reduceCtorEq, not_false_eq_true, if_true] at hok
    cases hr : s.root with
    | none => rw [hr] at hok; cases hok
    | some r =>
      rw [hr] at hok
      by_cases hreg : r ∈ s.reg
      · exact ⟨r, rfl, hreg⟩
      · simp only [hreg, not_false_eq_true, if_true] at hok; cases hok
  obtain ⟨r, h1, h2⟩ := hroot
  rw [commit_ok hc h1 h2]

/-! ### all sessions -/

/-- Proof device; nothing in /repo. -/
def JW (Φ : Uid → Content → Prop) (w : World) : Prop := (∀ k, Φ k (w.db k)) ∧ ∀ i, J Φ (w.at i)

theorem at_J {Φ : Uid → Content → Prop} {s : St} {db : Uid → Content} (h : J Φ s) : J Φ { s with db := db } := ⟨h.ctx, h.tidy, h.closed, h.zero, h.cell⟩

theorem step_at (P : Params) (w : World) (i : Nat) (o : Op) : (step P w i o).2.at i = (Sess.step P (w.at i) o).2 := by
  unfold step World.at
  dsimp only
  rw [Function.update_self]

theorem step_other (P : Params) (w : World) (i j : Nat) (o : Op) (h : j ≠ i) : (step P w i o).2.ses j = w.ses j := Function.update_of_ne h _ _

theorem JW.step {Φ : Uid → Content → Prop} {P : Params} {w : World} (h : JW Φ w) (i : Nat) {o : Op} (hp : Proper o)
    (hl : (∀ k c, Φ k c) ∨ ∀ k, o = .commit (some k) → k < (w.at i).commitOps.length) : JW (fun k c => Φ k c ∨ c = (Multi.step P w i o).2.db k) (Multi.step P w i o).2 := by
  refine ⟨fun k => Or.inr rfl, fun j => ?_⟩
  by_cases hj : j = i
  · subst hj
    rw [step_at]
    exact (step_J (h.2 j) h.1 hp hl).1.mono fun k c => Or.inl
  · have : (Multi.step P w i o).2.at j = { w.at j with db := (Multi.step P w i o).2.db } := by
      unfold World.at
      rw [step_other P w i j o hj]
    rw [this]
    exact (at_J (h.2 j)).mono fun k c => Or.inl

/-- What is reached without any assumption on failures. -/
theorem JW.any {P : Params} {w : World} (h : JW (fun _ _ => True) w) (i : Nat) {o : Op} (hp : Proper o) : JW (fun _ _ => True) (Multi.step P w i o).2 :=
  ⟨fun _ => trivial, fun j => ((h.step i hp (Or.inl fun _ _ => trivial)).2 j).mono fun _ _ _ => trivial⟩

theorem JW.start (db : Uid → Content) (Φ : Uid → Content → Prop) (hΦ : ∀ k, Φ k (db k)) : JW Φ (World.start db) :=
  ⟨hΦ, fun _ => at_J (J.opened Φ db)⟩

theorem run_any {P : Params} : ∀ (h : List (Nat × Op)) {w : World}, JW (fun _ _ => True) w → (∀ x ∈ h, Proper x.2) → JW (fun _ _ => True) (run P w h)
  | [], _, hw, _ => hw
  | (i, _) :: h, _, hw, hp => run_any h (hw.any i (hp _ List.mem_cons_self)) fun x hx => hp x (List.mem_cons_of_mem _ hx)

theorem run_append (P : Params) : ∀ (a b : List (Nat × Op)) (w : World), run P w (a ++ b) = run P (run P w a) b
  | [], _, _ => rfl
  | (i, o) :: a, b, w => run_append P a b (step P w i o).2

theorem step_not_written {P : Params} {w : World} (hw : JW (fun _ _ => True) w) (i : Nat) {o : Op} (hp : Proper o) (k : Uid) (hn : ¬ Writes P w i o k) : (step P w i o).2.db k = w.db k := by
  by_cases hc : Committed P w i o
  · obtain ⟨rfl, hok⟩ := hc
    have : (step P w i (.commit none)).2.db = (w.at i).commitOps.foldl DbOp.run (w.at i).db := commit_db (hw.2 i).ctx hok
    rw [this, commit_other]
    · rfl
    · exact fun u hu he => hn ⟨⟨rfl, hok⟩, u, hu, he⟩
  · exact congrFun ((step_J (hw.2 i) hw.1 hp (Or.inl fun _ _ => trivial)).2 hc) k

theorem step_written {P : Params} {w : World} (hw : JW (fun _ _ => True) w) (i : Nat) {u : Uid} (hok : (step P w i (.commit none)).1 = .ok ()) (hu : Pending (w.at i) u) :
    (step P w i (.commit none)).2.db ((w.at i).slot u) = written (w.at i) u (w.db ((w.at i).slot u)) := by
  have hdb : (step P w i (.commit none)).2.db = (w.at i).commitOps.foldl DbOp.run (w.at i).db := commit_db (hw.2 i).ctx hok
  have hm := (pending_iff _ _).1 hu
  have h0 := (hw.2 i).zero
  rw [hdb, commitOps_exact _ h0 (fun k => h0 (k ▸ hm))]
  unfold written
  by_cases h1 : u ∈ (w.at i).user.deleted
  · rw [if_pos h1, if_pos h1]
  · rw [if_neg h1, if_neg h1]
    by_cases h2 : u ∈ (w.at i).user.updated
    · rw [if_pos h2, if_pos h2]
    · rw [if_neg h2, if_neg h2]
      have h3 : u ∈ (w.at i).user.added := by unfold Pending at hu; tauto
      rw [if_pos h3]
      rfl

theorem last_commit_from {P : Params} (k : Uid) : ∀ (h : List (Nat × Op)) {w : World}, JW (fun _ _ => True) w → (∀ x ∈ h, Proper x.2) →
    ((run P w h).db k = w.db k ∧ Untouched P k w h) ∨
    ∃ pre i u post, h = pre ++ (i, .commit none) :: post ∧ (step P (run P w pre) i (.commit none)).1 = .ok () ∧ Pending ((run P w pre).at i) u ∧ ((run P w pre).at i).slot u = k ∧
      (run P w h).db k = written ((run P w pre).at i) u ((run P w pre).db k) ∧ Untouched P k (step P (run P w pre) i (.commit none)).2 post
  | [], _, _, _ => Or.inl ⟨rfl, trivial⟩
  | (i, o) :: h, w, hw, hp => by
    have hpo : Proper o := hp _ List.mem_cons_self
    rcases last_commit_from k h (w := (step P w i o).2) (hw.any i hpo) (fun x hx => hp x (List.mem_cons_of_mem _ hx)) with ⟨a, b⟩ | ⟨pre, j, u, post, rfl, a1, a2, a3, a4, a5⟩
    · by_cases hwr : Writes P w i o k
      · obtain ⟨⟨rfl, hok⟩, u, hu, hk⟩ := hwr
        refine Or.inr ⟨[], i, u, h, rfl, hok, hu, hk, ?_, b⟩
        show (run P (step P w i (.commit none)).2 h).db k = _
        rw [a, ← hk]
        exact step_written hw i hok hu
      · refine Or.inl ⟨?_, hwr, b⟩
        show (run P (step P w i o).2 h).db k = _
        rw [a]
        exact step_not_written hw i hpo k hwr
    · exact Or.inr ⟨(i, o) :: pre, j, u, post, rfl, a1, a2, a3, a4, a5⟩

/-! ### C97 -/

/-- **C97.** Whatever sessions do on one database, in any order of their calls and with any failures: what is stored for an object is what the last successful commit wrote whose session had changed this
object, and what was stored in the beginning if there was no such commit. -/
theorem last_commit_wins (P : Params) (db : Uid → Content) (hist : List (Nat × Op)) (hp : ∀ x ∈ hist, Proper x.2) (k : Uid) :
    ((run P (.start db) hist).db k = db k ∧ Untouched P k (.start db) hist) ∨
    ∃ pre i u post, hist = pre ++ (i, .commit none) :: post ∧ (step P (run P (.start db) pre) i (.commit none)).1 = .ok () ∧ Pending ((run P (.start db) pre).at i) u ∧
      ((run P (.start db) pre).at i).slot u = k ∧ (run P (.start db) hist).db k = written ((run P (.start db) pre).at i) u ((run P (.start db) pre).db k) ∧
      Untouched P k (step P (run P (.start db) pre) i (.commit none)).2 post :=
  last_commit_from k hist (JW.start db _ fun _ => trivial) hp

/-- **C97.** Sessions do not see the uncommitted work of others: if the other sessions make calls of which none is a successful commit, session `i` and the database are exactly as before. -/
theorem uncommitted_invisible (P : Params) (db : Uid → Content) (hist : List (Nat × Op)) (hp : ∀ x ∈ hist, Proper x.2) (i : Nat) :
    ∀ others : List (Nat × Op), (∀ x ∈ others, Proper x.2 ∧ x.1 ≠ i ∧ x.2 ≠ .commit none) → (run P (.start db) (hist ++ others)).at i = (run P (.start db) hist).at i := by
  intro others ho
  rw [run_append]
  have hw : JW (fun _ _ => True) (run P (.start db) hist) := run_any hist (JW.start db _ fun _ => trivial) hp
  generalize run P (.start db) hist = w at hw
  induction others generalizing w with
  | nil => rfl
  | cons x others ih =>
    obtain ⟨j, o⟩ := x
    obtain ⟨h1, h2, h3⟩ := ho _ List.mem_cons_self
    show (run P (step P w j o).2 others).at i = w.at i
    rw [ih (fun x hx => ho x (List.mem_cons_of_mem _ hx)) _ (hw.any j h1)]
    have hdb : (step P w j o).2.db = w.db := (step_J (hw.2 j) hw.1 h1 (Or.inl fun _ _ => trivial)).2 (fun hk => h3 hk.1)
    unfold World.at
    rw [step_other P w j i o (Ne.symm h2), hdb]

theorem no_dirty_from {P : Params} : ∀ (h : List (Nat × Op)) {Φ : Uid → Content → Prop} {w : World}, JW Φ w → (∀ x ∈ h, Proper x.2) → NoLateFailure P w h →
    JW (fun k c => Φ k c ∨ ∃ pre post, h = pre ++ post ∧ c = (run P w pre).db k) (run P w h)
  | [], Φ, w, hw, _, _ => ⟨fun k => Or.inl (hw.1 k), fun i => (hw.2 i).mono fun _ _ => Or.inl⟩
  | (i, o) :: h, Φ, w, hw, hp, hl => by
    have := no_dirty_from h (hw.step (P := P) i (hp _ List.mem_cons_self) (Or.inr hl.1)) (fun x hx => hp x (List.mem_cons_of_mem _ hx)) hl.2
    have conv : ∀ k c, ((Φ k c ∨ c = (step P w i o).2.db k) ∨ ∃ pre post, h = pre ++ post ∧ c = (run P (step P w i o).2 pre).db k) →
        Φ k c ∨ ∃ pre post, (i, o) :: h = pre ++ post ∧ c = (run P w pre).db k := by
      rintro k c ((a | a) | ⟨pre, post, rfl, a⟩)
      · exact Or.inl a
      · exact Or.inr ⟨[(i, o)], h, rfl, a⟩
      · exact Or.inr ⟨(i, o) :: pre, post, rfl, a⟩
    exact ⟨fun k => conv _ _ (this.1 k), fun j => (this.2 j).mono conv⟩

/-- **C97.** No session ever shows anything that was not stored, unless it has changed the object itself: the content of an object that the session has not changed since its last commit, and that is not
expired, was stored in the database at some moment of the history. Missing: commits that fail in their very last step, after which the session shows its own changes as if they were stored. -/
theorem no_dirty_reads_partial (P : Params) (db : Uid → Content) (hist : List (Nat × Op)) (hp : ∀ x ∈ hist, Proper x.2) (hl : NoLateFailure P (.start db) hist) (i : Nat) (u : Uid)
    (hu : u ∈ ((run P (.start db) hist).at i).reg) (hn : ¬ Pending ((run P (.start db) hist).at i) u) (he : u ∉ ((run P (.start db) hist).at i).expired) :
    ∃ pre post, hist = pre ++ post ∧ ((run P (.start db) hist).at i).g u = (run P (.start db) pre).db (((run P (.start db) hist).at i).slot u) := by
  have := (no_dirty_from (P := P) hist (JW.start db (fun k c => c = db k) fun _ => rfl) hp hl).2 i
  rcases this.cell u hu (fun k => hn ((pending_iff _ _).2 k)) he with h | h
  · exact ⟨[], hist, rfl, h⟩
  · exact h

/-- **C97.** After `expire_all` (and after its own commit) a session shows, for every object it has not changed, what is stored at the moment of the read; an object that is not stored any more is gone. -/
theorem expired_shows_latest (P : Params) (db : Uid → Content) (hist : List (Nat × Op)) (hp : ∀ x ∈ hist, Proper x.2) (i : Nat) (u : Uid)
    (hu : u ∈ ((run P (.start db) hist).at i).reg) (hn : ¬ Pending ((run P (.start db) hist).at i) u) (he : u ∈ ((run P (.start db) hist).at i).expired) :
    let w := run P (.start db) hist
    let w' := run P (.start db) (hist ++ [(i, .read u)])
    (w'.at i).g u = w.db ((w.at i).slot u) ∧ (u ∈ (w'.at i).reg ↔ w.db ((w.at i).slot u) ≠ ∅) ∧ w'.db = w.db := by
  intro w w'
  have hw : JW (fun _ _ => True) w := run_any hist (JW.start db _ fun _ => trivial) hp
  have hs := hw.2 i
  have hroot : (w.at i).root ≠ none := fun k => by
    have := (hs.closed k).1
    rw [this] at hu
    exact absurd hu (by simp)
  obtain ⟨s', a1, a2, a3⟩ := notifyRead_weak (P := P) hroot hs.tidy hs.ctx u
  have hw' : w' = (step P w i (.read u)).2 := run_append P hist [(i, .read u)] (.start db)
  have hs' : w'.at i = s' := by
    rw [hw', step_at]
    show ((w.at i).notifyRead P u).2 = s'
    rw [a1]
  obtain ⟨b1, b2⟩ := a3 he (fun k => hn ((pending_iff _ _).2 k)) hu
  refine ⟨by rw [hs', b2]; rfl, by rw [hs', b1]; rfl, ?_⟩
  have : w'.db = (w'.at i).db := rfl
  rw [this, hs', a2.db]
  rfl

/-- **C97.** `expire_all` and a successful commit expire every object of the session without pending changes. -/
theorem all_expired (P : Params) (db : Uid → Content) (hist : List (Nat × Op)) (hp : ∀ x ∈ hist, Proper x.2) (i : Nat) (o : Op) (ho : o = .expireAll ∨ Committed P (run P (.start db) hist) i o) (u : Uid)
    (hu : u ∈ ((run P (.start db) (hist ++ [(i, o)])).at i).reg) (hn : ¬ Pending ((run P (.start db) (hist ++ [(i, o)])).at i) u) :
    u ∈ ((run P (.start db) (hist ++ [(i, o)])).at i).expired := by
  have hw : JW (fun _ _ => True) (run P (.start db) hist) := run_any hist (JW.start db _ fun _ => trivial) hp
  have e : (run P (.start db) (hist ++ [(i, o)])).at i = (Sess.step P ((run P (.start db) hist).at i) o).2 := by
    rw [run_append]
    exact step_at P _ i o
  rw [e] at hu hn ⊢
  rcases ho with rfl | ⟨rfl, hok⟩
  · have hn' : u ∉ ((run P (.start db) hist).at i).user.uids := fun k => hn ((pending_iff _ _).2 k)
    exact (mem_expire _ _ _).2 ⟨Or.inr ⟨hu, hn'⟩, hu⟩
  · obtain ⟨_, _, h3, h4, _⟩ := commit_exact _ (hw.2 i).ctx (hw.2 i).zero hok
    exact (h3 u).2 (by have hu' : u ∈ (((run P (.start db) hist).at i).commit none).2.reg := hu; rw [h4] at hu'; exact hu')

end Osp.Multi
