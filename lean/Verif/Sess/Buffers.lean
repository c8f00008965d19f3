import Verif.Sess.Engine
/-!
# The change buffers (C10, C11, C12)
-/
namespace Osp.Sess

/-- No object is in two of the three buffers. -/
def Disj (b : Buf) : Prop :=
  ∀ u, ¬ (u ∈ b.added ∧ u ∈ b.updated) ∧ ¬ (u ∈ b.added ∧ u ∈ b.deleted) ∧ ¬ (u ∈ b.updated ∧ u ∈ b.deleted)

theorem disj_empty : Disj .empty := by
  intro u
  simp [Buf.empty]

/-! ### effect of the primitives on one buffer -/

/-- `_store` on a buffer. -/
def Buf.store (b : Buf) (r : List Uid) (u : Uid) : Buf :=
  let b := { b with deleted := del b.deleted u }
  if u ∈ r then { b with updated := ins b.updated u } else { b with added := ins b.added u }

def Buf.notifyUpdate (b : Buf) (u : Uid) : Buf :=
  if u ∈ b.deleted then b else if u ∉ b.added ∧ u ∉ b.updated then { b with updated := b.updated ++ [u] } else b

def Buf.notifyDelete (b : Buf) (u : Uid) : Buf :=
  if u ∈ b.added then { b with added := del b.added u }
  else if u ∈ b.updated then { b with updated := del b.updated u, deleted := ins b.deleted u }
  else if u ∉ b.deleted then { b with deleted := b.deleted ++ [u] } else b

theorem setBuf_self (s : St) : s.setBuf s.buf = s := by
  unfold St.setBuf St.buf
  split <;> rfl

theorem notifyUpdate_eq (s : St) (u : Uid) :
    s.notifyUpdate u = (if u ∈ s.buf.deleted then .error .runtimeError else .ok (), s.setBuf (s.buf.notifyUpdate u)) := by
  unfold St.notifyUpdate Buf.notifyUpdate
  by_cases h : u ∈ s.buf.deleted
  · simp only [h, if_true, setBuf_self]
  · simp only [h, if_false]
    split
    · rfl
    · rw [setBuf_self]

theorem notifyDelete_eq (s : St) (u : Uid) : s.notifyDelete u = s.setBuf (s.buf.notifyDelete u) := by
  unfold St.notifyDelete Buf.notifyDelete
  dsimp only
  split
  · rfl
  · split
    · rfl
    · split
      · rfl
      · rw [setBuf_self]

theorem disj_store {b : Buf} (h : Disj b) (r : List Uid) (u : Uid) (h1 : u ∈ r → u ∉ b.added) (h2 : u ∉ r → u ∉ b.updated) :
    Disj (b.store r u) := by
  intro v
  have hv := h v
  unfold Buf.store
  dsimp only
  by_cases hr : u ∈ r
  · rw [if_pos hr]
    have := h1 hr
    simp only [mem_ins, mem_del]
    by_cases hvu : v = u
    · subst hvu; tauto
    · tauto
  · rw [if_neg hr]
    have := h2 hr
    simp only [mem_ins, mem_del]
    by_cases hvu : v = u
    · subst hvu; tauto
    · tauto

theorem disj_notifyUpdate {b : Buf} (h : Disj b) (u : Uid) : Disj (b.notifyUpdate u) := by
  unfold Buf.notifyUpdate
  split
  · exact h
  · split
    · intro v
      have hv := h v
      simp only [List.mem_append, List.mem_cons, List.not_mem_nil, or_false]
      by_cases hvu : v = u
      · subst hvu; tauto
      · tauto
    · exact h

theorem disj_notifyDelete {b : Buf} (h : Disj b) (u : Uid) : Disj (b.notifyDelete u) := by
  unfold Buf.notifyDelete
  split
  · intro v
    have hv := h v
    simp only [mem_del]
    tauto
  · split
    · intro v
      have hv := h v
      simp only [mem_del, mem_ins]
      by_cases hvu : v = u
      · subst hvu; tauto
      · tauto
    · split
      · intro v
        have hv := h v
        simp only [List.mem_append, List.mem_cons, List.not_mem_nil, or_false]
        by_cases hvu : v = u
        · subst hvu; tauto
        · tauto
      · exact h

/-! ### in the engine context -/

/-- Disjoint buffers, and the engine's added and updated objects are registered. -/
def GoodE (s : St) : Prop := Disj s.engine ∧ ∀ u, u ∈ s.engine.added ∨ u ∈ s.engine.updated → u ∈ s.reg

theorem setBuf_engine {s : St} (hc : s.ctx = .engine) (b : Buf) : s.setBuf b = { s with engine := b } := by
  unfold St.setBuf; rw [hc]

theorem setBuf_user {s : St} (hc : s.ctx = .user) (b : Buf) : s.setBuf b = { s with user := b } := by
  unfold St.setBuf; rw [hc]

theorem buf_engine {s : St} (hc : s.ctx = .engine) : s.buf = s.engine := by
  unfold St.buf; rw [hc]

theorem buf_user {s : St} (hc : s.ctx = .user) : s.buf = s.user := by
  unfold St.buf; rw [hc]

theorem store_eq (s : St) (u : Uid) (c : Content) : ∃ r, s.store u c =
    { (s.setBuf (s.buf.store s.reg u)) with reg := ins s.reg u, g := Function.update s.g u (s.g u ∪ c), root := r } := by
  unfold St.store
  cases h : s.ctx <;> exact ⟨_, by simp only [St.setBuf, h]; rfl⟩

theorem good_notifyUpdate {s : St} (hc : s.ctx = .engine) (h : GoodE s) {u : Uid} (hu : u ∈ s.reg) : GoodE (s.notifyUpdate u).2 := by
  rw [notifyUpdate_eq]
  dsimp only
  rw [setBuf_engine hc, buf_engine hc]
  refine ⟨disj_notifyUpdate h.1 u, ?_⟩
  intro v
  show v ∈ (s.engine.notifyUpdate u).added ∨ v ∈ (s.engine.notifyUpdate u).updated → v ∈ s.reg
  unfold Buf.notifyUpdate
  split
  · exact h.2 v
  · split
    · simp only [List.mem_append, List.mem_cons, List.not_mem_nil, or_false]
      rintro (k | k | rfl)
      · exact h.2 v (Or.inl k)
      · exact h.2 v (Or.inr k)
      · exact hu
    · exact h.2 v

theorem good_deleteTriples {P : Params} {s : St} (hc : s.ctx = .engine) (h : GoodE s) (u : Uid) : GoodE (s.deleteTriples P u).2 := by
  unfold St.deleteTriples
  split
  · exact h
  · dsimp only
    rw [notifyDelete_eq]
    rw [setBuf_engine (by exact hc), buf_engine (by exact hc)]
    refine ⟨disj_notifyDelete h.1 u, ?_⟩
    intro v
    show v ∈ (s.engine.notifyDelete u).added ∨ v ∈ (s.engine.notifyDelete u).updated → v ∈ del s.reg u
    rw [mem_del]
    have hv := h.2 v
    have hd := h.1 v
    unfold Buf.notifyDelete
    split
    · simp only [mem_del]
      by_cases hvu : v = u
      · subst hvu; tauto
      · tauto
    · split
      · simp only [mem_del]
        by_cases hvu : v = u
        · subst hvu; tauto
        · tauto
      · have : v ∈ s.engine.added ∨ v ∈ s.engine.updated → v ∈ s.reg ∧ v ≠ u := by
          intro k
          refine ⟨hv k, ?_⟩
          rintro rfl
          tauto
        split <;> exact this

theorem good_expire {s : St} (h : GoodE s) (us : List Uid) : GoodE (s.expire us).2 := h

theorem good_loadByIri {s : St} (hc : s.ctx = .engine) (h : GoodE s) (u : Uid) : GoodE (s.loadByIri u).2 := by
  unfold St.loadByIri
  dsimp only
  split
  · exact h
  · generalize ht : (if u ∈ s.reg then _ else _ : St) = t
    have hk : GoodE t ∧ t.ctx = .engine ∧ u ∈ t.reg := by
      rw [← ht]
      split
      · rename_i hr; exact ⟨h, hc, hr⟩
      · rename_i hr
        obtain ⟨r, hs⟩ := store_eq { s with expired := del s.expired u } u ∅
        rw [hs, setBuf_engine (by exact hc), buf_engine (by exact hc)]
        refine ⟨⟨?_, ?_⟩, hc, ?_⟩
        · refine disj_store h.1 s.reg u (fun k => absurd k hr) (fun _ k => hr (h.2 u (Or.inr k)))
        · intro v
          show v ∈ (s.engine.store s.reg u).added ∨ v ∈ (s.engine.store s.reg u).updated → v ∈ ins s.reg u
          unfold Buf.store
          rw [if_neg hr]
          simp only [mem_ins]
          have := h.2 v
          tauto
        · show u ∈ ins s.reg u
          rw [mem_ins]; tauto
    have h2 := good_notifyUpdate (s := { t with g := Function.update t.g u (t.g u ∪ s.db (s.slot u)) }) (u := u) hk.2.1 hk.1 hk.2.2
    split
    · rename_i h; rw [h] at h2; exact h2
    · rename_i h; rw [h] at h2; exact h2

theorem good_afterLoad {P : Params} {s : St} (hc : s.ctx = .engine) (h : GoodE s) (uids : List Uid) (old : Option Content) (u : Uid) (new : Option Uid) :
    GoodE (St.afterLoad P uids old u new s).2 := by
  unfold St.afterLoad
  split
  · exact h
  · rename_i o
    dsimp only
    generalize ht : (if s.root = some u then s else _ : St) = t
    have hk : GoodE t ∧ t.ctx = .engine := by
      rw [← ht]
      split
      · exact ⟨h, hc⟩
      · exact ⟨good_expire h _, hc⟩
    split
    · have h2 := good_deleteTriples (P := P) (s := t) hk.2 hk.1 u
      split
      · rename_i h; rw [h] at h2; exact h2
      · rename_i h; rw [h] at h2; exact h2
    · exact hk.1

theorem good_loadStep {P : Params} {s : St} (hc : s.ctx = .engine) (h : GoodE s) (uids missing : List Uid) (u : Uid) :
    GoodE (St.loadStep P uids missing u s).2 := by
  unfold St.loadStep
  split
  · split <;> exact h
  · have h1 := good_loadByIri hc h u
    have hk := keeps_loadByIri hc u
    dsimp only
    split
    · rename_i h; rw [h] at h1; exact h1
    · rename_i h; rw [h] at h1 hk
      exact good_afterLoad (hk.2.trans hc) h1 _ _ _ _

theorem good_loadAll : ∀ (us : List Uid) (s : St), s.ctx = .engine → GoodE s → GoodE (s.loadAll us).2 := by
  intro us
  induction us with
  | nil => intro s _ h; exact h
  | cons u us ih =>
    intro s hc h
    have h1 := good_loadByIri hc h u
    have hk := keeps_loadByIri hc u
    unfold St.loadAll
    split
    · rename_i h; rw [h] at h1; exact h1
    · rename_i h; rw [h] at h1 hk
      exact ih _ (hk.2.trans hc) h1

/-! ### from the user context -/

theorem disj_inEngine {α : Type} {s : St} (hc : s.ctx = .user) (f : St → Res α)
    (hf : ∀ t : St, t.ctx = .engine → GoodE t → GoodE (f t).2) : Disj (s.inEngine f).2.engine := by
  unfold St.inEngine
  dsimp only
  refine (hf _ rfl ?_).1
  rw [if_pos (by rw [hc]; decide)]
  exact ⟨disj_empty, by simp [Buf.empty]⟩

theorem disj_loadLoop {P : Params} (uids missing : List Uid) : ∀ (us : List Uid) (s : St), s.ctx = .user → Disj s.engine →
    Disj (St.loadLoop P uids missing us s).2.engine := by
  intro us
  induction us with
  | nil => intro s _ h; exact h
  | cons u us ih =>
    intro s hc h
    have h1 := disj_inEngine hc (St.loadStep P uids missing u) (fun t ht hg => good_loadStep ht hg uids missing u)
    have hk := keeps_inEngine s (St.loadStep P uids missing u) (fun t ht => keeps_loadStep ht uids missing u)
    unfold St.loadLoop
    split
    · rename_i h; rw [h] at h1; exact h1
    · rename_i s1 h; rw [h] at h1 hk
      have h2 := ih s1 (hk.2.trans hc) h1
      split
      · rename_i k; rw [k] at h2; exact h2
      · rename_i k; rw [k] at h2; exact h2

theorem disj_load {P : Params} {s : St} (hc : s.ctx = .user) (h : Disj s.engine) (us : List Uid) : Disj (s.load P us).2.engine := by
  unfold St.load
  split
  · exact h
  · exact disj_loadLoop _ _ _ _ hc h

theorem disj_refresh {P : Params} {s : St} (hc : s.ctx = .user) (h : Disj s.engine) (us : List Uid) : Disj (s.refresh P us).2.engine := by
  unfold St.refresh
  split
  · exact h
  · have hp : s.expire us = ((s.expire us).1, (s.expire us).2) := rfl
    rw [hp]
    dsimp only
    have h1 := disj_load (P := P) (s := (s.expire us).2) hc h (s.expire us).1
    split
    · rename_i h; rw [h] at h1; exact h1
    · rename_i h; rw [h] at h1; exact h1

theorem disj_notifyRead {P : Params} {s : St} (hc : s.ctx = .user) (h : Disj s.engine) (u : Uid) : Disj (s.notifyRead P u).2.engine := by
  unfold St.notifyRead
  split
  · exact disj_refresh hc h [u]
  · exact h

theorem disj_loadFound : ∀ (us : List Uid) (s : St), s.ctx = .user → Disj s.engine → Disj (s.loadFound us).2.engine := by
  intro us
  induction us with
  | nil => intro s _ h; exact h
  | cons u us ih =>
    intro s hc h
    have h1 := disj_inEngine hc (fun s => s.loadByIri u) (fun t ht hg => good_loadByIri ht hg u)
    have hk := keeps_inEngine s (fun s => s.loadByIri u) (fun t ht => keeps_loadByIri ht u)
    unfold St.loadFound
    split
    · rename_i h; rw [h] at h1; exact h1
    · rename_i s1 h; rw [h] at h1 hk
      have h2 := ih s1 (hk.2.trans hc) h1
      split
      · rename_i k; rw [k] at h2; exact h2
      · rename_i k; rw [k] at h2; exact h2

theorem disj_loadByOclass (us : List Uid) (s : St) (hc : s.ctx = .user) (h : Disj s.engine) : Disj (s.loadByOclass us).2.engine := by
  unfold St.loadByOclass
  split
  · exact h
  · exact disj_loadFound us s hc h

/-! ### the user's buffers under the user's operations -/

theorem user_create {P : Params} {s : St} (hc : s.ctx = .user) (u : Uid) (c : Content) :
    (s.create P u c).2.user = (if u = 0 then s.user else s.user.store s.reg u) ∧ (s.create P u c).2.ctx = .user := by
  unfold St.create
  split
  · exact ⟨rfl, hc⟩
  · dsimp only
    obtain ⟨r, hs⟩ := store_eq s u c
    rw [setBuf_user hc, buf_user hc] at hs
    split
    · have hk := keeps_inEngine (s.store u c) (fun s => s.loadAll (P.order (u :: (P.nb (s.db (s.slot u))).filter (· ≠ 0)))) (fun t ht => keeps_loadAll _ t ht)
      refine ⟨hk.1.trans ?_, hk.2.trans ?_⟩ <;> rw [hs]
      exact hc
    · rw [hs]
      exact ⟨rfl, hc⟩

theorem user_modify {P : Params} {s : St} (hc : s.ctx = .user) (u : Uid) (f : Content → Content) :
    ((s.modify P u f).2.user = s.user ∧ ∃ e, (s.modify P u f).1 = .error e) ∨
    ((s.modify P u f).2.user = s.user.notifyUpdate u ∧ (s.modify P u f).1 = .ok ()) := by
  have h1 := keeps_notifyRead (P := P) s u
  unfold St.modify
  split
  · rename_i h; rw [h] at h1; exact Or.inl ⟨h1.1, _, rfl⟩
  · rename_i s1 h; rw [h] at h1
    dsimp only
    generalize ht : (if u ∈ s1.reg then _ else _ : St) = t
    have h2 : Keeps s1 t := by rw [← ht]; split <;> exact ⟨rfl, rfl⟩
    have h3 := h1.trans h2
    rw [notifyUpdate_eq, buf_user (h3.2.trans hc), setBuf_user (h3.2.trans hc), h3.1]
    by_cases hd : u ∈ s.user.deleted
    · left
      rw [if_pos hd]
      refine ⟨?_, _, rfl⟩
      simp only [Buf.notifyUpdate, hd, if_true]
    · right
      rw [if_neg hd]
      exact ⟨rfl, rfl⟩

theorem user_drop {P : Params} {s : St} (hc : s.ctx = .user) (u : Uid) :
    (s.deleteTriples P u).2.user = (if u ∈ s.reg then s.user.notifyDelete u else s.user) ∧ (s.deleteTriples P u).2.ctx = .user ∧
    ((s.deleteTriples P u).1 = .ok () ↔ u ∈ s.reg) := by
  unfold St.deleteTriples
  by_cases h : u ∈ s.reg
  · rw [if_neg (not_not.2 h), if_pos h, notifyDelete_eq]
    rw [buf_user (by exact hc), setBuf_user (by exact hc)]
    exact ⟨rfl, hc, fun _ => h, fun _ => rfl⟩
  · rw [if_pos h, if_neg h]
    exact ⟨rfl, hc, fun k => (by cases k), fun k => absurd k h⟩

theorem user_delete {P : Params} {s : St} (hc : s.ctx = .user) (u : Uid) :
    ((s.delete P u).2.user = s.user ∧ (s.delete P u).1 ≠ .ok ()) ∨ ((s.delete P u).2.user = s.user.notifyDelete u ∧ (s.delete P u).1 = .ok ()) := by
  have h1 := keeps_notifyRead (P := P) s u
  unfold St.delete
  split
  · rename_i h; rw [h] at h1; exact Or.inl ⟨h1.1, by intro k; cases k⟩
  · rename_i s1 h; rw [h] at h1
    obtain ⟨a, _, b⟩ := user_drop (P := P) (h1.2.trans hc : s1.ctx = .user) u
    by_cases hr : u ∈ s1.reg
    · right; rw [a, if_pos hr, h1.1]; exact ⟨rfl, b.2 hr⟩
    · left; rw [a, if_neg hr]; exact ⟨h1.1, fun k => hr (b.1 k)⟩

theorem ctx_delete {P : Params} {s : St} (u : Uid) (hc : s.ctx = .user) : (s.delete P u).2.ctx = .user := by
  have h1 := keeps_notifyRead (P := P) s u
  unfold St.delete
  split
  · rename_i h; rw [h] at h1; exact h1.2.trans hc
  · rename_i s1 h; rw [h] at h1; exact (user_drop (h1.2.trans hc) u).2.1

theorem ctx_modify {P : Params} {s : St} (u : Uid) (f : Content → Content) (hc : s.ctx = .user) : (s.modify P u f).2.ctx = .user := by
  have h1 := keeps_notifyRead (P := P) s u
  unfold St.modify
  split
  · rename_i h; rw [h] at h1; exact h1.2.trans hc
  · rename_i s1 h; rw [h] at h1
    dsimp only
    generalize ht : (if u ∈ s1.reg then _ else _ : St) = t
    have h2 : Keeps s1 t := by rw [← ht]; split <;> exact ⟨rfl, rfl⟩
    have h3 := (h1.trans h2).2.trans hc
    rw [notifyUpdate_eq, setBuf_user h3]
    exact h3

theorem commit_user {s : St} (fail : Option Nat) : ((s.commit fail).2.user = s.user ∨ (s.commit fail).2.user = .empty) ∧
    (s.commit fail).2.ctx = s.ctx ∧ (s.ctx = .user → (s.commit fail).2.engine = .empty) := by
  refine ⟨?_, rfl, ?_⟩
  · unfold St.commit St.inEngine
    dsimp only
    generalize ht : ({ (if s.ctx ≠ .engine then { s with engine := Buf.empty } else s) with ctx := Ctx.engine } : St) = t
    have hu : t.user = s.user := by rw [← ht]; dsimp only; split <;> rfl
    rw [← hu]
    unfold St.commitBody
    split
    · exact Or.inl rfl
    · split
      · exact Or.inl rfl
      · dsimp only
        split
        · split
          · exact Or.inl rfl
          · exact Or.inr rfl
        · exact Or.inr rfl
  · intro hc
    unfold St.commit St.inEngine
    dsimp only
    rw [if_pos (by rw [hc]; decide)]
    unfold St.commitBody
    split
    · rfl
    · split
      · rfl
      · dsimp only
        split
        · split <;> rfl
        · rfl

/-! ### C10 -/

/-- New objects get a uid that is not in use: not registered and without a pending update. -/
def NewUid (s : St) : Op → Prop
  | .create u _ => u ∉ s.reg ∧ u ∉ s.user.updated
  | _ => True

theorem step_ctx {P : Params} {s : St} (hc : s.ctx = .user) (o : Op) : (step P s o).2.ctx = .user := by
  cases o with
  | create u c => exact (user_create hc u c).2
  | modify u f => exact ctx_modify u f hc
  | delete u => exact ctx_delete u hc
  | drop u => exact (user_drop hc u).2.1
  | read u => exact (keeps_notifyRead s u).2.trans hc
  | load us => exact (keeps_load s us).2.trans hc
  | loadByOclass us => exact (keeps_loadByOclass us s).2.trans hc
  | expire us => exact hc
  | expireAll => exact hc
  | refresh us => exact (keeps_refresh s us).2.trans hc
  | commit fail => exact (commit_user fail).2.1.trans hc
  | extern k c => exact hc

theorem engine_setBuf_user {s : St} (hc : s.ctx = .user) (b : Buf) : (s.setBuf b).engine = s.engine := by
  rw [setBuf_user hc]

theorem step_disj {P : Params} {s : St} (hc : s.ctx = .user) (hu : Disj s.user) (he : Disj s.engine) {o : Op} (hn : NewUid s o) :
    Disj (step P s o).2.user ∧ Disj (step P s o).2.engine := by
  cases o with
  | create u c =>
    constructor
    · show Disj (s.create P u c).2.user
      rw [(user_create hc u c).1]
      split
      · exact hu
      · exact disj_store hu s.reg u (fun k => absurd k hn.1) (fun _ => hn.2)
    · show Disj (s.create P u c).2.engine
      unfold St.create
      split
      · exact he
      · dsimp only
        obtain ⟨r, hs⟩ := store_eq s u c
        rw [setBuf_user hc] at hs
        split
        · refine disj_inEngine ?_ _ (fun t ht hg => good_loadAll _ t ht hg)
          rw [hs]; exact hc
        · rw [hs]; exact he
  | modify u f =>
    constructor
    · rcases user_modify (P := P) hc u f with h | h
      · show Disj (s.modify P u f).2.user; rw [h.1]; exact hu
      · show Disj (s.modify P u f).2.user; rw [h.1]; exact disj_notifyUpdate hu u
    · show Disj (s.modify P u f).2.engine
      have h1 := disj_notifyRead (P := P) hc he u
      have hk := keeps_notifyRead (P := P) s u
      unfold St.modify
      split
      · rename_i h; rw [h] at h1; exact h1
      · rename_i s1 h; rw [h] at h1 hk
        dsimp only
        generalize ht : (if u ∈ s1.reg then _ else _ : St) = t
        have h2 : t.engine = s1.engine ∧ t.ctx = s1.ctx := by rw [← ht]; split <;> exact ⟨rfl, rfl⟩
        rw [notifyUpdate_eq]
        dsimp only
        rw [engine_setBuf_user (h2.2.trans (hk.2.trans hc)), h2.1]
        exact h1
  | delete u =>
    constructor
    · rcases user_delete (P := P) hc u with h | h
      · show Disj (s.delete P u).2.user; rw [h.1]; exact hu
      · show Disj (s.delete P u).2.user; rw [h.1]; exact disj_notifyDelete hu u
    · show Disj (s.delete P u).2.engine
      have h1 := disj_notifyRead (P := P) hc he u
      have hk := keeps_notifyRead (P := P) s u
      unfold St.delete
      split
      · rename_i h; rw [h] at h1; exact h1
      · rename_i s1 h; rw [h] at h1 hk
        unfold St.deleteTriples
        split
        · exact h1
        · rw [notifyDelete_eq]
          dsimp only
          rw [engine_setBuf_user (by exact hk.2.trans hc)]
          exact h1
  | drop u =>
    constructor
    · show Disj (s.deleteTriples P u).2.user
      rw [(user_drop hc u).1]
      split
      · exact disj_notifyDelete hu u
      · exact hu
    · show Disj (s.deleteTriples P u).2.engine
      unfold St.deleteTriples
      split
      · exact he
      · rw [notifyDelete_eq]
        dsimp only
        rw [engine_setBuf_user (by exact hc)]
        exact he
  | read u => exact ⟨(keeps_notifyRead (P := P) s u).1.symm ▸ hu, disj_notifyRead hc he u⟩
  | load us => exact ⟨(keeps_load (P := P) s us).1.symm ▸ hu, disj_load hc he us⟩
  | loadByOclass us => exact ⟨(keeps_loadByOclass us s).1.symm ▸ hu, disj_loadByOclass us s hc he⟩
  | expire us => exact ⟨hu, he⟩
  | expireAll => exact ⟨hu, he⟩
  | refresh us => exact ⟨(keeps_refresh (P := P) s us).1.symm ▸ hu, disj_refresh hc he us⟩
  | commit fail =>
    have h := commit_user (s := s) fail
    refine ⟨?_, ?_⟩
    · show Disj (s.commit fail).2.user
      rcases h.1 with k | k
      · rw [k]; exact hu
      · rw [k]; exact disj_empty
    · show Disj (s.commit fail).2.engine
      rw [h.2.2 hc]; exact disj_empty
  | extern k c => exact ⟨hu, he⟩

/-- A property of operations holds all along a history. -/
def Along (P : Params) (Q : St → Op → Prop) : St → List Op → Prop
  | _, [] => True
  | s, o :: os => Q s o ∧ Along P Q (step P s o).2 os

/-- **C10.** In every history of user operations, loads, queries, (failing) commits and changes of the database by others, starting with a freshly
connected session and whatever operations raise, no object is ever in two of the three buffers of one context. Partial: objects are created with a
uid that is neither registered nor waiting as updated; `reused_uid_in_two_buffers` shows that this is needed. -/
theorem buffers_disjoint_partial (P : Params) (db : Uid → Content) (ops : List Op) (h : Along P NewUid (St.opened db) ops) :
    Disj (run P (St.opened db) ops).user ∧ Disj (run P (St.opened db) ops).engine := by
  have main : ∀ (ops : List Op) (s : St), s.ctx = .user → Disj s.user → Disj s.engine → Along P NewUid s ops →
      Disj (run P s ops).user ∧ Disj (run P s ops).engine := by
    intro ops
    induction ops with
    | nil => intro s _ hu he _; exact ⟨hu, he⟩
    | cons o os ih =>
      intro s hc hu he hal
      obtain ⟨a, b⟩ := step_disj (P := P) hc hu he hal.1
      exact ih (step P s o).2 (step_ctx hc o) a b hal.2
  exact main ops _ rfl disj_empty disj_empty h

/-- The parameters of the examples. -/
def P0 : Params := { diff := fun _ _ => [], nb := fun _ => [], typePart := id, order := id, order_mem := fun _ _ => Iff.rfl }

/-- A case that meets the hypothesis and fills all three buffers. -/
example : let ops : List Op := [.create 1 {1}, .create 2 {2}, .create 3 {3}, .commit none, .modify 2 (insert 5), .delete 3, .create 4 {4}]
    (run P0 (St.opened fun _ => ∅) ops).user = ⟨[4], [2], [3]⟩ := by decide

/-- Finding: an object created again with the uid of an object that was added is in two buffers. -/
theorem reused_uid_in_two_buffers :
    let s := run P0 (St.opened fun _ => ∅) [.create 1 {1}, .create 2 {2}, .create 2 {3}]
    2 ∈ s.user.added ∧ 2 ∈ s.user.updated := by decide

/-! ### C11 -/

/-- What the user did to an object since the last synchronisation, on balance. -/
inductive Net where
  | untouched | added | updated | deleted
  deriving DecidableEq

/-- The kinds of user operations that concern one object. -/
inductive Kind where
  | create | modify | delete
  deriving DecidableEq

/-- Which kind of change of the object `u` a history entry is. -/
def Op.kind (u : Uid) : Op → Option Kind
  | .create v _ => if v = u then some .create else none
  | .modify v _ => if v = u then some .modify else none
  | .delete v => if v = u then some .delete else none
  | .drop v => if v = u then some .delete else none
  | _ => none

/-- The net effect: an object created since the synchronisation stays "added" whatever is done to it, and deleting it leaves no trace; otherwise it is
"updated" by modifications and "deleted" by a deletion. -/
def Net.next : Net → Kind → Net
  | .untouched, .create => .added
  | .untouched, .modify => .updated
  | .untouched, .delete => .deleted
  | .added, .delete => .untouched
  | .added, _ => .added
  | .updated, .delete => .deleted
  | .updated, _ => .updated
  | .deleted, .create => .added
  | .deleted, _ => .deleted

/-- The net effect of a history on the object `u`. -/
def net (u : Uid) (ops : List Op) : Net := (ops.filterMap (Op.kind u)).foldl Net.next .untouched

/-- What the buffers say about an object. -/
def Buf.says (b : Buf) (u : Uid) : Net → Prop
  | .untouched => u ∉ b.added ∧ u ∉ b.updated ∧ u ∉ b.deleted
  | .added => u ∈ b.added ∧ u ∉ b.updated ∧ u ∉ b.deleted
  | .updated => u ∉ b.added ∧ u ∈ b.updated ∧ u ∉ b.deleted
  | .deleted => u ∉ b.added ∧ u ∉ b.updated ∧ u ∈ b.deleted

/-- The operation succeeds, is not a commit, and new objects are not registered and not waiting as updated. -/
def Works (P : Params) (s : St) : Op → Prop
  | .create u _ => u ≠ 0 ∧ u ∉ s.reg ∧ u ∉ s.user.updated
  | .modify u f => (s.modify P u f).1 = .ok ()
  | .delete u => (s.delete P u).1 = .ok ()
  | .drop u => (s.deleteTriples P u).1 = .ok ()
  | .commit _ => False
  | _ => True

theorem says_store {b : Buf} {r : List Uid} {u v : Uid} (hr : u ∉ r) (hn : u ∉ b.updated) {n : Net} (h : b.says v n) :
    (b.store r u).says v (if u = v then n.next .create else n) := by
  unfold Buf.store
  dsimp only
  rw [if_neg hr]
  by_cases huv : u = v
  · subst huv
    rw [if_pos rfl]
    cases n <;> simp only [Buf.says, Net.next, mem_ins, mem_del] at * <;> tauto
  · rw [if_neg huv]
    have : v ≠ u := fun h => huv h.symm
    cases n <;> simp only [Buf.says, mem_ins, mem_del] at * <;> tauto

theorem says_notifyUpdate {b : Buf} {u v : Uid} (hd : u ∉ b.deleted) {n : Net} (h : b.says v n) :
    (b.notifyUpdate u).says v (if u = v then n.next .modify else n) := by
  unfold Buf.notifyUpdate
  rw [if_neg hd]
  by_cases huv : u = v
  · subst huv
    rw [if_pos rfl]
    split <;> cases n <;> simp only [Buf.says, Net.next, List.mem_append, List.mem_cons, List.not_mem_nil, or_false] at * <;> tauto
  · rw [if_neg huv]
    have : v ≠ u := fun h => huv h.symm
    split <;> cases n <;> simp only [Buf.says, List.mem_append, List.mem_cons, List.not_mem_nil, or_false] at * <;> tauto

theorem says_notifyDelete {b : Buf} {u v : Uid} {n : Net} (h : b.says v n) :
    (b.notifyDelete u).says v (if u = v then n.next .delete else n) := by
  unfold Buf.notifyDelete
  by_cases huv : u = v
  · subst huv
    rw [if_pos rfl]
    cases n <;> simp only [Buf.says, Net.next] at * <;> (repeat' split) <;>
      (try simp only [mem_del, mem_ins, List.mem_append, List.mem_cons, List.not_mem_nil, or_false] at *) <;> tauto
  · rw [if_neg huv]
    have : v ≠ u := fun h => huv h.symm
    cases n <;> simp only [Buf.says] at * <;> (repeat' split) <;>
      (try simp only [mem_del, mem_ins, List.mem_append, List.mem_cons, List.not_mem_nil, or_false] at *) <;> tauto

theorem step_says {P : Params} {s : St} (hc : s.ctx = .user) {o : Op} (hw : Works P s o) {v : Uid} {n : Net} (h : s.user.says v n) :
    (step P s o).2.user.says v (match o.kind v with
      | none => n
      | some k => n.next k) := by
  cases o with
  | create u c =>
    show (s.create P u c).2.user.says v _
    rw [(user_create hc u c).1, if_neg hw.1]
    have := says_store (v := v) hw.2.1 hw.2.2 h
    simp only [Op.kind]
    split <;> simp_all
  | modify u f =>
    show (s.modify P u f).2.user.says v _
    have hw' : (s.modify P u f).1 = .ok () := hw
    rcases user_modify (P := P) hc u f with ⟨_, e, k⟩ | ⟨k, _⟩
    · rw [hw'] at k; cases k
    · rw [k]
      have hd : u ∉ s.user.deleted := by
        intro hd
        unfold St.modify at hw'
        have h1 := keeps_notifyRead (P := P) s u
        revert hw' h1
        split
        · intro x _; cases x
        · rename_i s1 hread
          rw [hread]
          dsimp only
          generalize ht : (if u ∈ s1.reg then _ else _ : St) = t
          intro x h1
          have h2 : Keeps s1 t := by rw [← ht]; split <;> exact ⟨rfl, rfl⟩
          have h3 := h1.trans h2
          rw [notifyUpdate_eq, buf_user (h3.2.trans hc), h3.1, if_pos hd] at x
          cases x
      have := says_notifyUpdate (v := v) hd h
      simp only [Op.kind]
      split <;> simp_all
  | delete u =>
    show (s.delete P u).2.user.says v _
    rcases user_delete (P := P) hc u with ⟨_, k⟩ | ⟨k, _⟩
    · exact absurd hw k
    · rw [k]
      have := says_notifyDelete (u := u) (v := v) h
      simp only [Op.kind]
      split <;> simp_all
  | drop u =>
    show (s.deleteTriples P u).2.user.says v _
    obtain ⟨a, _, b⟩ := user_drop (P := P) hc u
    rw [a, if_pos (b.1 hw)]
    have := says_notifyDelete (u := u) (v := v) h
    simp only [Op.kind]
    split <;> simp_all
  | read u => show (s.notifyRead P u).2.user.says v n; rw [(keeps_notifyRead s u).1]; exact h
  | load us => show (s.load P us).2.user.says v n; rw [(keeps_load s us).1]; exact h
  | loadByOclass us => show (s.loadByOclass us).2.user.says v n; rw [(keeps_loadByOclass us s).1]; exact h
  | expire us => exact h
  | expireAll => exact h
  | refresh us => show (s.refresh P us).2.user.says v n; rw [(keeps_refresh s us).1]; exact h
  | commit fail => exact hw.elim
  | extern k c => exact h

/-- **C11.** Starting from a session with empty user buffers, after any history of successful user operations mixed with loads, queries, expirations
and foreign changes of the database, the buffers say about every object exactly what the user did to it on balance. Partial: as in C10, objects are
created with a uid that is not in use. -/
theorem buffers_net_change_partial (P : Params) (s : St) (hc : s.ctx = .user) (hb : s.user = .empty) (ops : List Op) (h : Along P (Works P) s ops) (u : Uid) :
    (run P s ops).user.says u (net u ops) := by
  have main : ∀ (ops : List Op) (s : St) (n : Net), s.ctx = .user → s.user.says u n → Along P (Works P) s ops →
      (run P s ops).user.says u ((ops.filterMap (Op.kind u)).foldl Net.next n) := by
    intro ops
    induction ops with
    | nil => intro s n _ hs _; exact hs
    | cons o os ih =>
      intro s n hc hs hal
      have h1 := step_says hc hal.1 hs
      have h2 := ih (step P s o).2 _ (step_ctx hc o) h1 hal.2
      rw [List.filterMap_cons]
      show (run P (step P s o).2 os).user.says u _
      cases hk : o.kind u with
      | none => rw [hk] at h2; exact h2
      | some k => rw [hk] at h2; exact h2
  exact main ops s .untouched hc (by rw [hb]; simp [Buf.says, Buf.empty]) h

example : let s := run P0 (St.opened fun _ => ∅) [.create 1 {1}, .create 2 {2}, .create 3 {3}, .commit none]
    let ops : List Op := [.modify 2 (insert 5), .delete 3, .create 4 {4}, .create 5 {5}, .delete 5]
    s.user = .empty ∧ (net 2 ops, net 3 ops, net 4 ops, net 5 ops) = (Net.updated, Net.deleted, Net.added, Net.untouched) ∧
    (run P0 s ops).user = ⟨[4], [2], [3]⟩ := by decide

/-! ### C12 -/

/-- **C12.** An expire request never marks an object with pending user changes (unless it was marked before), marks only registered objects, and marks every
other requested registered object; the returned set is the set of requested objects that are expired now. -/
theorem expire_exact (s : St) (us : List Uid) (u : Uid) :
    (u ∈ (s.expire us).2.expired ↔ u ∈ s.reg ∧ (u ∈ s.expired ∨ (u ∈ us ∧ u ∉ s.user.added ∧ u ∉ s.user.updated ∧ u ∉ s.user.deleted))) ∧
    (u ∈ (s.expire us).1 ↔ u ∈ us ∧ u ∈ s.reg ∧ u ∉ s.user.added ∧ u ∉ s.user.updated ∧ u ∉ s.user.deleted) := by
  rw [mem_expire, mem_expire_fst, mem_uids]
  tauto

example : (({ (St.opened fun _ => ∅) with reg := [1, 2], user := ⟨[], [2], []⟩ } : St).expire [1, 2, 3]).1 = [1] := by decide

end Osp.Sess
