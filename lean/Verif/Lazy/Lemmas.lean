import Verif.Lazy.Spec
/-!
# Iterations: auxiliary facts
-/
namespace Osp.Lazy
open Osp.Sess
open Osp.Multi (J Tidy Trace)

/-- Proof device; nothing in /repo: the invariant of sessions without any property of the contents. -/
abbrev JT (s : St) : Prop := J (fun _ _ => True) s

theorem pending_uids {s : St} {u : Uid} : Pending s u ↔ u ∈ s.user.uids := (mem_uids s.user u).symm

theorem JT.of {s s' : St} (h : JT s) (hc : s'.ctx = .user) (ht : Tidy s') (hr : s'.root = s.root) (hroot : s.root ≠ none) (hu : s'.user = s.user) : JT s' :=
  ⟨hc, ht, fun k => absurd (hr.symm.trans k) hroot, by rw [hu]; exact h.zero, fun _ _ _ _ => trivial⟩

/-- A call of the user keeps the invariant. -/
theorem step_JT {P : Params} {s : St} (h : JT s) {o : Op} (hp : Proper (.call o)) : JT (Sess.step P s o).2 := by
  by_cases he : ∃ k c, o = .extern k c
  · obtain ⟨k, c, rfl⟩ := he
    exact ⟨h.ctx, h.tidy, h.closed, h.zero, fun _ _ _ _ => trivial⟩
  · refine (Multi.step_J h (fun _ => trivial) ?_ (Or.inl fun _ _ => trivial)).1
    cases o <;> first | exact hp | trivial | exact he ⟨_, _, rfl⟩

theorem drop_user {P : Params} {s : St} (h : JT s) (u : Uid) :
    (s.deleteTriples P u).2.root = s.root ∧ ∀ v, v ∈ (s.deleteTriples P u).2.user.uids → v ∈ s.user.uids ∨ v = u := by
  unfold St.deleteTriples
  by_cases hr : u ∈ s.reg
  · rw [if_neg (not_not.2 hr)]
    dsimp only
    rw [notifyDelete_eq, setBuf_user (by exact h.ctx), buf_user (by exact h.ctx)]
    refine ⟨rfl, fun v hv => ?_⟩
    by_cases hvu : v = u
    · exact Or.inr hvu
    · exact Or.inl ((Multi.uids_notifyDelete s.user u v hvu).1 hv)
  · rw [if_pos hr]
    exact ⟨rfl, fun v hv => Or.inl hv⟩

theorem notifyUpdate_user {s : St} (hc : s.ctx = .user) (u : Uid) :
    (s.notifyUpdate u).2.root = s.root ∧ ∀ v, v ∈ (s.notifyUpdate u).2.user.uids → v ∈ s.user.uids ∨ v = u := by
  rw [notifyUpdate_eq, setBuf_user hc, buf_user hc]
  refine ⟨rfl, fun v hv => ?_⟩
  by_cases hvu : v = u
  · exact Or.inr hvu
  · exact Or.inl (((Multi.uids_notifyUpdate s.user u).2 v hvu).1 hv)

/-- Reading keeps the wrapper, whatever the state of the session. -/
theorem read_root {P : Params} {s : St} (h : JT s) (u : Uid) : ∃ s1, s.notifyRead P u = (.ok (), s1) ∧ s1.root = s.root ∧ s1.user = s.user ∧ JT s1 := by
  by_cases hroot : s.root = none
  · obtain ⟨hr, he⟩ := h.closed hroot
    refine ⟨s, ?_, rfl, rfl, h⟩
    unfold St.notifyRead
    rw [if_neg (by rw [he]; simp)]
  · obtain ⟨s1, a1, a2, _⟩ := Multi.notifyRead_weak (P := P) hroot h.tidy h.ctx u
    exact ⟨s1, a1, a2.root, a2.user, h.trace hroot (fun _ => trivial) a2⟩

/-- What a call of the user does to the list of pending changes, and that the wrapper stays. -/
theorem step_user {P : Params} {s : St} (h : JT s) (o : Op) :
    (s.root ≠ none → (Sess.step P s o).2.root = s.root) ∧ ∀ v, v ∈ (Sess.step P s o).2.user.uids → v ∈ s.user.uids ∨ Changes o v := by
  have hres : ∀ {α : Type} (r : Res α), (Res.unit r).2 = r.2 := fun _ => rfl
  have trivialCase : ∀ {s' : St}, (s.root ≠ none → s'.root = s.root) → s'.user = s.user → (s.root ≠ none → s'.root = s.root) ∧ ∀ v, v ∈ s'.user.uids → v ∈ s.user.uids ∨ Changes o v :=
    fun a b => ⟨a, fun v hv => Or.inl (by rw [← b]; exact hv)⟩
  cases o with
  | create u c =>
    show (_ → (s.create P u c).2.root = _) ∧ ∀ v, v ∈ (s.create P u c).2.user.uids → _
    unfold St.create
    by_cases hu : u = 0
    · rw [if_pos hu]; exact ⟨fun _ => rfl, fun v hv => Or.inl hv⟩
    rw [if_neg hu]
    have hs : s.store u c = { s with user := s.user.store s.reg u, reg := ins s.reg u, g := Function.update s.g u (s.g u ∪ c), root := match s.root with
        | none => some u
        | some r => some r } := by
      unfold St.store
      simp only [St.setBuf, St.buf, h.ctx]
      rfl
    have hus : ∀ v, v ∈ (s.store u c).user.uids → v ∈ s.user.uids ∨ v = u := by
      rw [hs]
      intro v hv
      by_cases hvu : v = u
      · exact Or.inr hvu
      · exact Or.inl (((Multi.uids_store s.user s.reg u).2 v hvu).1 hv)
    by_cases hn : s.root = none
    · rw [if_pos hn]
      refine ⟨fun k => absurd hn k, fun v hv => hus v ?_⟩
      have hk := keeps_inEngine (s.store u c) (fun s => s.loadAll (P.order (u :: (P.nb (s.db (s.slot u))).filter (· ≠ 0)))) (fun t ht => keeps_loadAll _ t ht)
      rw [← hk.1]
      exact hv
    · rw [if_neg hn]
      refine ⟨fun _ => ?_, hus⟩
      rw [hs]
      dsimp only
      cases hr : s.root with
      | none => exact absurd hr hn
      | some r => rfl
  | modify u f =>
    show (_ → (s.modify P u f).2.root = _) ∧ ∀ v, v ∈ (s.modify P u f).2.user.uids → _
    obtain ⟨s1, a1, a2, a3, a4⟩ := read_root (P := P) h u
    unfold St.modify
    rw [a1]
    dsimp only
    by_cases hr : u ∈ s1.reg
    · rw [if_pos hr]
      obtain ⟨b1, b2⟩ := notifyUpdate_user (s := { s1 with g := Function.update s1.g u (f (s1.g u)) }) a4.ctx u
      refine ⟨fun _ => b1.trans a2, fun v hv => ?_⟩
      have := b2 v hv
      rw [show ({ s1 with g := Function.update s1.g u (f (s1.g u)) } : St).user = s1.user from rfl, a3] at this
      exact this
    · rw [if_neg hr]
      obtain ⟨b1, b2⟩ := notifyUpdate_user (s := { s1 with det := Function.update s1.det u (f (s1.det u)) }) a4.ctx u
      refine ⟨fun _ => b1.trans a2, fun v hv => ?_⟩
      have := b2 v hv
      rw [show ({ s1 with det := Function.update s1.det u (f (s1.det u)) } : St).user = s1.user from rfl, a3] at this
      exact this
  | delete u =>
    obtain ⟨s1, a1, a2, a3, a4⟩ := read_root (P := P) h u
    have hd : Sess.step P s (.delete u) = s1.deleteTriples P u := by
      show s.delete P u = _
      unfold St.delete; rw [a1]
    rw [hd]
    obtain ⟨b1, b2⟩ := drop_user (P := P) a4 u
    exact ⟨fun _ => b1.trans a2, fun v hv => by rw [← a3]; exact b2 v hv⟩
  | drop u =>
    obtain ⟨b1, b2⟩ := drop_user (P := P) h u
    exact ⟨fun _ => b1, b2⟩
  | read u =>
    obtain ⟨s1, a1, a2, a3, a4⟩ := read_root (P := P) h u
    have hd : Sess.step P s (.read u) = (.ok (), s1) := a1
    rw [hd]
    exact trivialCase (fun _ => a2) a3
  | load us =>
    show (_ → (Res.unit (s.load P us)).2.root = _) ∧ ∀ v, v ∈ (Res.unit (s.load P us)).2.user.uids → _
    rw [hres]
    refine trivialCase (fun hroot => ?_) ((loading_keeps_user_buffers P s).1 us).1
    obtain ⟨xs, s1, a1, a2, _⟩ := Multi.load_weak (P := P) hroot h.tidy h.ctx us
    rw [a1]; exact a2.root
  | loadByOclass us =>
    show (_ → (Res.unit (s.loadByOclass us)).2.root = _) ∧ ∀ v, v ∈ (Res.unit (s.loadByOclass us)).2.user.uids → _
    rw [hres]
    refine trivialCase (fun hroot => ?_) ((loading_keeps_user_buffers P s).2.1 us).1
    obtain ⟨xs, s1, a1, a2⟩ := Multi.loadFound_weak us hroot h.tidy h.ctx
    unfold St.loadByOclass
    rw [if_neg hroot, a1]; exact a2.root
  | expire us => exact trivialCase (fun _ => rfl) rfl
  | expireAll => exact trivialCase (fun _ => rfl) rfl
  | refresh us =>
    refine trivialCase (fun hroot => ?_) ((loading_keeps_user_buffers P s).2.2.1 us).1
    obtain ⟨s1, a1, a2, _⟩ := Multi.refresh_weak (P := P) hroot h.tidy h.ctx us
    show (s.refresh P us).2.root = _
    rw [a1]; exact a2.root
  | commit fail =>
    show (_ → (s.commit fail).2.root = _) ∧ ∀ v, v ∈ (s.commit fail).2.user.uids → _
    refine ⟨fun _ => ?_, fun v hv => ?_⟩
    · by_cases hr : ∃ r, s.root = some r ∧ r ∈ s.reg
      · obtain ⟨r, h1, h2⟩ := hr
        cases fail with
        | none => rw [commit_ok h.ctx h1 h2]
        | some k =>
          by_cases hk : k < s.commitOps.length
          · obtain ⟨e, he⟩ := commit_fail h.ctx hk
            rw [he]
          · rw [Multi.commit_late h.ctx h1 h2 hk]
      · obtain ⟨e, he⟩ := Multi.commit_no_root h.ctx fail hr
        rw [he]
    · rcases (commit_user (s := s) fail).1 with k | k
      · rw [k] at hv; exact Or.inl hv
      · rw [k] at hv; simp [Buf.empty, Buf.uids] at hv
  | extern k c => exact trivialCase (fun _ => rfl) rfl

end Osp.Lazy
