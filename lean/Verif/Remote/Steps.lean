import Verif.Remote.Commit
/-!
# Operations on one object of a client session
-/
namespace Osp.Remote
open Osp.Sess Osp.Sync

variable {r : Uid} {m : View} {s : RSt}

/-- Everything the invariant says about one object. -/
structure At (m : View) (s : RSt) (u : Uid) : Prop where
  disj : ¬ (u ∈ s.c.user.added ∧ u ∈ s.c.user.updated) ∧ ¬ (u ∈ s.c.user.added ∧ u ∈ s.c.user.deleted) ∧ ¬ (u ∈ s.c.user.updated ∧ u ∈ s.c.user.deleted)
  live : u ∈ s.c.user.added ∨ u ∈ s.c.user.updated → u ∈ s.c.reg
  gone : u ∈ s.c.user.deleted → u ∉ s.c.reg
  cont : u ∈ s.c.user.uids → s.c.content u ≠ ∅
  fresh : u ∈ s.c.user.added → u ∉ s.t.reg ∧ s.t.g u = ∅
  known : u ∈ s.c.user.updated ∨ u ∈ s.c.user.deleted → u ∈ s.t.reg
  same : u ∉ s.c.user.uids → (u ∈ s.c.reg ↔ u ∈ s.t.reg) ∧ (u ∈ s.c.reg → s.c.g u = s.t.g u)
  has : u ∈ s.c.reg ↔ m.has u
  view : m.has u → s.c.g u = m.view u
  full : m.has u → m.view u ≠ ∅
  unreg : ¬ m.has u → s.c.g u = ∅
  cexp : u ∈ s.c.expired → m.has u ∧ u ∉ s.c.user.uids
  cadd : u ∈ s.c.user.added → m.stored u = ∅ ∧ u ∉ s.t.user.uids
  dead1 : u ∈ s.c.user.deleted ∨ u ∈ s.t.user.deleted → m.dead u
  dead2 : m.dead u → ¬ m.has u ∧ m.view u = ∅ ∧ m.used u ∧ (m.stored u = ∅ ∨ u ∈ s.c.user.deleted ∨ u ∈ s.t.user.deleted)
  out : ¬ m.has u → ¬ m.dead u → m.view u = m.stored u
  left : u ∉ s.t.reg → ¬ m.dead u → m.stored u ≠ ∅ → s.t.g u = ∅
  new : ¬ m.used u → u ∉ s.t.reg ∧ s.t.g u = ∅ ∧ u ∉ s.t.user.uids ∧ ¬ m.has u ∧ u ∉ s.c.user.uids ∧ m.stored u = ∅ ∧ m.view u = ∅

/-- A change of one object in the client session. -/
theorem Good.change (h : Good r m s) {u : Uid} (hu0 : u ≠ 0) {c' : St} {m' : View} (h1 : c'.ctx = s.c.ctx) (h2 : c'.root = s.c.root) (h3 : c'.user.deleted.Nodup)
    (hc : ∀ v, v ≠ u → (v ∈ c'.reg ↔ v ∈ s.c.reg) ∧ c'.g v = s.c.g v ∧ c'.det v = s.c.det v ∧ (v ∈ c'.user.added ↔ v ∈ s.c.user.added) ∧
      (v ∈ c'.user.updated ↔ v ∈ s.c.user.updated) ∧ (v ∈ c'.user.deleted ↔ v ∈ s.c.user.deleted) ∧ (v ∈ c'.expired → v ∈ s.c.expired))
    (hm : ∀ v, v ≠ u → m'.view v = m.view v ∧ (m'.has v ↔ m.has v) ∧ (m'.used v ↔ m.used v) ∧ (m'.dead v ↔ m.dead v))
    (hst : m'.stored = m.stored) (hf : m'.first = m.first) (hr : u = r → m'.has u ∧ (m'.first → m'.stored u ⊆ m'.view u)) (k : At m' ⟨c', s.t⟩ u) :
    Good r m' ⟨c', s.t⟩ := by
  have hs := h.sync
  have huid : ∀ v, v ≠ u → (v ∈ c'.user.uids ↔ v ∈ s.c.user.uids) := by
    intro v hv
    obtain ⟨-, -, -, q1, q2, q3, -⟩ := hc v hv
    rw [mem_uids, mem_uids, q1, q2, q3]
  have hcont : ∀ v, v ≠ u → c'.content v = s.c.content v := by
    intro v hv
    obtain ⟨q1, q2, q3, -⟩ := hc v hv
    unfold St.content
    by_cases hr : v ∈ s.c.reg
    · rw [if_pos hr, if_pos (q1.2 hr), q2]
    · rw [if_neg hr, if_neg (fun q => hr (q1.1 q)), q3]
  have key : ∀ (p : Uid → Prop), p u → (∀ v, v ≠ u → p v) → ∀ v, p v := by
    intro p hp hq v
    by_cases hv : v = u
    · subst hv; exact hp
    · exact hq v hv
  refine ⟨⟨h1.trans hs.cctx, hs.tctx, ⟨?_, ?_, ?_⟩, h3, hs.tbuf, ?_, ?_, ?_, ?_⟩, h2.trans h.croot, h.troot, ?_, h.tr, ?_, ?_, ?_, ?_, ?_, ?_, ?_, h.texp, ?_, ?_, ?_, ?_, ?_, ?_, ?_, ?_, ?_, ?_⟩
  · exact key _ k.disj fun v hv => by
      obtain ⟨-, -, -, q1, q2, q3, -⟩ := hc v hv
      dsimp only
      rw [q1, q2, q3]; exact hs.cbuf.disj v
  · exact key _ k.live fun v hv => by
      obtain ⟨q0, -, -, q1, q2, q3, -⟩ := hc v hv
      dsimp only
      rw [q1, q2, q0]; exact hs.cbuf.live v
  · exact key _ k.gone fun v hv => by
      obtain ⟨q0, -, -, q1, q2, q3, -⟩ := hc v hv
      dsimp only
      rw [q3, q0]; exact hs.cbuf.dead v
  · exact key _ k.cont fun v hv => by
      dsimp only
      rw [huid v hv, hcont v hv]; exact hs.has v
  · exact key _ k.fresh fun v hv => by
      obtain ⟨q0, -, -, q1, q2, q3, -⟩ := hc v hv
      dsimp only
      rw [q1]; exact hs.fresh v
  · exact key _ k.known fun v hv => by
      obtain ⟨q0, -, -, q1, q2, q3, -⟩ := hc v hv
      dsimp only
      rw [q2, q3]; exact hs.known v
  · exact key _ k.same fun v hv => by
      obtain ⟨q0, q1, -⟩ := hc v hv
      dsimp only
      rw [huid v hv, q0, q1]; exact hs.same v
  · by_cases hur : u = r
    · subst hur; exact (hr rfl).1
    · exact (hm r (fun q => hur q.symm)).2.1.2 h.hasr
  · exact key _ k.has fun v hv => by
      dsimp only
      rw [(hc v hv).1, (hm v hv).2.1]; exact h.has v
  · exact key _ k.view fun v hv => by
      dsimp only
      rw [(hc v hv).2.1, (hm v hv).2.1, (hm v hv).1]; exact h.view v
  · exact key _ k.full fun v hv => by
      rw [(hm v hv).2.1, (hm v hv).1]; exact h.full v
  · exact key _ k.unreg fun v hv => by
      dsimp only
      rw [(hc v hv).2.1, (hm v hv).2.1]; exact h.unreg v
  · intro v hv
    rw [hst]; exact h.db v hv
  · obtain ⟨z1, z2, z3, z4⟩ := h.zero
    exact ⟨z1, z2, by rw [(hm 0 (fun q => hu0 q.symm)).2.1]; exact z3, by rw [huid 0 (fun q => hu0 q.symm)]; exact z4⟩
  · exact key _ k.cexp fun v hv => by
      dsimp only
      rw [(hm v hv).2.1, huid v hv]
      exact fun q => h.cexp v ((hc v hv).2.2.2.2.2.2 q)
  · intro v hv hn
    rw [hst]; exact h.clean v hv hn
  · intro v hv hn
    rw [hst]; exact h.tadd v hv hn
  · rw [hf]; exact h.radd
  · by_cases hur : u = r
    · subst hur; exact (hr rfl).2
    · rw [hf, hst, (hm r (fun q => hur q.symm)).1]; exact h.rsub
  · exact key _ k.cadd fun v hv => by
      dsimp only
      rw [(hc v hv).2.2.2.1, hst]; exact h.cadd v
  · exact key _ k.dead1 fun v hv => by
      dsimp only
      rw [(hc v hv).2.2.2.2.2.1, (hm v hv).2.2.2]; exact h.dead1 v
  · exact key _ k.dead2 fun v hv => by
      dsimp only
      rw [(hc v hv).2.2.2.2.2.1, (hm v hv).2.2.2, (hm v hv).2.1, (hm v hv).1, (hm v hv).2.2.1, hst]; exact h.dead2 v
  · exact key _ (fun _ => k.out) fun v hv => by
      rw [(hm v hv).2.2.2, (hm v hv).2.1, (hm v hv).1, hst]; exact h.out v
  · exact key _ (fun _ => k.left) fun v hv => by
      dsimp only
      rw [(hm v hv).2.2.2, hst]; exact h.left v
  · exact key _ k.new fun v hv => by
      dsimp only
      rw [(hm v hv).2.2.1, (hm v hv).2.1, (hm v hv).1, huid v hv, hst]; exact h.new v

theorem has_nonzero (h : Good r m s) {u : Uid} (hu : m.has u) : u ≠ 0 := by
  rintro rfl; exact h.zero.2.2.1 hu

/-- Creating an object. -/
theorem Good.create (h : Good r m s) {u : Uid} {x : Content} (hu0 : u ≠ 0) (hn : ¬ m.used u) (hx : x ≠ ∅) :
    (Remote.create s u x).1 = .ok () ∧ Good r (m.step (.create u x)) (Remote.create s u x).2 := by
  obtain ⟨n1, n2, n3, n4, n5, n6, n7⟩ := h.new u hn
  have hreg : u ∉ s.c.reg := fun q => n4 ((h.has u).1 q)
  have hg := h.unreg u n4
  have hs := h.sync
  have hs1 : s.c.store u x = { s.c with user := s.c.user.store s.c.reg u, reg := ins s.c.reg u, g := Function.update s.c.g u x } := by
    unfold St.store
    simp only [St.buf, St.setBuf, hs.cctx, h.croot, hg, empty_union']
    unfold Buf.store
    rfl
  have hcr : Remote.create s u x = (.ok (), ⟨{ s.c with user := s.c.user.store s.c.reg u, reg := ins s.c.reg u, g := Function.update s.c.g u x }, s.t⟩) := by
    unfold Remote.create
    rw [if_neg hu0, hs1]
  rw [hcr]
  refine ⟨rfl, ?_⟩
  have hba : ∀ v, v ∈ (s.c.user.store s.c.reg u).added ↔ v ∈ s.c.user.added ∨ v = u := by
    intro v; unfold Buf.store; rw [if_neg hreg]; exact mem_ins _ _ _
  have hbu : (s.c.user.store s.c.reg u).updated = s.c.user.updated := by unfold Buf.store; rw [if_neg hreg]
  have hbd : (s.c.user.store s.c.reg u).deleted = s.c.user.deleted := by
    unfold Buf.store; rw [if_neg hreg]; show del _ _ = _
    unfold del
    rw [List.filter_eq_self]
    intro v hv
    rw [mem_uids] at n5
    have : v ≠ u := by rintro rfl; exact n5 (Or.inr (Or.inr hv))
    simpa using this
  rw [mem_uids] at n5
  have n5' : u ∉ s.c.user.added ∧ u ∉ s.c.user.updated ∧ u ∉ s.c.user.deleted := by tauto
  have hur : u ≠ r := by rintro rfl; exact n4 h.hasr
  have hmd : ¬ m.dead u := fun q => hn (h.dead2 u q).2.2.1
  refine h.change hu0 (m' := m.step (.create u x)) rfl rfl (by rw [hbd]; exact hs.nodup) ?_ ?_ rfl rfl (fun q => absurd q hur) ?_
  · intro v hv
    refine ⟨by dsimp only; rw [mem_ins]; tauto, by simp [hv], rfl, by dsimp only; rw [hba]; tauto, by dsimp only; rw [hbu], by dsimp only; rw [hbd], id⟩
  · intro v hv
    refine ⟨by simp [View.step, hv], by simp [View.step, hv], by simp [View.step, hv], Iff.rfl⟩
  · have hra : u ∈ (s.c.user.store s.c.reg u).added := (hba u).2 (Or.inr rfl)
    have hin : u ∈ ins s.c.reg u := (mem_ins ..).2 (Or.inr rfl)
    have huin : u ∈ (s.c.user.store s.c.reg u).uids := by rw [mem_uids]; exact Or.inl hra
    have hgu : Function.update s.c.g u x u = x := Function.update_self _ _ _
    have hh : (m.step (.create u x)).has u := Or.inl rfl
    have hvw : (m.step (.create u x)).view u = x := Function.update_self _ _ _
    refine ⟨⟨?_, ?_, ?_⟩, fun _ => hin, ?_, ?_, fun _ => ⟨n1, n2⟩, ?_, fun q => absurd huin q, ?_, ?_, ?_, ?_, ?_, ?_, ?_, ?_, ?_, ?_, ?_⟩
    · dsimp only; rw [hbu]; tauto
    · dsimp only; rw [hbd]; tauto
    · dsimp only; rw [hbd]; tauto
    · dsimp only; rw [hbd]; tauto
    · intro _
      unfold St.content
      rw [if_pos hin]
      dsimp only
      rw [hgu]; exact hx
    · dsimp only; rw [hbu, hbd]; tauto
    · exact ⟨fun _ => hh, fun _ => hin⟩
    · intro _; dsimp only; rw [hgu, hvw]
    · intro _; rw [hvw]; exact hx
    · intro q; exact absurd hh q
    · intro q
      exact absurd (h.cexp u q).1 n4
    · intro _; exact ⟨n6, n3⟩
    · intro q
      dsimp only at q
      rw [hbd] at q
      exact h.dead1 u q
    · intro q; exact absurd q hmd
    · intro q; exact absurd hh q
    · intro _ _ q; exact absurd n6 q
    · intro q; exact absurd (Or.inl rfl) q

end Osp.Remote
