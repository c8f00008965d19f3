import Verif.Clients.Inv
/-!
# Operations on one object of one of several clients
-/
namespace Osp.Clients
open Osp.Sess Osp.Sync Osp.Remote

variable {r : Uid} {m : Mem} {s : RSt} {P : Params}

/-- Proof device; nothing in /repo: everything the invariant says about one object. -/
structure At (m : Mem) (s : RSt) (u : Uid) : Prop where
  disj : ¬ (u ∈ s.c.user.added ∧ u ∈ s.c.user.updated) ∧ ¬ (u ∈ s.c.user.added ∧ u ∈ s.c.user.deleted) ∧ ¬ (u ∈ s.c.user.updated ∧ u ∈ s.c.user.deleted)
  live : u ∈ s.c.user.added ∨ u ∈ s.c.user.updated → u ∈ s.c.reg
  gone : u ∈ s.c.user.deleted → u ∉ s.c.reg
  cont : u ∈ s.c.user.uids → s.c.content u ≠ ∅
  fresh : u ∈ s.c.user.added → u ∉ s.t.reg ∧ s.t.g u = ∅
  known : u ∈ s.c.user.updated ∨ u ∈ s.c.user.deleted → u ∈ s.t.reg
  same : u ∉ s.c.user.uids → (u ∈ s.c.reg ↔ u ∈ s.t.reg) ∧ (u ∈ s.c.reg → s.c.g u = s.t.g u)
  full : u ∈ s.c.reg → s.c.g u ≠ ∅
  cexp : u ∈ s.c.expired → u ∈ s.c.reg ∧ u ∉ s.c.user.uids
  cadd : u ∈ s.c.user.added → u ∉ s.t.user.uids
  ch1 : u ∈ s.c.user.uids ∨ u ∈ s.t.user.uids → m.changed u
  ch2 : m.changed u → u ∈ s.c.user.uids ∨ u ∈ s.t.user.uids ∨ (m.fresh u ∧ u ∉ s.c.reg)
  fr1 : u ∈ s.c.user.added ∨ u ∈ s.t.user.added → m.fresh u
  fr2 : m.fresh u → u ∈ s.c.reg → u ∈ s.c.user.added ∨ u ∈ s.t.user.added
  fr3 : m.fresh u → u ∉ s.t.user.deleted ∧ (u ∈ s.c.user.deleted → u ∈ s.t.user.added)
  frch : m.fresh u → m.changed u
  used : m.changed u → m.used u
  new : m.used u

/-- Proof device; nothing in /repo: a change of one object in the client session. -/
theorem Fit.change (h : Fit r m s) {u : Uid} (hu0 : u ≠ 0) {c' : St} {m' : Mem} (h1 : c'.ctx = s.c.ctx) (h2 : c'.root = s.c.root) (h3 : c'.user.deleted.Nodup)
    (hc : ∀ v, v ≠ u → (v ∈ c'.reg ↔ v ∈ s.c.reg) ∧ c'.g v = s.c.g v ∧ c'.det v = s.c.det v ∧ (v ∈ c'.user.added ↔ v ∈ s.c.user.added) ∧
      (v ∈ c'.user.updated ↔ v ∈ s.c.user.updated) ∧ (v ∈ c'.user.deleted ↔ v ∈ s.c.user.deleted) ∧ (v ∈ c'.expired → v ∈ s.c.expired))
    (hm : ∀ v, v ≠ u → (m'.changed v ↔ m.changed v) ∧ (m'.fresh v ↔ m.fresh v) ∧ (m'.used v ↔ m.used v))
    (hr : u = r → u ∈ c'.reg) (k : At m' ⟨c', s.t⟩ u) : Fit r m' ⟨c', s.t⟩ := by
  have hs := h.sync
  have huid : ∀ v, v ≠ u → (v ∈ c'.user.uids ↔ v ∈ s.c.user.uids) := by
    intro v hv
    obtain ⟨-, -, -, q1, q2, q3, -⟩ := hc v hv
    rw [mem_uids, mem_uids, q1, q2, q3]
  have hcont : ∀ v, v ≠ u → c'.content v = s.c.content v := by
    intro v hv
    obtain ⟨q1, q2, q3, -⟩ := hc v hv
    unfold St.content
    by_cases hr : v ∈ s.c.reg
    · rw [if_pos hr, if_pos (q1.2 hr), q2]
    · rw [if_neg hr, if_neg (fun q => hr (q1.1 q)), q3]
  have key : ∀ (p : Uid → Prop), p u → (∀ v, v ≠ u → p v) → ∀ v, p v := by
    intro p hp hq v
    by_cases hv : v = u
    · subst hv; exact hp
    · exact hq v hv
  refine ⟨⟨h1.trans hs.cctx, hs.tctx, ⟨?_, ?_, ?_⟩, h3, hs.tbuf, ?_, ?_, ?_, ?_⟩, h2.trans h.croot, h.troot, ?_, h.tr, ?_, ?_, ?_, h.texp, ?_, h.rdb, ?_, ?_, ?_, ?_, ?_, ?_, ?_, ?_⟩
  · exact key _ k.disj fun v hv => by
      obtain ⟨-, -, -, q1, q2, q3, -⟩ := hc v hv
      dsimp only
      rw [q1, q2, q3]; exact hs.cbuf.disj v
  · exact key _ k.live fun v hv => by
      obtain ⟨q0, -, -, q1, q2, q3, -⟩ := hc v hv
      dsimp only
      rw [q1, q2, q0]; exact hs.cbuf.live v
  · exact key _ k.gone fun v hv => by
      obtain ⟨q0, -, -, q1, q2, q3, -⟩ := hc v hv
      dsimp only
      rw [q3, q0]; exact hs.cbuf.dead v
  · exact key _ k.cont fun v hv => by
      dsimp only
      rw [huid v hv, hcont v hv]; exact hs.has v
  · exact key _ k.fresh fun v hv => by
      obtain ⟨q0, -, -, q1, q2, q3, -⟩ := hc v hv
      dsimp only
      rw [q1]; exact hs.fresh v
  · exact key _ k.known fun v hv => by
      obtain ⟨q0, -, -, q1, q2, q3, -⟩ := hc v hv
      dsimp only
      rw [q2, q3]; exact hs.known v
  · exact key _ k.same fun v hv => by
      obtain ⟨q0, q1, -⟩ := hc v hv
      dsimp only
      rw [huid v hv, q0, q1]; exact hs.same v
  · by_cases hur : u = r
    · subst hur; exact hr rfl
    · exact (hc r (fun q => hur q.symm)).1.2 h.cr
  · exact key _ k.full fun v hv => by
      dsimp only
      rw [(hc v hv).1, (hc v hv).2.1]; exact h.full v
  · obtain ⟨z1, z2, z3, z4⟩ := h.zero
    exact ⟨z1, z2, by rw [(hc 0 (fun q => hu0 q.symm)).1]; exact z3, by rw [huid 0 (fun q => hu0 q.symm)]; exact z4⟩
  · exact key _ k.cexp fun v hv => by
      dsimp only
      rw [(hc v hv).1, huid v hv]
      exact fun q => h.cexp v ((hc v hv).2.2.2.2.2.2 q)
  · exact key _ k.cadd fun v hv => by
      dsimp only
      rw [(hc v hv).2.2.2.1]; exact h.cadd v
  · exact key _ k.ch1 fun v hv => by
      dsimp only
      rw [huid v hv, (hm v hv).1]; exact h.ch1 v
  · exact key _ k.ch2 fun v hv => by
      dsimp only
      rw [huid v hv, (hm v hv).1, (hm v hv).2.1, (hc v hv).1]; exact h.ch2 v
  · exact key _ k.fr1 fun v hv => by
      dsimp only
      rw [(hm v hv).2.1, (hc v hv).2.2.2.1]; exact h.fr1 v
  · exact key _ k.fr2 fun v hv => by
      dsimp only
      rw [(hm v hv).2.1, (hc v hv).2.2.2.1, (hc v hv).1]; exact h.fr2 v
  · exact key _ k.fr3 fun v hv => by
      dsimp only
      rw [(hm v hv).2.1, (hc v hv).2.2.2.2.2.1]; exact h.fr3 v
  · exact key _ k.frch fun v hv => by
      rw [(hm v hv).2.1, (hm v hv).1]; exact h.frch v
  · exact key _ k.used fun v hv => by
      rw [(hm v hv).2.2, (hm v hv).1]; exact h.used v
  · exact key _ (fun q => absurd k.new q) fun v hv => by
      dsimp only
      rw [(hm v hv).2.2, huid v hv, (hc v hv).1, (hc v hv).2.1]; exact h.new v

theorem shown_pos {u : Uid} (h : u ∈ s.c.reg) : shown s u = some (s.c.g u) := if_pos h

theorem shown_neg {u : Uid} (h : u ∉ s.c.reg) : shown s u = none := if_neg h

theorem shown_some {u : Uid} (h : shown s u ≠ none) : u ∈ s.c.reg := by
  by_contra q; exact h (shown_neg q)

/-- Proof device; nothing in /repo: what is shown after one object changed. -/
theorem shown_update {s s' : RSt} {u : Uid} {y : Option Content} (h : ∀ v, v ≠ u → (v ∈ s'.c.reg ↔ v ∈ s.c.reg) ∧ s'.c.g v = s.c.g v) (hu : shown s' u = y) :
    shown s' = Function.update (shown s) u y := by
  funext v
  by_cases hv : v = u
  · subst hv; rw [Function.update_self]; exact hu
  · rw [Function.update_of_ne hv]
    unfold shown
    by_cases k : v ∈ s.c.reg
    · rw [if_pos k, if_pos ((h v hv).1.2 k), (h v hv).2]
    · rw [if_neg k, if_neg fun q => k ((h v hv).1.1 q)]

/-- Creating an object. -/
theorem Fit.create (h : Fit r m s) {u : Uid} {x : Content} (hu0 : u ≠ 0) (hn : ¬ m.used u) (hx : x ≠ ∅) (res : Except PyErr (List (Option Uid))) :
    (Remote.create s u x).1 = .ok () ∧ Fit r (m.step (.create u x) res) (Remote.create s u x).2 ∧ Effect r m s (.create u x) (Remote.create s u x).2 := by
  obtain ⟨n1, n2, n3, n4, n5, n6⟩ := h.new u hn
  have hs := h.sync
  have hs1 : s.c.store u x = { s.c with user := s.c.user.store s.c.reg u, reg := ins s.c.reg u, g := Function.update s.c.g u x } := by
    unfold St.store
    simp only [St.buf, St.setBuf, hs.cctx, h.croot, n3, empty_union']
    unfold Buf.store
    rfl
  have hcr : Remote.create s u x = (.ok (), ⟨{ s.c with user := s.c.user.store s.c.reg u, reg := ins s.c.reg u, g := Function.update s.c.g u x }, s.t⟩) := by
    unfold Remote.create
    rw [if_neg hu0, hs1]
  rw [hcr]
  have hba : ∀ v, v ∈ (s.c.user.store s.c.reg u).added ↔ v ∈ s.c.user.added ∨ v = u := by
    intro v; unfold Buf.store; rw [if_neg n1]; exact mem_ins _ _ _
  have hbu : (s.c.user.store s.c.reg u).updated = s.c.user.updated := by unfold Buf.store; rw [if_neg n1]
  have hbd : (s.c.user.store s.c.reg u).deleted = s.c.user.deleted := by
    unfold Buf.store; rw [if_neg n1]; show del _ _ = _
    unfold del
    rw [List.filter_eq_self]
    intro v hv
    rw [mem_uids] at n2
    have : v ≠ u := by rintro rfl; exact n2 (Or.inr (Or.inr hv))
    simpa using this
  rw [mem_uids] at n2
  have n2' : u ∉ s.c.user.added ∧ u ∉ s.c.user.updated ∧ u ∉ s.c.user.deleted := by tauto
  have hur : u ≠ r := by rintro rfl; exact n1 h.cr
  have hin : u ∈ ins s.c.reg u := (mem_ins ..).2 (Or.inr rfl)
  have hgu : Function.update s.c.g u x u = x := Function.update_self _ _ _
  have hoth : ∀ v, v ≠ u → (v ∈ ins s.c.reg u ↔ v ∈ s.c.reg) ∧ Function.update s.c.g u x v = s.c.g v := fun v hv => ⟨by rw [mem_ins]; tauto, by simp [hv]⟩
  refine ⟨rfl, ?_, shown_update hoth ((shown_pos (by exact hin)).trans (by dsimp only; rw [hgu])), rfl⟩
  refine h.change hu0 (m' := m.step (.create u x) res) rfl rfl (by rw [hbd]; exact hs.nodup) ?_ ?_ (fun q => absurd q hur) ?_
  · intro v hv
    refine ⟨(hoth v hv).1, (hoth v hv).2, rfl, by dsimp only; rw [hba]; tauto, by dsimp only; rw [hbu], by dsimp only; rw [hbd], id⟩
  · intro v hv
    refine ⟨by simp [Mem.step, hv], by simp [Mem.step, hv], by simp [Mem.step, hv]⟩
  · have hra : u ∈ (s.c.user.store s.c.reg u).added := (hba u).2 (Or.inr rfl)
    have huin : u ∈ (s.c.user.store s.c.reg u).uids := by rw [mem_uids]; exact Or.inl hra
    refine ⟨⟨?_, ?_, ?_⟩, fun _ => hin, ?_, ?_, fun _ => ⟨n4, n6⟩, ?_, fun q => absurd huin q, ?_, ?_, fun _ => n5, fun _ => Or.inl rfl, fun _ => Or.inl huin, fun _ => Or.inl rfl, fun _ _ => Or.inl hra,
      ?_, fun _ => Or.inl rfl, fun _ => Or.inl rfl, Or.inl rfl⟩
    · dsimp only; rw [hbu]; tauto
    · dsimp only; rw [hbd]; tauto
    · dsimp only; rw [hbd]; tauto
    · dsimp only; rw [hbd]; tauto
    · intro _
      unfold St.content
      rw [if_pos hin]
      dsimp only
      rw [hgu]; exact hx
    · dsimp only; rw [hbu, hbd]; tauto
    · intro _; dsimp only; rw [hgu]; exact hx
    · intro q
      exact absurd (h.cexp u q).1 n1
    · intro _
      rw [mem_uids] at n5
      refine ⟨fun q => n5 (Or.inr (Or.inr q)), fun q => ?_⟩
      dsimp only at q
      rw [hbd] at q
      exact absurd q n2'.2.2

/-- `expire` on the client. -/
theorem Fit.expire (h : Fit r m s) (us : List Uid) : Fit r m (Remote.expire s us) := by
  have := h.setExp (ex := (s.c.expire us).2.expired) s.c.engine (by
    intro u hu
    rw [(expire_exact s.c us u).1] at hu
    rw [mem_uids]
    refine ⟨hu.1, ?_⟩
    rcases hu.2 with q | q
    · have := (h.cexp u q).2
      rw [mem_uids] at this; exact this
    · tauto)
  exact this

end Osp.Clients
