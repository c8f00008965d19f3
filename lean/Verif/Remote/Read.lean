import Verif.Remote.Steps
/-!
# Reading, changing and deleting objects of a client session
-/
namespace Osp.Remote
open Osp.Sess Osp.Sync

variable {r : Uid} {m : View} {s : RSt} {P : Params}

/-- Reading an expired object. -/
theorem Good.refreshed (h : Good r m s) {u : Uid} (hx : u ∈ s.c.expired) {c' t' : St} (e : ReadEffect s.c s.t u c' t') : Good r m ⟨c', t'⟩ := by
  obtain ⟨hh, hn⟩ := h.cexp u hx
  obtain ⟨htr, htg⟩ := h.inT hh hn
  have hu0 : u ≠ 0 := has_nonzero h hh
  have hfull := h.full u hh
  have hcu : u ∈ c'.reg ∧ c'.g u = m.view u := by
    by_cases hp : u ∈ s.t.user.uids
    · have := e.pending hp (fun q => h.texp u q hp)
      exact ⟨this.1, this.2.trans htg⟩
    · have hst : s.t.db (s.t.slot u) = m.view u := by rw [h.db u hu0, ← h.clean u htr hp, htg]
      have := e.found hp (by rw [hst]; exact hfull)
      exact ⟨this.1, this.2.trans hst⟩
  have hnu : u ∉ c'.user.uids := by rw [e.user]; exact hn
  have hsu := e.synced.same u hnu
  have htu : u ∈ t'.reg ∧ t'.g u = m.view u := ⟨hsu.1.1 hcu.1, by rw [← hsu.2 hcu.1, hcu.2]⟩
  have hroot : t'.root = some r := e.troot.trans h.troot
  have key : ∀ (p : Uid → Prop), p u → (∀ v, v ≠ u → p v) → ∀ v, p v := by
    intro p hp hq v
    by_cases hv : v = u
    · subst hv; exact hp
    · exact hq v hv
  refine ⟨e.synced, e.croot.trans h.croot, hroot, h.hasr, ?_, ?_, ?_, h.full, ?_, ?_, ?_, ?_, ?_, ?_, ?_, ?_, h.rsub, ?_, ?_, ?_, h.out, ?_, ?_⟩
  · by_cases hur : r = u
    · rw [hur]; exact htu.1
    · exact (e.others r hur).1.2 h.tr
  · exact key _ ⟨fun _ => hh, fun _ => hcu.1⟩ fun v hv => by
      show v ∈ c'.reg ↔ m.has v
      rw [(e.mine v hv).1]; exact h.has v
  · exact key _ (fun _ => hcu.2) fun v hv => by
      show m.has v → c'.g v = _
      rw [(e.mine v hv).2.1]; exact h.view v
  · exact key _ (fun q => absurd hh q) fun v hv => by
      show _ → c'.g v = _
      rw [(e.mine v hv).2.1]; exact h.unreg v
  · intro v hv
    show t'.db (t'.slot v) = _
    rw [e.db, slot_root hroot, ← slot_root h.troot]; exact h.db v hv
  · obtain ⟨z1, z2, z3, z4⟩ := h.zero
    refine ⟨?_, ?_, z3, ?_⟩
    · show 0 ∉ t'.reg
      rw [(e.others 0 (fun q => hu0 q.symm)).1]; exact z1
    · show 0 ∉ t'.user.uids
      rw [e.tuser]; exact z2
    · show 0 ∉ c'.user.uids
      rw [e.user]; exact z4
  · intro v hv
    obtain ⟨q1, q2⟩ := e.cexp v hv
    refine ⟨?_, ?_⟩
    · by_cases hvu : v = u
      · rw [hvu]; exact hh
      · exact (h.has v).1 ((e.mine v hvu).1.1 q1)
    · show v ∉ c'.user.uids
      rw [e.user]
      exact fun q => (h.cexp v (q2 q)).2 q
  · intro v hv
    show v ∉ t'.user.uids
    rw [e.tuser]
    exact fun q => h.texp v (e.texp v hv q) q
  · show ∀ v ∈ t'.reg, v ∉ t'.user.uids → t'.g v = m.stored v
    rw [e.tuser]
    exact key _ (fun _ q => by rw [htu.2, ← htg]; exact h.clean u htr q) fun v hv => by
      rw [(e.others v hv).1, (e.others v hv).2]; exact h.clean v
  · show ∀ v ∈ t'.user.added, _
    rw [e.tuser]; exact h.tadd
  · show r ∈ t'.user.added → _
    rw [e.tuser]; exact h.radd
  · show ∀ v ∈ c'.user.added, _ ∧ v ∉ t'.user.uids
    rw [e.tuser, e.user]; exact h.cadd
  · show ∀ v, v ∈ c'.user.deleted ∨ v ∈ t'.user.deleted → _
    rw [e.tuser, e.user]; exact h.dead1
  · show ∀ v, m.dead v → _ ∧ _ ∧ _ ∧ (_ ∨ v ∈ c'.user.deleted ∨ v ∈ t'.user.deleted)
    rw [e.tuser, e.user]; exact h.dead2
  · show ∀ v, _ → v ∉ t'.reg → _ → _ → t'.g v = ∅
    exact key _ (fun _ q => absurd htu.1 q) fun v hv => by
      rw [(e.others v hv).1, (e.others v hv).2]; exact h.left v
  · show ∀ v, _ → v ∉ t'.reg ∧ t'.g v = ∅ ∧ v ∉ t'.user.uids ∧ _ ∧ v ∉ c'.user.uids ∧ _ ∧ _
    rw [e.tuser, e.user]
    exact key _ (fun q => absurd hh (h.new u q).2.2.2.1) fun v hv => by
      rw [(e.others v hv).1, (e.others v hv).2]; exact h.new v

/-- Reading. -/
theorem Good.read (hT : HasType P) (h : Good r m s) (u : Uid) :
    (Remote.read P s u).1 = .ok () ∧ Good r m (Remote.read P s u).2 ∧ u ∉ (Remote.read P s u).2.c.expired := by
  by_cases hx : u ∈ s.c.expired
  · obtain ⟨hh, hn⟩ := h.cexp u hx
    obtain ⟨htr, htg⟩ := h.inT hh hn
    obtain ⟨rs, c', t', e1, e2, -⟩ := read_refreshes hT h.sync (by rw [h.croot]; simp) (by rw [h.troot]; simp) ((h.has u).2 hh) hx hn (by rw [htg]; exact h.full u hh)
      (fun q1 q2 => h.texp u q2 q1)
    have hr : Remote.read P s u = (.ok (), ⟨c', t'⟩) := by
      unfold Remote.read
      rw [show (fetch P) = fun us t => t.load P us from rfl, e1]
      rfl
    rw [hr]
    exact ⟨rfl, h.refreshed hx e2, e2.fresh⟩
  · have hr : Remote.read P s u = (.ok (), s) := by
      unfold Remote.read Sync.read
      rw [if_neg hx]
      rfl
    rw [hr]
    exact ⟨rfl, h, hx⟩

/-- Changing an object. -/
theorem Good.modify (hT : HasType P) (h : Good r m s) {u : Uid} {f : Content → Content} (hu : m.has u) (hf : f (m.view u) ≠ ∅) (hr : u = r → m.first → m.stored r ⊆ f (m.view r)) :
    (Remote.modify P s u f).1 = .ok () ∧ Good r (m.step (.modify u f)) (Remote.modify P s u f).2 := by
  obtain ⟨h1, h2, h3⟩ := h.read hT u
  unfold Remote.modify
  generalize Remote.read P s u = q at h1 h2 h3
  obtain ⟨res, s'⟩ := q
  dsimp only at h1 h2 h3
  rw [h1]
  dsimp only
  clear h h1
  have hs := h2.sync
  have hreg := (h2.has u).2 hu
  rw [if_pos hreg, notifyUpdate_eq, buf_user (by exact hs.cctx)]
  dsimp only
  have hnd : u ∉ s'.c.user.deleted := fun q => hs.cbuf.dead u q hreg
  rw [if_neg hnd]
  refine ⟨rfl, ?_⟩
  have hset : (St.setBuf { s'.c with g := Function.update s'.c.g u (f (s'.c.g u)) } (s'.c.user.notifyUpdate u)) =
      { s'.c with g := Function.update s'.c.g u (f (s'.c.g u)), user := s'.c.user.notifyUpdate u } := by
    unfold St.setBuf
    simp only [hs.cctx]
  rw [hset]
  have hba : (s'.c.user.notifyUpdate u).added = s'.c.user.added := by
    unfold Buf.notifyUpdate; split
    · rfl
    · split <;> rfl
  have hbd : (s'.c.user.notifyUpdate u).deleted = s'.c.user.deleted := by
    unfold Buf.notifyUpdate; split
    · rfl
    · split <;> rfl
  have hbu : ∀ v, v ∈ (s'.c.user.notifyUpdate u).updated ↔ v ∈ s'.c.user.updated ∨ (v = u ∧ u ∉ s'.c.user.added) := by
    intro v
    unfold Buf.notifyUpdate
    rw [if_neg hnd]
    split
    · simp only [List.mem_append, List.mem_singleton]; tauto
    · rename_i k
      constructor
      · exact Or.inl
      · rintro (q | ⟨rfl, q⟩)
        · exact q
        · by_contra q'; exact k ⟨q, q'⟩
  have hin : u ∈ (s'.c.user.notifyUpdate u).uids := by
    rw [mem_uids, hba, hbu]; tauto
  have hgu : Function.update s'.c.g u (f (s'.c.g u)) u = f (m.view u) := by rw [Function.update_self, h2.view u hu]
  have hvu : (m.step (.modify u f)).view u = f (m.view u) := Function.update_self _ _ _
  have hd := hs.cbuf.disj u
  have hdead : ¬ m.dead u := fun q => (h2.dead2 u q).1 hu
  refine h2.change (has_nonzero h2 hu) (m' := m.step (.modify u f)) rfl rfl (by rw [hbd]; exact hs.nodup) ?_ ?_ rfl rfl ?_ ?_
  · intro v hv
    refine ⟨Iff.rfl, by simp [hv], rfl, by dsimp only; rw [hba], by dsimp only; rw [hbu]; tauto, by dsimp only; rw [hbd], id⟩
  · intro v hv
    exact ⟨by simp [View.step, hv], Iff.rfl, Iff.rfl, Iff.rfl⟩
  · intro hur
    refine ⟨hu, fun hfi => ?_⟩
    rw [hvu]
    subst hur
    exact hr rfl hfi
  · refine ⟨?_, fun _ => hreg, ?_, ?_, ?_, ?_, fun q => absurd hin q, ⟨fun _ => hu, fun _ => hreg⟩, ?_, ?_, fun q => absurd hu q, fun q => absurd q h3, ?_, ?_, fun q => absurd q hdead, fun q => absurd hu q, ?_, ?_⟩
    · dsimp only; rw [hba, hbd, hbu]; tauto
    · dsimp only; rw [hbd]; exact fun q => absurd q hnd
    · intro _
      unfold St.content
      rw [if_pos hreg]
      dsimp only
      rw [hgu]; exact hf
    · dsimp only; rw [hba]; exact hs.fresh u
    · dsimp only
      rw [hbu, hbd]
      rintro ((q | ⟨-, q⟩) | q)
      · exact hs.known u (Or.inl q)
      · by_cases hup : u ∈ s'.c.user.updated
        · exact hs.known u (Or.inl hup)
        · exact (h2.inT hu (by rw [mem_uids]; tauto)).1
      · exact absurd q hnd
    · intro _; dsimp only; rw [hgu, hvu]
    · intro _; rw [hvu]; exact hf
    · dsimp only; rw [hba]; exact h2.cadd u
    · dsimp only; rw [hbd]; exact h2.dead1 u
    · intro q1 _ q2
      dsimp only at q1 ⊢
      by_cases ha : u ∈ s'.c.user.added
      · exact (hs.fresh u ha).2
      · exfalso
        by_cases hup : u ∈ s'.c.user.updated
        · exact q1 (hs.known u (Or.inl hup))
        · exact q1 (h2.inT hu (by rw [mem_uids]; tauto)).1
    · intro q; exact absurd hu (h2.new u q).2.2.2.1

/-- Deleting an object. -/
theorem Good.delete (hT : HasType P) (h : Good r m s) {u : Uid} (hu : m.has u) (hr : u ≠ r) :
    (Remote.delete P s u).1 = .ok () ∧ Good r (m.step (.delete u)) (Remote.delete P s u).2 := by
  obtain ⟨h1, h2, h3⟩ := h.read hT u
  unfold Remote.delete
  generalize Remote.read P s u = q at h1 h2 h3
  obtain ⟨res, s'⟩ := q
  dsimp only at h1 h2 h3
  rw [h1]
  dsimp only
  clear h h1
  have hs := h2.sync
  have hreg := (h2.has u).2 hu
  unfold St.deleteTriples
  rw [if_neg (by simpa using hreg), notifyDelete_eq, buf_user (by exact hs.cctx)]
  dsimp only
  refine ⟨rfl, ?_⟩
  have hset : (St.setBuf { s'.c with reg := del s'.c.reg u, det := Function.update s'.c.det u (P.typePart (s'.c.g u)), g := Function.update s'.c.g u ∅ } (s'.c.user.notifyDelete u)) =
      { s'.c with reg := del s'.c.reg u, det := Function.update s'.c.det u (P.typePart (s'.c.g u)), g := Function.update s'.c.g u ∅, user := s'.c.user.notifyDelete u } := by
    unfold St.setBuf
    simp only [hs.cctx]
  rw [hset]
  have hd := hs.cbuf.disj u
  have hnd : u ∉ s'.c.user.deleted := fun q => hs.cbuf.dead u q hreg
  have hba : ∀ v, v ∈ (s'.c.user.notifyDelete u).added ↔ v ∈ s'.c.user.added ∧ v ≠ u := by
    intro v
    unfold Buf.notifyDelete
    split
    · exact mem_del ..
    · rename_i k
      have : v ∈ s'.c.user.added → v ≠ u := by rintro q rfl; exact k q
      split
      · dsimp only; tauto
      · dsimp only; tauto
  have hbu : ∀ v, v ∈ (s'.c.user.notifyDelete u).updated ↔ v ∈ s'.c.user.updated ∧ v ≠ u := by
    intro v
    unfold Buf.notifyDelete
    split
    · have : v ∈ s'.c.user.updated → v ≠ u := by rintro q rfl; tauto
      dsimp only; tauto
    · split
      · exact mem_del ..
      · have : v ∈ s'.c.user.updated → v ≠ u := by rintro q rfl; tauto
        dsimp only; tauto
  have hbd : ∀ v, v ∈ (s'.c.user.notifyDelete u).deleted ↔ v ∈ s'.c.user.deleted ∨ (v = u ∧ u ∉ s'.c.user.added) := by
    intro v
    unfold Buf.notifyDelete
    split
    · dsimp only; tauto
    · split
      · dsimp only; rw [mem_ins]; tauto
      · dsimp only
        rw [List.mem_append, List.mem_singleton]; tauto
  have hnodup : (s'.c.user.notifyDelete u).deleted.Nodup := by
    unfold Buf.notifyDelete
    have happ : (s'.c.user.deleted ++ [u]).Nodup := by
      rw [List.nodup_append]
      refine ⟨hs.nodup, by simp, ?_⟩
      intro a ha b hb
      rw [List.mem_singleton] at hb
      subst hb
      rintro rfl; exact hnd ha
    split
    · exact hs.nodup
    · split
      · dsimp only; unfold ins; rw [if_neg hnd]; exact happ
      · exact happ
  have hnh : ¬ (m.step (.delete u)).has u := fun q => q.2 rfl
  have hdead : (m.step (.delete u)).dead u := Or.inl rfl
  have hused : m.used u := by
    by_contra q; exact (h2.new u q).2.2.2.1 hu
  have hnr : u ∉ del s'.c.reg u := fun q => ((mem_del ..).1 q).2 rfl
  refine h2.change (has_nonzero h2 hu) (m' := m.step (.delete u)) rfl rfl hnodup ?_ ?_ rfl rfl (fun q => absurd q hr) ?_
  · intro v hv
    refine ⟨by dsimp only; rw [mem_del]; tauto, by simp [hv], by simp [hv], by dsimp only; rw [hba]; tauto, by dsimp only; rw [hbu]; tauto, by dsimp only; rw [hbd]; tauto, id⟩
  · intro v hv
    exact ⟨by simp [View.step, hv], by simp [View.step, hv], Iff.rfl, by simp [View.step, hv]⟩
  · refine ⟨?_, ?_, fun _ => hnr, ?_, ?_, ?_, ?_, ⟨fun q => absurd q hnr, fun q => absurd q hnh⟩, fun q => absurd q hnh, fun q => absurd q hnh, ?_, fun q => absurd q h3, ?_, fun _ => hdead, ?_, fun _ q => absurd hdead q, fun _ q => absurd hdead q, ?_⟩
    · dsimp only; rw [hba, hbu, hbd]; tauto
    · dsimp only; rw [hba, hbu]; tauto
    · intro _
      unfold St.content
      rw [if_neg hnr]
      dsimp only
      rw [Function.update_self]
      exact hT _ (by rw [h2.view u hu]; exact h2.full u hu)
    · dsimp only; rw [hba]; tauto
    · dsimp only
      rw [hbu, hbd]
      rintro (q | q | ⟨-, q⟩)
      · exact absurd rfl q.2
      · exact absurd q hnd
      · by_cases hup : u ∈ s'.c.user.updated
        · exact hs.known u (Or.inl hup)
        · exact (h2.inT hu (by rw [mem_uids]; tauto)).1
    · rw [mem_uids]
      dsimp only
      rw [hba, hbu, hbd]
      intro q
      have ha : u ∈ s'.c.user.added := by tauto
      refine ⟨⟨fun k => absurd k hnr, fun k => absurd k (hs.fresh u ha).1⟩, fun k => absurd k hnr⟩
    · intro _; dsimp only; exact Function.update_self _ _ _
    · dsimp only; rw [hba]; tauto
    · intro _
      refine ⟨hnh, Function.update_self _ _ _, hused, ?_⟩
      dsimp only
      rw [hbd]
      by_cases ha : u ∈ s'.c.user.added
      · exact Or.inl (h2.cadd u ha).1
      · tauto
    · intro q; exact absurd hused q

end Osp.Remote
