import Verif.Clients.Steps
/-!
# Reading, changing and deleting objects of one of several clients
-/
namespace Osp.Clients
open Osp.Sess Osp.Sync Osp.Remote

variable {r : Uid} {m : Mem} {s : RSt} {P : Params}

theorem slot_place {t : St} (h : t.root = some r) (u : Uid) : t.slot u = place r u := slot_root h u

/-- Reading an expired object. -/
theorem Fit.refreshed (h : Fit r m s) {u : Uid} (hx : u ∈ s.c.expired) {c' t' : St} (e : ReadEffect s.c s.t u c' t') :
    Fit r m ⟨c', t'⟩ ∧ ((m.changed u ∧ u ∈ c'.reg ∧ c'.g u = s.c.g u) ∨ (¬ m.changed u ∧ shown ⟨c', t'⟩ u = asObject (s.t.db (place r u)))) := by
  obtain ⟨hh, hn⟩ := h.cexp u hx
  obtain ⟨htr, htg⟩ := h.inT hh hn
  have hu0 : u ≠ 0 := by rintro rfl; exact h.zero.2.2.1 hh
  have hfull := h.full u hh
  have hsl : s.t.slot u = place r u := slot_place h.troot u
  have hch : m.changed u → u ∈ s.t.user.uids := by
    intro q
    rcases h.ch2 u q with q | q | q
    · exact absurd q hn
    · exact q
    · exact absurd hh q.2
  have hpend : u ∈ s.t.user.uids → u ∈ c'.reg ∧ c'.g u = s.c.g u := by
    intro hp
    have := e.pending hp (fun q => h.texp u q hp)
    exact ⟨this.1, this.2.trans htg⟩
  have hfound := e.found
  have hgone := e.gone
  rw [hsl] at hfound hgone
  have hcase : (m.changed u ∧ u ∈ c'.reg ∧ c'.g u = s.c.g u) ∨ (¬ m.changed u ∧ shown ⟨c', t'⟩ u = asObject (s.t.db (place r u))) := by
    by_cases hp : u ∈ s.t.user.uids
    · exact Or.inl ⟨h.ch1 u (Or.inr hp), hpend hp⟩
    · refine Or.inr ⟨fun q => hp (hch q), ?_⟩
      by_cases hd : s.t.db (place r u) = ∅
      · rw [shown_neg (by exact hgone hp hd)]
        unfold asObject
        rw [if_pos hd]
      · obtain ⟨q1, q2⟩ := hfound hp hd
        rw [shown_pos (by exact q1)]
        unfold asObject
        rw [if_neg hd]
        exact congrArg some q2
  refine ⟨?_, hcase⟩
  have hnu : u ∉ c'.user.uids := by rw [e.user]; exact hn
  have hsu := e.synced.same u hnu
  have hcu : u ∈ c'.reg → c'.g u ≠ ∅ := by
    intro hr
    by_cases hp : u ∈ s.t.user.uids
    · rw [(hpend hp).2]; exact hfull
    · by_cases hd : s.t.db (place r u) = ∅
      · exact absurd hr (hgone hp hd)
      · rw [(hfound hp hd).2]; exact hd
  have hroot : t'.root = some r := e.troot.trans h.troot
  have hru : r = u → u ∈ c'.reg := by
    intro q
    by_cases hp : u ∈ s.t.user.uids
    · exact (hpend hp).1
    · refine (hfound hp ?_).1
      unfold place
      rw [if_pos q.symm]
      exact h.rdb (by rw [q]; exact hp)
  have hused : m.used u := by
    by_contra q; exact (h.new u q).1 hh
  have key : ∀ (p : Uid → Prop), p u → (∀ v, v ≠ u → p v) → ∀ v, p v := by
    intro p hp hq v
    by_cases hv : v = u
    · subst hv; exact hp
    · exact hq v hv
  refine ⟨e.synced, e.croot.trans h.croot, hroot, ?_, ?_, ?_, ?_, ?_, ?_, ?_, ?_, ?_, ?_, ?_, ?_, ?_, h.frch, h.used, ?_⟩
  · by_cases hur : r = u
    · rw [hur]; exact hru hur
    · exact (e.mine r hur).1.2 h.cr
  · by_cases hur : r = u
    · rw [hur]; exact hsu.1.1 (hru hur)
    · exact (e.others r hur).1.2 h.tr
  · exact key _ hcu fun v hv => by
      show v ∈ c'.reg → c'.g v ≠ ∅
      rw [(e.mine v hv).1, (e.mine v hv).2.1]; exact h.full v
  · obtain ⟨z1, z2, z3, z4⟩ := h.zero
    have h0 : (0 : Uid) ≠ u := fun q => hu0 q.symm
    refine ⟨?_, ?_, ?_, ?_⟩
    · show 0 ∉ t'.reg
      rw [(e.others 0 h0).1]; exact z1
    · show 0 ∉ t'.user.uids
      rw [e.tuser]; exact z2
    · show 0 ∉ c'.reg
      rw [(e.mine 0 h0).1]; exact z3
    · show 0 ∉ c'.user.uids
      rw [e.user]; exact z4
  · intro v hv
    obtain ⟨q1, q2⟩ := e.cexp v hv
    refine ⟨q1, ?_⟩
    show v ∉ c'.user.uids
    rw [e.user]
    exact fun q => (h.cexp v (q2 q)).2 q
  · intro v hv
    show v ∉ t'.user.uids
    rw [e.tuser]
    exact fun q => h.texp v (e.texp v hv q) q
  · show ∀ v ∈ c'.user.added, v ∉ t'.user.uids
    rw [e.tuser, e.user]; exact h.cadd
  · show r ∉ t'.user.uids → t'.db 0 ≠ ∅
    rw [e.tuser, e.db]; exact h.rdb
  · show ∀ v, v ∈ c'.user.uids ∨ v ∈ t'.user.uids → _
    rw [e.tuser, e.user]; exact h.ch1
  · show ∀ v, _ → v ∈ c'.user.uids ∨ v ∈ t'.user.uids ∨ (_ ∧ v ∉ c'.reg)
    rw [e.tuser, e.user]
    exact key _ (fun q => Or.inr (Or.inl (hch q))) fun v hv => by rw [(e.mine v hv).1]; exact h.ch2 v
  · show ∀ v, v ∈ c'.user.added ∨ v ∈ t'.user.added → _
    rw [e.tuser, e.user]; exact h.fr1
  · show ∀ v, _ → v ∈ c'.reg → v ∈ c'.user.added ∨ v ∈ t'.user.added
    rw [e.tuser, e.user]
    exact key _ (fun q _ => h.fr2 u q hh) fun v hv => by rw [(e.mine v hv).1]; exact h.fr2 v
  · show ∀ v, _ → v ∉ t'.user.deleted ∧ (v ∈ c'.user.deleted → v ∈ t'.user.added)
    rw [e.tuser, e.user]; exact h.fr3
  · show ∀ v, _ → v ∉ c'.reg ∧ v ∉ c'.user.uids ∧ c'.g v = ∅ ∧ v ∉ t'.reg ∧ v ∉ t'.user.uids ∧ t'.g v = ∅
    rw [e.tuser, e.user]
    exact key _ (fun q => absurd hused q) fun v hv => by
      rw [(e.others v hv).1, (e.others v hv).2, (e.mine v hv).1, (e.mine v hv).2.1]; exact h.new v

/-- Reading. -/
theorem Fit.read (hT : HasType P) (h : Fit r m s) (u : Uid) :
    (Remote.read P s u).1 = .ok () ∧ Fit r m (Remote.read P s u).2 ∧ u ∉ (Remote.read P s u).2.c.expired ∧ (Remote.read P s u).2.t.db = s.t.db ∧
      (∃ y, MayRead r m s u y ∧ shown (Remote.read P s u).2 = Function.update (shown s) u y) ∧
      (u ∈ s.c.expired → ¬ m.changed u → shown (Remote.read P s u).2 u = asObject (s.t.db (place r u))) := by
  by_cases hx : u ∈ s.c.expired
  · obtain ⟨hh, hn⟩ := h.cexp u hx
    obtain ⟨htr, htg⟩ := h.inT hh hn
    obtain ⟨rs, c', t', e1, e2, -⟩ := read_refreshes hT h.sync (by rw [h.croot]; simp) (by rw [h.troot]; simp) hh hx hn (by rw [htg]; exact h.full u hh)
      (fun q1 q2 => h.texp u q2 q1)
    have hr : Remote.read P s u = (.ok (), ⟨c', t'⟩) := by
      unfold Remote.read
      rw [show (fetch P) = fun us t => t.load P us from rfl, e1]
      rfl
    rw [hr]
    obtain ⟨k1, k2⟩ := h.refreshed hx e2
    refine ⟨rfl, k1, e2.fresh, e2.db, ⟨shown ⟨c', t'⟩ u, ?_, ?_⟩, fun _ hc => ?_⟩
    · rcases k2 with ⟨-, q1, q2⟩ | ⟨q1, q2⟩
      · left
        rw [shown_pos (by exact q1), shown_pos hh]
        exact congrArg some q2
      · exact Or.inr ⟨q1, by rw [shown_pos hh]; simp, q2⟩
    · exact shown_update (fun v hv => ⟨(e2.mine v hv).1, (e2.mine v hv).2.1⟩) rfl
    · rcases k2 with ⟨q, -⟩ | ⟨-, q⟩
      · exact absurd q hc
      · exact q
  · have hr : Remote.read P s u = (.ok (), s) := by
      unfold Remote.read Sync.read
      rw [if_neg hx]
      rfl
    rw [hr]
    exact ⟨rfl, h, hx, rfl, ⟨shown s u, Or.inl rfl, (Function.update_eq_self _ _).symm⟩, fun q => absurd q hx⟩

theorem MayRead.stays {u : Uid} {y : Option Content} (h : MayRead r m s u y) (hu : shown s u ≠ none) (hd : m.changed u ∨ s.t.db (place r u) ≠ ∅) : ∃ z, y = some z := by
  rcases h with h | ⟨h1, h2, h3⟩
  · rw [h]; exact Option.ne_none_iff_exists'.1 hu
  · refine ⟨s.t.db (place r u), h3.trans ?_⟩
    unfold asObject
    rw [if_neg (hd.resolve_left h1)]

/-- Changing an object. -/
theorem Fit.modify (hT : HasType P) (h : Fit r m s) {u : Uid} {f : Content → Content} (hu : shown s u ≠ none) (hd : m.changed u ∨ s.t.db (place r u) ≠ ∅)
    (hf : ∀ y, MayRead r m s u (some y) → f y ≠ ∅) (res : Except PyErr (List (Option Uid))) :
    (Remote.modify P s u f).1 = .ok () ∧ Fit r (m.step (.modify u f) res) (Remote.modify P s u f).2 ∧ Effect r m s (.modify u f) (Remote.modify P s u f).2 := by
  obtain ⟨h1, h2, h3, h4, ⟨y, hy, hsy⟩, -⟩ := h.read hT u
  obtain ⟨z, rfl⟩ := hy.stays hu hd
  have hfz := hf z hy
  show _ ∧ _ ∧ (∃ y, _ ∧ _) ∧ _
  unfold Remote.modify
  generalize Remote.read P s u = q at h1 h2 h3 h4 hsy
  obtain ⟨rr, s'⟩ := q
  dsimp only at h1 h2 h3 h4 hsy
  rw [h1]
  dsimp only
  have hs := h2.sync
  have hsu : shown s' u = some z := by rw [hsy, Function.update_self]
  have hreg : u ∈ s'.c.reg := shown_some (by rw [hsu]; simp)
  have hgz : s'.c.g u = z := by
    rw [shown_pos hreg] at hsu
    exact Option.some.inj hsu
  rw [if_pos hreg, notifyUpdate_eq, buf_user (by exact hs.cctx)]
  dsimp only
  have hnd : u ∉ s'.c.user.deleted := fun q => hs.cbuf.dead u q hreg
  rw [if_neg hnd]
  have hset : (St.setBuf { s'.c with g := Function.update s'.c.g u (f (s'.c.g u)) } (s'.c.user.notifyUpdate u)) =
      { s'.c with g := Function.update s'.c.g u (f (s'.c.g u)), user := s'.c.user.notifyUpdate u } := by
    unfold St.setBuf
    simp only [hs.cctx]
  rw [hset]
  have hba : (s'.c.user.notifyUpdate u).added = s'.c.user.added := by
    unfold Buf.notifyUpdate; split
    · rfl
    · split <;> rfl
  have hbd : (s'.c.user.notifyUpdate u).deleted = s'.c.user.deleted := by
    unfold Buf.notifyUpdate; split
    · rfl
    · split <;> rfl
  have hbu : ∀ v, v ∈ (s'.c.user.notifyUpdate u).updated ↔ v ∈ s'.c.user.updated ∨ (v = u ∧ u ∉ s'.c.user.added) := by
    intro v
    unfold Buf.notifyUpdate
    rw [if_neg hnd]
    split
    · simp only [List.mem_append, List.mem_singleton]; tauto
    · rename_i k
      constructor
      · exact Or.inl
      · rintro (q | ⟨rfl, q⟩)
        · exact q
        · by_contra q'; exact k ⟨q, q'⟩
  have hin : u ∈ (s'.c.user.notifyUpdate u).uids := by
    rw [mem_uids, hba, hbu]; tauto
  have hgu : Function.update s'.c.g u (f (s'.c.g u)) u = f z := by rw [Function.update_self, hgz]
  have hdj := hs.cbuf.disj u
  have hu0 : u ≠ 0 := by rintro rfl; exact h2.zero.2.2.1 hreg
  have hused : m.used u := by by_contra q; exact (h2.new u q).1 hreg
  refine ⟨rfl, ?_, ⟨z, hy, ?_⟩, h4⟩
  · refine h2.change hu0 (m' := m.step (.modify u f) res) rfl rfl (by rw [hbd]; exact hs.nodup) ?_ ?_ (fun _ => hreg) ?_
    · intro v hv
      refine ⟨Iff.rfl, by simp [hv], rfl, by dsimp only; rw [hba], by dsimp only; rw [hbu]; tauto, by dsimp only; rw [hbd], id⟩
    · intro v hv
      exact ⟨by simp [Mem.step, hv], Iff.rfl, Iff.rfl⟩
    · refine ⟨?_, fun _ => hreg, ?_, ?_, ?_, ?_, fun q => absurd hin q, ?_, fun q => absurd q h3, ?_, fun _ => Or.inl rfl, fun _ => Or.inl hin, ?_, ?_, ?_, fun _ => Or.inl rfl, fun _ => hused, hused⟩
      · dsimp only; rw [hba, hbd, hbu]; tauto
      · dsimp only; rw [hbd]; exact fun q => absurd q hnd
      · intro _
        unfold St.content
        rw [if_pos hreg]
        dsimp only
        rw [hgu]; exact hfz
      · dsimp only; rw [hba]; exact hs.fresh u
      · dsimp only
        rw [hbu, hbd]
        rintro ((q | ⟨-, q⟩) | q)
        · exact hs.known u (Or.inl q)
        · by_cases hup : u ∈ s'.c.user.updated
          · exact hs.known u (Or.inl hup)
          · exact (h2.inT hreg (by rw [mem_uids]; tauto)).1
        · exact absurd q hnd
      · intro _; dsimp only; rw [hgu]; exact hfz
      · dsimp only; rw [hba]; exact h2.cadd u
      · dsimp only; rw [hba]; exact h2.fr1 u
      · dsimp only; rw [hba]; exact h2.fr2 u
      · dsimp only; rw [hbd]; exact h2.fr3 u
  · have := shown_update (s := s') (s' := ⟨{ s'.c with g := Function.update s'.c.g u (f (s'.c.g u)), user := s'.c.user.notifyUpdate u }, s'.t⟩) (u := u) (y := some (f z))
      (fun v hv => ⟨Iff.rfl, by simp [hv]⟩) ((shown_pos (by exact hreg)).trans (by dsimp only; rw [hgu]))
    rw [this, hsy, Function.update_idem]

set_option maxHeartbeats 1000000 in
/-- Deleting an object. -/
theorem Fit.delete (hT : HasType P) (h : Fit r m s) {u : Uid} (hu : shown s u ≠ none) (hd : m.changed u ∨ s.t.db (place r u) ≠ ∅) (hr : u ≠ r) (res : Except PyErr (List (Option Uid))) :
    (Remote.delete P s u).1 = .ok () ∧ Fit r (m.step (.delete u) res) (Remote.delete P s u).2 ∧ Effect r m s (.delete u) (Remote.delete P s u).2 := by
  obtain ⟨h1, h2, h3, h4, ⟨y, hy, hsy⟩, -⟩ := h.read hT u
  obtain ⟨z, rfl⟩ := hy.stays hu hd
  show _ ∧ _ ∧ _ ∧ _
  unfold Remote.delete
  generalize Remote.read P s u = q at h1 h2 h3 h4 hsy
  obtain ⟨rr, s'⟩ := q
  dsimp only at h1 h2 h3 h4 hsy
  rw [h1]
  dsimp only
  have hs := h2.sync
  have hsu : shown s' u = some z := by rw [hsy, Function.update_self]
  have hreg : u ∈ s'.c.reg := shown_some (by rw [hsu]; simp)
  unfold St.deleteTriples
  rw [if_neg (by simpa using hreg), notifyDelete_eq, buf_user (by exact hs.cctx)]
  dsimp only
  have hset : (St.setBuf { s'.c with reg := del s'.c.reg u, det := Function.update s'.c.det u (P.typePart (s'.c.g u)), g := Function.update s'.c.g u ∅ } (s'.c.user.notifyDelete u)) =
      { s'.c with reg := del s'.c.reg u, det := Function.update s'.c.det u (P.typePart (s'.c.g u)), g := Function.update s'.c.g u ∅, user := s'.c.user.notifyDelete u } := by
    unfold St.setBuf
    simp only [hs.cctx]
  rw [hset]
  have hdj := hs.cbuf.disj u
  have hnd : u ∉ s'.c.user.deleted := fun q => hs.cbuf.dead u q hreg
  have hba : ∀ v, v ∈ (s'.c.user.notifyDelete u).added ↔ v ∈ s'.c.user.added ∧ v ≠ u := by
    intro v
    unfold Buf.notifyDelete
    split
    · exact mem_del ..
    · rename_i k
      have : v ∈ s'.c.user.added → v ≠ u := by rintro q rfl; exact k q
      split
      · dsimp only; tauto
      · dsimp only; tauto
  have hbu : ∀ v, v ∈ (s'.c.user.notifyDelete u).updated ↔ v ∈ s'.c.user.updated ∧ v ≠ u := by
    intro v
    unfold Buf.notifyDelete
    split
    · have : v ∈ s'.c.user.updated → v ≠ u := by rintro q rfl; tauto
      dsimp only; tauto
    · split
      · exact mem_del ..
      · have : v ∈ s'.c.user.updated → v ≠ u := by rintro q rfl; tauto
        dsimp only; tauto
  have hbd : ∀ v, v ∈ (s'.c.user.notifyDelete u).deleted ↔ v ∈ s'.c.user.deleted ∨ (v = u ∧ u ∉ s'.c.user.added) := by
    intro v
    unfold Buf.notifyDelete
    split
    · dsimp only; tauto
    · split
      · dsimp only; rw [mem_ins]; tauto
      · dsimp only
        rw [List.mem_append, List.mem_singleton]; tauto
  have hnodup : (s'.c.user.notifyDelete u).deleted.Nodup := by
    unfold Buf.notifyDelete
    have happ : (s'.c.user.deleted ++ [u]).Nodup := by
      rw [List.nodup_append]
      refine ⟨hs.nodup, by simp, ?_⟩
      intro a ha b hb
      rw [List.mem_singleton] at hb
      subst hb
      rintro rfl; exact hnd ha
    split
    · exact hs.nodup
    · split
      · dsimp only; unfold ins; rw [if_neg hnd]; exact happ
      · exact happ
  have hnr : u ∉ del s'.c.reg u := fun q => ((mem_del ..).1 q).2 rfl
  have hu0 : u ≠ 0 := by rintro rfl; exact h2.zero.2.2.1 hreg
  have hused : m.used u := by by_contra q; exact (h2.new u q).1 hreg
  refine ⟨rfl, ?_, ?_, h4⟩
  · refine h2.change hu0 (m' := m.step (.delete u) res) rfl rfl hnodup ?_ ?_ (fun q => absurd q hr) ?_
    · intro v hv
      refine ⟨by dsimp only; rw [mem_del]; exact ⟨And.left, fun q => ⟨q, hv⟩⟩, by simp [hv], by simp [hv], by dsimp only; rw [hba]; exact ⟨And.left, fun q => ⟨q, hv⟩⟩, by dsimp only; rw [hbu]; exact ⟨And.left, fun q => ⟨q, hv⟩⟩,
        by dsimp only; rw [hbd]; exact ⟨fun q => q.resolve_right fun k => hv k.1, Or.inl⟩, id⟩
    · intro v hv
      exact ⟨by simp [Mem.step, hv], Iff.rfl, Iff.rfl⟩
    · refine ⟨?_, ?_, fun _ => hnr, ?_, ?_, ?_, ?_, fun q => absurd q hnr, fun q => absurd q h3, ?_, fun _ => Or.inl rfl, ?_, ?_, fun _ q => absurd q hnr, ?_, fun _ => Or.inl rfl, fun _ => hused, hused⟩
      · dsimp only; rw [hba, hbu, hbd]; tauto
      · dsimp only; rw [hba, hbu]; tauto
      · intro _
        unfold St.content
        rw [if_neg hnr]
        dsimp only
        rw [Function.update_self]
        exact hT _ (h2.full u hreg)
      · dsimp only; rw [hba]; tauto
      · dsimp only
        rw [hbu, hbd]
        rintro (q | q | ⟨-, q⟩)
        · exact absurd rfl q.2
        · exact absurd q hnd
        · by_cases hup : u ∈ s'.c.user.updated
          · exact hs.known u (Or.inl hup)
          · exact (h2.inT hreg (by rw [mem_uids]; tauto)).1
      · rw [mem_uids]
        dsimp only
        rw [hba, hbu, hbd]
        intro q
        have ha : u ∈ s'.c.user.added := by tauto
        refine ⟨⟨fun k => absurd k hnr, fun k => absurd k (hs.fresh u ha).1⟩, fun k => absurd k hnr⟩
      · dsimp only; rw [hba]; tauto
      · intro _
        rw [mem_uids]
        dsimp only
        rw [hbd]
        by_cases ha : u ∈ s'.c.user.added
        · exact Or.inr (Or.inr ⟨h2.fr1 u (Or.inl ha), hnr⟩)
        · exact Or.inl (Or.inr (Or.inr (Or.inr ⟨rfl, ha⟩)))
      · dsimp only; rw [hba]
        rintro (q | q)
        · exact absurd rfl q.2
        · exact h2.fr1 u (Or.inr q)
      · intro q
        have q' : m.fresh u := q
        refine ⟨(h2.fr3 u q').1, ?_⟩
        dsimp only
        rw [hbd]
        rintro (k | ⟨-, k⟩)
        · exact absurd k hnd
        · exact (h2.fr2 u q' hreg).resolve_left k
  · have := shown_update (s := s') (s' := ⟨{ s'.c with reg := del s'.c.reg u, det := Function.update s'.c.det u (P.typePart (s'.c.g u)), g := Function.update s'.c.g u ∅, user := s'.c.user.notifyDelete u }, s'.t⟩)
      (u := u) (y := none) (fun v hv => ⟨by dsimp only; rw [mem_del]; exact ⟨And.left, fun q => ⟨q, hv⟩⟩, by simp [hv]⟩) (shown_neg (by exact hnr))
    rw [this, hsy, Function.update_idem]

end Osp.Clients
