import Verif.Remote.Spec
/-!
# The invariant of a client session in normal use
-/
namespace Osp.Remote
open Osp.Sess Osp.Sync

/-- Client, server and expectation in normal use. -/
structure Good (r : Uid) (m : View) (s : RSt) : Prop where
  sync : Synced s.c s.t
  croot : s.c.root = some r
  troot : s.t.root = some r
  hasr : m.has r
  tr : r ∈ s.t.reg
  has : ∀ u, u ∈ s.c.reg ↔ m.has u
  view : ∀ u, m.has u → s.c.g u = m.view u
  full : ∀ u, m.has u → m.view u ≠ ∅
  unreg : ∀ u, ¬ m.has u → s.c.g u = ∅
  db : ∀ u, u ≠ 0 → s.t.db (s.t.slot u) = m.stored u
  zero : 0 ∉ s.t.reg ∧ 0 ∉ s.t.user.uids ∧ ¬ m.has 0 ∧ 0 ∉ s.c.user.uids
  cexp : ∀ u ∈ s.c.expired, m.has u ∧ u ∉ s.c.user.uids
  texp : ∀ u ∈ s.t.expired, u ∉ s.t.user.uids
  clean : ∀ u ∈ s.t.reg, u ∉ s.t.user.uids → s.t.g u = m.stored u
  tadd : ∀ u ∈ s.t.user.added, u ≠ r → m.stored u = ∅
  radd : r ∈ s.t.user.added → m.first
  rsub : m.first → m.stored r ⊆ m.view r
  cadd : ∀ u ∈ s.c.user.added, m.stored u = ∅ ∧ u ∉ s.t.user.uids
  dead1 : ∀ u, u ∈ s.c.user.deleted ∨ u ∈ s.t.user.deleted → m.dead u
  dead2 : ∀ u, m.dead u → ¬ m.has u ∧ m.view u = ∅ ∧ m.used u ∧ (m.stored u = ∅ ∨ u ∈ s.c.user.deleted ∨ u ∈ s.t.user.deleted)
  out : ∀ u, u ≠ 0 → ¬ m.has u → ¬ m.dead u → m.view u = m.stored u
  left : ∀ u, u ≠ 0 → u ∉ s.t.reg → ¬ m.dead u → m.stored u ≠ ∅ → s.t.g u = ∅
  new : ∀ u, ¬ m.used u → u ∉ s.t.reg ∧ s.t.g u = ∅ ∧ u ∉ s.t.user.uids ∧ ¬ m.has u ∧ u ∉ s.c.user.uids ∧ m.stored u = ∅ ∧ m.view u = ∅

variable {r : Uid} {m : View} {s : RSt}

theorem slot_root {t : St} (h : t.root = some r) (u : Uid) : t.slot u = if u = r then 0 else u := by
  unfold St.slot
  rw [h]
  by_cases k : u = r
  · subst k; simp
  · rw [if_neg (by simpa using fun e => k e.symm), if_neg k]

theorem Good.shows (h : Good r m s) : Shows r m s :=
  ⟨h.has, fun u hu => h.view u ((h.has u).1 hu), fun u hu => by rw [← slot_root h.troot u]; exact h.db u hu⟩

theorem uids_empty (u : Uid) : u ∉ Buf.empty.uids := by simp [Buf.uids, Buf.empty]

/-- The invariant does not depend on the engine buffers. -/
theorem Good.engine (h : Good r m s) (e e' : Buf) : Good r m ⟨{ s.c with engine := e }, { s.t with engine := e' }⟩ :=
  ⟨⟨h.sync.cctx, h.sync.tctx, h.sync.cbuf, h.sync.nodup, h.sync.tbuf, h.sync.has, h.sync.fresh, h.sync.known, h.sync.same⟩,
    h.croot, h.troot, h.hasr, h.tr, h.has, h.view, h.full, h.unreg, h.db, h.zero, h.cexp, h.texp, h.clean, h.tadd, h.radd, h.rsub, h.cadd, h.dead1, h.dead2, h.out, h.left, h.new⟩

/-- The client's objects that were not changed since the last request are the server's. -/
theorem Good.inT (h : Good r m s) {u : Uid} (hu : m.has u) (hn : u ∉ s.c.user.uids) : u ∈ s.t.reg ∧ s.t.g u = m.view u := by
  have k := h.sync.same u hn
  have hr := (h.has u).2 hu
  exact ⟨k.1.1 hr, by rw [← k.2 hr, h.view u hu]⟩

set_option maxHeartbeats 1000000 in
/-- The request of a call that consumes the buffers arrives. -/
theorem Good.arrive (h : Good r m s) :
    deserialize .user (serialize s.c (some .user)).1 s.t = (.ok [], arrived s) ∧ Good r m ⟨{ s.c with user := .empty }, arrived s⟩ := by
  have hs := h.sync
  have hd : ∀ u ∈ s.c.user.deleted, u ∉ s.c.user.added ∧ u ∉ s.c.user.updated := fun u hu => ⟨fun k => (hs.cbuf.disj u).2.1 ⟨k, hu⟩, fun k => (hs.cbuf.disj u).2.2 ⟨k, hu⟩⟩
  have hbt : s.t.buf = s.t.user := buf_user hs.tctx
  obtain ⟨t', e, k⟩ := applyMsg_spec (C := s.c.content) (E := s.c.expired) (R := []) hs.nodup hd (by simp [objs]) (s := s.t) (by rw [hbt]; exact hs.tbuf) (by
    intro u hu hr
    rcases hu with hu | hu | hu | hu
    · rw [(hs.fresh u hu).2]; exact Finset.empty_subset _
    · exact absurd (hs.known u (Or.inl hu)) hr
    · exact absurd hu (by simp [objs])
    · exact absurd (hs.known u (Or.inr hu)) hr)
  rw [show s.c.user.updated ++ objs [] = s.c.user.updated from List.append_nil _] at k
  have hde : deserialize .user (serialize s.c (some .user)).1 s.t = (.ok [], t') := by
    rw [serialize_user hs.has]; exact e
  have ha : arrived s = t' := by unfold arrived; rw [hde]
  rw [ha]
  refine ⟨hde, ?_⟩
  obtain ⟨t1, e1, k1, -, -⟩ := server_receives hs
  rw [hde] at e1
  obtain rfl : t' = t1 := (Prod.mk.inj e1).2
  have hA : Agree s.c t' := agree_received hs k1
  have hA' : Agree { s.c with user := .empty } t' := hA
  have hbt' : t'.buf = t'.user := buf_user k1.ctx
  have ka := k.added
  have ku := k.updated
  have kd := k.deleted
  rw [hbt', hbt] at ka ku kd
  have hroot : t'.root = some r := by rw [k.frame.root (by rw [h.troot]; simp), h.troot]
  have hdis := hs.tbuf.disj
  -- which objects the server reports now
  have huid : ∀ u, u ∈ t'.user.uids → u ∈ s.t.user.uids ∨ u ∈ s.c.user.uids := by
    intro u hu
    rw [mem_uids] at hu ⊢
    rw [ka, ku, kd] at hu
    rw [mem_uids]
    tauto
  have huid' : ∀ u, u ∉ t'.user.uids → (u ∉ s.t.user.uids ∧ u ∉ s.c.user.uids) ∨ (u ∈ s.c.user.deleted) := by
    intro u hu
    rw [mem_uids] at hu ⊢
    rw [ka, ku, kd] at hu
    rw [mem_uids]
    have h1 := hs.known u
    have h2 := hs.fresh u
    have h3 := hdis u
    tauto
  refine ⟨synced_of_agree hA' hs.cctx k1.ctx rfl k1.ubuf, h.croot, hroot, h.hasr, (hA.1 r).1 ((h.has r).2 h.hasr), h.has, h.view, h.full, h.unreg, ?_, ?_, ?_, ?_, ?_, ?_, ?_, h.rsub, ?_, ?_, ?_, h.out, ?_, ?_⟩
  · intro u hu
    show t'.db (t'.slot u) = _
    rw [k.frame.db, slot_root hroot, ← slot_root h.troot]
    exact h.db u hu
  · obtain ⟨z1, z2, z3, z4⟩ := h.zero
    refine ⟨fun hz => ?_, fun hz => ?_, z3, uids_empty 0⟩
    · have := (k.reg 0).1 hz
      rw [mem_uids] at z4
      tauto
    · rcases huid 0 hz with q | q
      · exact z2 q
      · exact z4 q
  · intro u hu
    exact ⟨(h.cexp u hu).1, uids_empty u⟩
  · intro u hu
    have := (k.exp u).1 hu
    intro hx
    rcases huid u hx with q | q
    · rcases this.2.1 with q' | q'
      · exact h.texp u q' q
      · exact q'.2 q
    · rw [mem_uids] at q; exact this.2.2 q
  · intro u hu hn
    have hreg := (k.reg u).1 hu
    rcases huid' u hn with ⟨q1, q2⟩ | q
    · show t'.g u = _
      rw [k1.gOut u q2]
      rw [mem_uids] at q2
      exact h.clean u (by tauto) q1
    · exact absurd q hreg.2
  · intro u hu hur
    rcases ((ka u).1 hu).1 with q | ⟨q1, q2⟩
    · exact h.tadd u q hur
    · rcases q2 with q2 | q2
      · exact (h.cadd u q2).1
      · exact absurd (hs.known u (Or.inl q2)) q1
  · intro hr
    rcases ((ka r).1 hr).1 with q | ⟨q1, q2⟩
    · exact h.radd q
    · exact absurd h.tr q1
  · intro u hu; exact absurd hu (by simp [Buf.empty])
  · intro u hu
    rcases hu with hu | hu
    · exact absurd hu (by simp [Buf.empty])
    · rcases (kd u).1 hu with q | q
      · exact h.dead1 u (Or.inr q.1)
      · exact h.dead1 u (Or.inl q.1)
  · intro u hu
    obtain ⟨d1, d2, d3, d4⟩ := h.dead2 u hu
    refine ⟨d1, d2, d3, ?_⟩
    by_cases hst : m.stored u = ∅
    · exact Or.inl hst
    refine Or.inr (Or.inr ((kd u).2 ?_))
    have hreg : u ∉ s.c.reg := fun q => d1 ((h.has u).1 q)
    have hl := hs.cbuf.live u
    by_cases hcd : u ∈ s.c.user.deleted
    · refine Or.inr ⟨hcd, hs.known u (Or.inr hcd), fun q => ?_⟩
      by_cases hur : u = r
      · subst hur; exact d1 h.hasr
      · exact hst (h.tadd u q hur)
    · refine Or.inl ⟨?_, ?_⟩
      · tauto
      · tauto
  · intro u h0 hu hdead hst
    have hreg : ¬ m.has u := fun q => hu ((hA.1 u).1 ((h.has u).2 q))
    have hnc : u ∉ s.c.reg := fun q => hreg ((h.has u).1 q)
    have hl := hs.cbuf.live u
    have hdd := h.dead1 u
    have hn : u ∉ s.c.user.uids := by rw [mem_uids]; tauto
    show t'.g u = ∅
    rw [k1.gOut u hn]
    refine h.left u h0 (fun q => hu ?_) hdead hst
    rw [k.reg]
    rw [mem_uids] at hn
    tauto
  · intro u hu
    obtain ⟨n1, n2, n3, n4, n5, n6, n7⟩ := h.new u hu
    refine ⟨fun q => ?_, ?_, fun q => ?_, n4, uids_empty u, n6, n7⟩
    · have := (k.reg u).1 q
      rw [mem_uids] at n5
      tauto
    · show t'.g u = ∅
      rw [k1.gOut u n5]; exact n2
    · rcases huid u q with q | q
      · exact n3 q
      · exact n5 q

end Osp.Remote
