import Verif.Clients.Spec
/-!
# The invariant of one of several clients in normal use
-/
namespace Osp.Clients
open Osp.Sess Osp.Sync Osp.Remote

/-- Proof device; nothing in /repo: client, server and what the client did, in normal use. Nothing is said about how the contents in the session are related to the database, which others change. -/
structure Fit (r : Uid) (m : Mem) (s : RSt) : Prop where
  sync : Synced s.c s.t
  croot : s.c.root = some r
  troot : s.t.root = some r
  cr : r ∈ s.c.reg
  tr : r ∈ s.t.reg
  full : ∀ u ∈ s.c.reg, s.c.g u ≠ ∅
  zero : 0 ∉ s.t.reg ∧ 0 ∉ s.t.user.uids ∧ 0 ∉ s.c.reg ∧ 0 ∉ s.c.user.uids
  cexp : ∀ u ∈ s.c.expired, u ∈ s.c.reg ∧ u ∉ s.c.user.uids
  texp : ∀ u ∈ s.t.expired, u ∉ s.t.user.uids
  cadd : ∀ u ∈ s.c.user.added, u ∉ s.t.user.uids
  rdb : r ∉ s.t.user.uids → s.t.db 0 ≠ ∅
  ch1 : ∀ u, u ∈ s.c.user.uids ∨ u ∈ s.t.user.uids → m.changed u
  ch2 : ∀ u, m.changed u → u ∈ s.c.user.uids ∨ u ∈ s.t.user.uids ∨ (m.fresh u ∧ u ∉ s.c.reg)
  fr1 : ∀ u, u ∈ s.c.user.added ∨ u ∈ s.t.user.added → m.fresh u
  fr2 : ∀ u, m.fresh u → u ∈ s.c.reg → u ∈ s.c.user.added ∨ u ∈ s.t.user.added
  fr3 : ∀ u, m.fresh u → u ∉ s.t.user.deleted ∧ (u ∈ s.c.user.deleted → u ∈ s.t.user.added)
  frch : ∀ u, m.fresh u → m.changed u
  used : ∀ u, m.changed u → m.used u
  new : ∀ u, ¬ m.used u → u ∉ s.c.reg ∧ u ∉ s.c.user.uids ∧ s.c.g u = ∅ ∧ u ∉ s.t.reg ∧ u ∉ s.t.user.uids ∧ s.t.g u = ∅

variable {r : Uid} {m : Mem} {s : RSt}

theorem Fit.root0 (h : Fit r m s) : r ≠ 0 := by rintro rfl; exact h.zero.2.2.1 h.cr

/-- The database is changed by somebody else. -/
theorem Fit.other (h : Fit r m s) (db : Uid → Content) (hd : s.t.db 0 ≠ ∅ → db 0 ≠ ∅) : Fit r m ⟨s.c, { s.t with db := db }⟩ :=
  ⟨⟨h.sync.cctx, h.sync.tctx, h.sync.cbuf, h.sync.nodup, h.sync.tbuf, h.sync.has, h.sync.fresh, h.sync.known, h.sync.same⟩,
    h.croot, h.troot, h.cr, h.tr, h.full, h.zero, h.cexp, h.texp, h.cadd, fun k => hd (h.rdb k), h.ch1, h.ch2, h.fr1, h.fr2, h.fr3, h.frch, h.used, h.new⟩

/-- The invariant does not depend on the engine buffers. -/
theorem Fit.engine (h : Fit r m s) (e e' : Buf) : Fit r m ⟨{ s.c with engine := e }, { s.t with engine := e' }⟩ :=
  ⟨⟨h.sync.cctx, h.sync.tctx, h.sync.cbuf, h.sync.nodup, h.sync.tbuf, h.sync.has, h.sync.fresh, h.sync.known, h.sync.same⟩,
    h.croot, h.troot, h.cr, h.tr, h.full, h.zero, h.cexp, h.texp, h.cadd, h.rdb, h.ch1, h.ch2, h.fr1, h.fr2, h.fr3, h.frch, h.used, h.new⟩

/-- Only what is expired on the client changes. -/
theorem Fit.setExp (h : Fit r m s) {ex : List Uid} (e : Buf) (he : ∀ u ∈ ex, u ∈ s.c.reg ∧ u ∉ s.c.user.uids) : Fit r m ⟨{ s.c with engine := e, expired := ex }, s.t⟩ :=
  ⟨⟨h.sync.cctx, h.sync.tctx, h.sync.cbuf, h.sync.nodup, h.sync.tbuf, h.sync.has, h.sync.fresh, h.sync.known, h.sync.same⟩,
    h.croot, h.troot, h.cr, h.tr, h.full, h.zero, he, h.texp, h.cadd, h.rdb, h.ch1, h.ch2, h.fr1, h.fr2, h.fr3, h.frch, h.used, h.new⟩

/-- The client's objects that were not changed since the last request are the server's. -/
theorem Fit.inT (h : Fit r m s) {u : Uid} (hu : u ∈ s.c.reg) (hn : u ∉ s.c.user.uids) : u ∈ s.t.reg ∧ s.t.g u = s.c.g u := by
  have k := h.sync.same u hn
  exact ⟨k.1.1 hu, (k.2 hu).symm⟩

set_option maxHeartbeats 1000000 in
/-- The request of a call that consumes the buffers arrives. -/
theorem Fit.arrive (h : Fit r m s) :
    deserialize .user (serialize s.c (some .user)).1 s.t = (.ok [], arrived s) ∧ Fit r m ⟨{ s.c with user := .empty }, arrived s⟩ ∧ (arrived s).db = s.t.db := by
  have hs := h.sync
  have hd : ∀ u ∈ s.c.user.deleted, u ∉ s.c.user.added ∧ u ∉ s.c.user.updated := fun u hu => ⟨fun k => (hs.cbuf.disj u).2.1 ⟨k, hu⟩, fun k => (hs.cbuf.disj u).2.2 ⟨k, hu⟩⟩
  have hbt : s.t.buf = s.t.user := buf_user hs.tctx
  obtain ⟨t', e, k⟩ := applyMsg_spec (C := s.c.content) (E := s.c.expired) (R := []) hs.nodup hd (by simp [objs]) (s := s.t) (by rw [hbt]; exact hs.tbuf) (by
    intro u hu hr
    rcases hu with hu | hu | hu | hu
    · rw [(hs.fresh u hu).2]; exact Finset.empty_subset _
    · exact absurd (hs.known u (Or.inl hu)) hr
    · exact absurd hu (by simp [objs])
    · exact absurd (hs.known u (Or.inr hu)) hr)
  rw [show s.c.user.updated ++ objs [] = s.c.user.updated from List.append_nil _] at k
  have hde : deserialize .user (serialize s.c (some .user)).1 s.t = (.ok [], t') := by
    rw [serialize_user hs.has]; exact e
  have ha : arrived s = t' := by unfold arrived; rw [hde]
  rw [ha]
  refine ⟨hde, ?_, k.frame.db⟩
  obtain ⟨t1, e1, k1, -, -⟩ := server_receives hs
  rw [hde] at e1
  obtain rfl : t' = t1 := (Prod.mk.inj e1).2
  have hA : Agree s.c t' := agree_received hs k1
  have hA' : Agree { s.c with user := .empty } t' := hA
  have hbt' : t'.buf = t'.user := buf_user k1.ctx
  have ka := k.added
  have ku := k.updated
  have kd := k.deleted
  rw [hbt', hbt] at ka ku kd
  have hroot : t'.root = some r := by rw [k.frame.root (by rw [h.troot]; simp), h.troot]
  have hdis := hs.tbuf.disj
  have huid : ∀ u, u ∈ t'.user.uids → u ∈ s.t.user.uids ∨ u ∈ s.c.user.uids := by
    intro u hu
    rw [mem_uids] at hu ⊢
    rw [ka, ku, kd] at hu
    rw [mem_uids]
    tauto
  have huid' : ∀ u, u ∉ t'.user.uids → (u ∉ s.t.user.uids ∧ u ∉ s.c.user.uids) ∨ (u ∈ s.c.user.deleted ∧ u ∈ s.t.user.added) := by
    intro u hu
    rw [mem_uids] at hu
    by_cases c3 : u ∈ s.c.user.deleted
    · refine Or.inr ⟨c3, ?_⟩
      by_contra q
      exact hu (Or.inr (Or.inr ((kd u).2 (Or.inr ⟨c3, hs.known u (Or.inr c3), q⟩))))
    · have na : u ∉ s.t.user.added := fun q => hu (Or.inl ((ka u).2 ⟨Or.inl q, c3⟩))
      have nu : u ∉ s.t.user.updated := fun q => hu (Or.inr (Or.inl ((ku u).2 ⟨Or.inl q, c3⟩)))
      have c1 : u ∉ s.c.user.added := fun q => hu (Or.inl ((ka u).2 ⟨Or.inr ⟨(hs.fresh u q).1, Or.inl q⟩, c3⟩))
      have c2 : u ∉ s.c.user.updated := fun q => hu (Or.inr (Or.inl ((ku u).2 ⟨Or.inr ⟨hs.known u (Or.inl q), na, Or.inr q⟩, c3⟩)))
      have nd : u ∉ s.t.user.deleted := fun q => hu (Or.inr (Or.inr ((kd u).2 (Or.inl ⟨q, fun z => by rcases z with z | z | z; exacts [c1 z, c2 z, c3 z]⟩))))
      refine Or.inl ⟨fun q => ?_, fun q => ?_⟩
      · rw [mem_uids] at q; rcases q with q | q | q; exacts [na q, nu q, nd q]
      · rw [mem_uids] at q; rcases q with q | q | q; exacts [c1 q, c2 q, c3 q]
  refine ⟨synced_of_agree hA' hs.cctx k1.ctx rfl k1.ubuf, h.croot, hroot, h.cr, (hA.1 r).1 h.cr, h.full, ?_, ?_, ?_, ?_, ?_, ?_, ?_, ?_, ?_, ?_, h.frch, h.used, ?_⟩
  · obtain ⟨z1, z2, z3, z4⟩ := h.zero
    refine ⟨fun hz => z3 ((hA.1 0).2 hz), fun hz => ?_, z3, uids_empty 0⟩
    rcases huid 0 hz with q | q
    · exact z2 q
    · exact z4 q
  · intro u hu
    exact ⟨(h.cexp u hu).1, uids_empty u⟩
  · intro u hu
    have := (k.exp u).1 hu
    intro hx
    rcases huid u hx with q | q
    · rcases this.2.1 with q' | q'
      · exact h.texp u q' q
      · exact q'.2 q
    · rw [mem_uids] at q; exact this.2.2 q
  · intro u hu; exact absurd hu (by simp [Buf.empty])
  · intro hn
    rw [show t'.db = s.t.db from k.frame.db]
    rcases huid' r hn with q | q
    · exact h.rdb q.1
    · exact absurd h.cr (hs.cbuf.dead r q.1)
  · rintro u (hu | hu)
    · exact absurd hu (uids_empty u)
    · exact h.ch1 u ((huid u hu).symm)
  · intro u hu
    by_cases hx : u ∈ t'.user.uids
    · exact Or.inr (Or.inl hx)
    · refine Or.inr (Or.inr ?_)
      rcases huid' u hx with q | q
      · rcases h.ch2 u hu with k' | k' | k'
        · exact absurd k' q.2
        · exact absurd k' q.1
        · exact k'
      · exact ⟨h.fr1 u (Or.inr q.2), hs.cbuf.dead u q.1⟩
  · rintro u (hu | hu)
    · exact absurd hu (by simp [Buf.empty])
    · rcases ((ka u).1 hu).1 with q | ⟨q1, q2⟩
      · exact h.fr1 u (Or.inr q)
      · rcases q2 with q2 | q2
        · exact h.fr1 u (Or.inl q2)
        · exact absurd (hs.known u (Or.inl q2)) q1
  · intro u hf hu
    refine Or.inr ((ka u).2 ⟨?_, fun q => hs.cbuf.dead u q hu⟩)
    rcases h.fr2 u hf hu with q | q
    · exact Or.inr ⟨(hs.fresh u q).1, Or.inl q⟩
    · exact Or.inl q
  · intro u hf
    refine ⟨fun q => ?_, fun q => absurd q (by simp [Buf.empty])⟩
    obtain ⟨f1, f2⟩ := h.fr3 u hf
    rcases (kd u).1 q with q | q
    · exact f1 q.1
    · exact q.2.2 (f2 q.1)
  · intro u hu
    obtain ⟨n1, n2, n3, n4, n5, n6⟩ := h.new u hu
    refine ⟨n1, uids_empty u, n3, fun q => n1 ((hA.1 u).2 q), fun q => ?_, ?_⟩
    · rcases huid u q with q | q
      · exact n5 q
      · exact n2 q
    · show t'.g u = ∅
      rw [k1.gOut u n2]; exact n6

end Osp.Clients
