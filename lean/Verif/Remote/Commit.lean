import Verif.Remote.Inv
import Verif.Sess.Props
/-!
# Commits through a client session
-/
namespace Osp.Remote
open Osp.Sess Osp.Sync

variable {r : Uid} {m : View} {s : RSt}

/-- What the tables contain after the server committed. -/
theorem Good.stored_after (h : Good r m s) (he : s.c.user = .empty) {u : Uid} (hu : u ≠ 0) : (s.t.commit none).2.stored u = m.view u := by
  have hs := h.sync
  rw [(commit_exact s.t hs.tctx h.zero.2.1 (by rw [commit_ok hs.tctx h.troot h.tr])).1 u hu]
  have hsame := hs.same u (by rw [he]; exact uids_empty u)
  have hdb : s.t.stored u = m.stored u := h.db u hu
  have hg : u ∈ s.t.reg → s.t.g u = m.view u ∧ m.has u := fun q => by
    have hc := hsame.1.2 q
    have hh := (h.has u).1 hc
    exact ⟨by rw [← hsame.2 hc, h.view u hh], hh⟩
  have hcont : u ∈ s.t.reg → s.t.content u = m.view u := fun q => by
    unfold St.content; rw [if_pos q]; exact (hg q).1
  by_cases h1 : u ∈ s.t.user.deleted
  · rw [if_pos h1]
    exact (h.dead2 u (h.dead1 u (Or.inr h1))).2.1.symm
  rw [if_neg h1]
  by_cases h2 : u ∈ s.t.user.updated
  · rw [if_pos h2]
    exact hcont (hs.tbuf.live u (Or.inr h2))
  rw [if_neg h2]
  by_cases h3 : u ∈ s.t.user.added
  · rw [if_pos h3, hcont (hs.tbuf.live u (Or.inl h3)), hdb]
    by_cases hur : u = r
    · subst hur
      exact Finset.union_eq_right.2 (h.rsub (h.radd h3))
    · rw [h.tadd u h3 hur]; exact empty_union' _
  rw [if_neg h3, hdb]
  have hn : u ∉ s.t.user.uids := by rw [mem_uids]; tauto
  by_cases hr : u ∈ s.t.reg
  · rw [← (hg hr).1, h.clean u hr hn]
  · have hnh : ¬ m.has u := fun q => hr (hsame.1.1 ((h.has u).2 q))
    by_cases hd : m.dead u
    · obtain ⟨_, d2, _, d4⟩ := h.dead2 u hd
      rw [d2]
      rcases d4 with d4 | d4 | d4
      · exact d4
      · rw [he] at d4; exact absurd d4 (by simp [Buf.empty])
      · exact absurd d4 h1
    · exact (h.out u hu hnh hd).symm

/-- After a commit. -/
theorem Good.committed (h : Good r m s) (he : s.c.user = .empty) {c' t' : St} (hc1 : c'.ctx = .user) (hc2 : c'.user = .empty) (hc3 : c'.root = s.c.root) (hcr : ∀ u, u ∈ c'.reg ↔ u ∈ s.c.reg)
    (hc5 : ∀ u, c'.g u = s.c.g u) (hc6 : ∀ u ∈ c'.expired, u ∈ s.c.reg) (ht : t' = { (s.t.commit none).2 with engine := .empty }) (net : Sync.Net) :
    Good r (m.step (.commit net none)) ⟨c', t'⟩ := by
  have hs := h.sync
  have hok := commit_ok (s := s.t) hs.tctx h.troot h.tr
  have hreg : t'.reg = s.t.reg := by rw [ht, hok]
  have hg : t'.g = s.t.g := by rw [ht, hok]
  have hus : t'.user = .empty := by rw [ht, hok]
  have hroot : t'.root = some r := by rw [ht, hok]; exact h.troot
  have hctx : t'.ctx = .user := by rw [ht, hok]; exact hs.tctx
  have hst : ∀ u, u ≠ 0 → t'.db (t'.slot u) = m.view u := by
    intro u hu
    rw [← h.stored_after he hu, ht]
    rfl
  have hsame : ∀ u, (u ∈ s.c.reg ↔ u ∈ s.t.reg) ∧ (u ∈ s.c.reg → s.c.g u = s.t.g u) := fun u => hs.same u (by rw [he]; exact uids_empty u)
  have hnc : ∀ u, u ∉ c'.user.uids := by rw [hc2]; exact uids_empty
  have hnt : ∀ u, u ∉ t'.user.uids := by rw [hus]; exact uids_empty
  have hA : Agree c' t' := ⟨fun u => by rw [hcr, hreg]; exact (hsame u).1, fun u hu => by rw [hc5, hg]; exact (hsame u).2 ((hcr u).1 hu)⟩
  have hgb : GoodBuf t'.user t'.reg := by rw [hus]; exact ⟨disj_empty, by simp [Buf.empty], by simp [Buf.empty]⟩
  refine ⟨synced_of_agree hA hc1 hctx hc2 hgb, hc3.trans h.croot, hroot, h.hasr, by rw [hreg]; exact h.tr, fun u => (hcr u).trans (h.has u), fun u hu => (hc5 u).trans (h.view u hu), h.full,
    fun u hu => (hc5 u).trans (h.unreg u hu), hst, ⟨by rw [hreg]; exact h.zero.1, hnt 0, h.zero.2.2.1, hnc 0⟩, fun u hu => ⟨(h.has u).1 (hc6 u hu), hnc u⟩, fun u _ => hnt u, ?_, ?_, ?_, ?_, ?_, ?_, ?_, ?_, ?_, ?_⟩
  · intro u hu _
    show t'.g u = m.view u
    have hu' : u ∈ s.t.reg := by rw [← hreg]; exact hu
    have hc := (hsame u).1.2 hu'
    rw [hg, ← (hsame u).2 hc, h.view u ((h.has u).1 hc)]
  · intro u hu; exact absurd hu (by rw [hus]; simp [Buf.empty])
  · intro hu; exact absurd hu (by rw [hus]; simp [Buf.empty])
  · intro q; exact absurd q id
  · intro u hu; exact absurd hu (by rw [hc2]; simp [Buf.empty])
  · intro u hu
    rw [hc2, hus] at hu
    exact absurd hu (by simp [Buf.empty])
  · intro u hu; exact absurd hu id
  · intro u _ _ _; rfl
  · intro u h0 hu _ hv
    show t'.g u = ∅
    have hu' : u ∉ s.t.reg := by rw [← hreg]; exact hu
    have hnh : ¬ m.has u := fun q => hu' ((hsame u).1.1 ((h.has u).2 q))
    have hv' : m.view u ≠ ∅ := hv
    rw [hg]
    have hd : ¬ m.dead u := fun q => hv' (h.dead2 u q).2.1
    exact h.left u h0 hu' hd (by rw [← h.out u h0 hnh hd]; exact hv')
  · intro u hu
    obtain ⟨n1, n2, n3, n4, n5, n6, n7⟩ := h.new u hu
    exact ⟨by rw [hreg]; exact n1, by rw [hg]; exact n2, hnt u, n4, hnc u, n7, n7⟩

theorem commitCmd_ok {t : St} (hc : t.ctx = .user) (hr : t.root = some r) (hreg : r ∈ t.reg) : commitCmd none t = (.ok [], (t.commit none).2) := by
  unfold commitCmd
  rw [commit_ok hc hr hreg]

/-- A commit that reaches the server. -/
theorem Good.commit (h : Good r m s) (net : Sync.Net) (hn : net ≠ .noRequest) :
    (Remote.commit s net none).1 = m.result (.commit net none) ∧ Good r (m.step (.commit net none)) (Remote.commit s net none).2 ∧
      (Remote.commit s net none).2.c.user = .empty ∧ (Remote.commit s net none).2.t.user = .empty := by
  obtain ⟨e, k⟩ := h.arrive
  have hs := k.sync
  have hok := commit_ok (s := arrived s) hs.tctx k.troot k.tr
  have hcmd := commitCmd_ok hs.tctx k.troot k.tr
  obtain ⟨t2, ht2⟩ : ∃ t2, t2 = ((arrived s).commit none).2 := ⟨_, rfl⟩
  dsimp only at hcmd
  rw [← ht2] at hcmd
  have heng : t2.engine = .empty := by rw [ht2, hok]
  have hrec : Recorded (arrived s) [] t2 := by
    refine ⟨by rw [ht2, hok]; exact hs.tctx, by rw [ht2, hok]; exact ⟨disj_empty, by simp [Buf.empty], by simp [Buf.empty]⟩, ?_, ?_, ?_, ?_, ?_, ?_, ?_⟩
    · rw [heng]; exact ⟨disj_empty, by simp [Buf.empty], by simp [Buf.empty]⟩
    · rw [heng]; simp [Buf.empty]
    · rw [heng]; simp [Buf.empty, Buf.uids]
    · rw [heng]; simp [Buf.empty]
    · rw [heng]; simp [Buf.empty]
    · intro u _; rw [ht2, hok]; exact ⟨Iff.rfl, fun _ => rfl⟩
    · simp
  have hser : (serialize s.c (some .user)).2 = { s.c with user := .empty } := rfl
  have hsv : serve (commitCmd none) (serialize s.c (some .user)).1 s.t = (some (respond [] t2).1, (respond [] t2).2) := by
    unfold serve
    rw [e]
    dsimp only
    rw [hcmd]
  have hr2 : (respond [] t2).2 = { t2 with engine := .empty } := rfl
  have hnu : ({ t2 with engine := .empty } : St).user = .empty := by
    show t2.user = _
    rw [ht2, hok]
  cases net with
  | noRequest => exact absurd rfl hn
  | noResponse =>
    have hcall : Remote.commit s .noResponse none = (.error .connectionClosed, ⟨{ s.c with user := .empty }, { t2 with engine := .empty }⟩) := by
      unfold Remote.commit call request
      dsimp only
      rw [if_neg (by decide), if_pos rfl, if_pos rfl, hsv]
      rfl
    rw [hcall]
    refine ⟨rfl, ?_, rfl, hnu⟩
    exact k.committed rfl hs.cctx rfl rfl (fun _ => Iff.rfl) (fun _ => rfl) (fun u hu => (k.has u).2 (k.cexp u hu).1) (by rw [ht2]) _
  | fine =>
    obtain ⟨c', d, s1, s2, s3, s4, s5, s6⟩ := response_same (c := { s.c with user := .empty }) (fun hx => absurd (hs.cctx.symm.trans hx) (by decide))
      (fun u hu => hs.same u hu) hrec (fun u _ => uids_empty u) (by rw [heng]; simp [Buf.empty])
    have hcall : Remote.commit s .fine none = (.ok [], ⟨c', { t2 with engine := .empty }⟩) := by
      unfold Remote.commit call request
      dsimp only
      rw [if_neg (by decide), if_neg (by decide), if_pos rfl, hsv]
      dsimp only
      rw [hser, d]
      rfl
    rw [hcall]
    have hnone : ∀ u, ¬ (u ∈ t2.engine.uids ∨ some u ∈ ([] : List (Option Uid))) := by
      intro u; rw [heng]; simp [Buf.empty, Buf.uids]
    refine ⟨rfl, ?_, s3, hnu⟩
    exact k.committed rfl (s2.trans hs.cctx) s3 (s4 (by show s.c.root ≠ none; rw [h.croot]; simp)) (fun u => (s5 u (hnone u)).1) (fun u => (s5 u (hnone u)).2.1)
      (fun u hu => ((s6 u).1 hu).1) (by rw [ht2]) _

/-- A commit whose request reaches the server, where the backend raises while it writes. -/
theorem Good.commit_fail (h : Good r m s) (net : Sync.Net) (hn : net ≠ .noRequest) {k : Nat} (hk : k < (arrived s).commitOps.length) :
    (Remote.commit s net (some k)).1 = m.result (.commit net (some k)) ∧ Good r m (Remote.commit s net (some k)).2 := by
  obtain ⟨e, g⟩ := h.arrive
  have hs := g.sync
  obtain ⟨x, hx⟩ := Sess.commit_fail (s := arrived s) hs.tctx hk
  have hcmd : commitCmd (some k) (arrived s) = (.error x, { arrived s with engine := .empty }) := by
    unfold commitCmd
    rw [hx]
  have hser : (serialize s.c (some .user)).2 = { s.c with user := .empty } := rfl
  have hsv : serve (commitCmd (some k)) (serialize s.c (some .user)).1 s.t = (none, { arrived s with engine := .empty }) := by
    unfold serve
    rw [e]
    dsimp only
    rw [hcmd]
  have hgood := g.engine s.c.engine .empty
  cases net with
  | noRequest => exact absurd rfl hn
  | noResponse =>
    have hcall : Remote.commit s .noResponse (some k) = (.error .connectionClosed, ⟨{ s.c with user := .empty }, { arrived s with engine := .empty }⟩) := by
      unfold Remote.commit call request
      dsimp only
      rw [if_neg (by decide), if_pos rfl, if_pos rfl, hsv]
      rfl
    rw [hcall]
    exact ⟨rfl, hgood⟩
  | fine =>
    have hcall : Remote.commit s .fine (some k) = (.error .runtimeError, ⟨{ s.c with user := .empty }, { arrived s with engine := .empty }⟩) := by
      unfold Remote.commit call request
      dsimp only
      rw [if_neg (by decide), if_neg (by decide), if_pos rfl, hsv]
      rfl
    rw [hcall]
    exact ⟨rfl, hgood⟩

end Osp.Remote
