import Verif.Clients.Load
import Verif.Multi.Props
/-!
# Commits of one of several clients
-/
namespace Osp.Clients
open Osp.Sess Osp.Sync Osp.Remote

variable {r : Uid} {m : Mem} {s : RSt} {P : Params}

/-- Proof device; nothing in /repo: what the tables contain after the server committed, when everything the client did has arrived. -/
theorem Fit.stored_after (h : Fit r m s) (he : s.c.user = .empty) {u : Uid} (hu : u ≠ 0) : (s.t.commit none).2.db (place r u) = written m s u (s.t.db (place r u)) := by
  have hs := h.sync
  have hok : (s.t.commit none).1 = .ok () := by rw [commit_ok hs.tctx h.troot h.tr]
  have hroot : (s.t.commit none).2.root = some r := by rw [commit_ok hs.tctx h.troot h.tr]; exact h.troot
  have hx := (commit_exact s.t hs.tctx h.zero.2.1 hok).1 u hu
  unfold St.stored at hx
  rw [slot_place hroot, slot_place h.troot] at hx
  rw [hx]
  have hnc : u ∉ s.c.user.uids := by rw [he]; exact uids_empty u
  have hsame := hs.same u hnc
  have hcont : u ∈ s.c.reg → s.t.content u = s.c.g u := fun q => by
    unfold St.content; rw [if_pos (hsame.1.1 q)]; exact (hsame.2 q).symm
  have hdj := hs.tbuf.disj u
  unfold written
  by_cases hr : u ∈ s.c.reg
  · rw [shown_pos hr]
    have h1 : u ∉ s.t.user.deleted := fun q => hs.tbuf.dead u q (hsame.1.1 hr)
    rw [if_neg h1]
    dsimp only
    by_cases h2 : u ∈ s.t.user.updated
    · have hnf : ¬ m.fresh u := by
        intro q
        rcases h.fr2 u q hr with k | k
        · exact hnc ((mem_uids ..).2 (Or.inl k))
        · exact hdj.1 ⟨k, h2⟩
      rw [if_pos h2, if_pos (h.ch1 u (Or.inr ((mem_uids ..).2 (Or.inr (Or.inl h2))))), if_neg hnf, hcont hr]
    · rw [if_neg h2]
      by_cases h3 : u ∈ s.t.user.added
      · rw [if_pos h3, if_pos (h.ch1 u (Or.inr ((mem_uids ..).2 (Or.inl h3)))), if_pos (h.fr1 u (Or.inr h3)), hcont hr]
      · rw [if_neg h3, if_neg]
        intro q
        rcases h.ch2 u q with k | k | k
        · exact hnc k
        · rw [mem_uids] at k; tauto
        · exact k.2 hr
  · rw [shown_neg hr]
    dsimp only
    have hnt : u ∉ s.t.reg := fun q => hr (hsame.1.2 q)
    have h2 : u ∉ s.t.user.updated := fun q => hnt (hs.tbuf.live u (Or.inr q))
    have h3 : u ∉ s.t.user.added := fun q => hnt (hs.tbuf.live u (Or.inl q))
    by_cases h1 : u ∈ s.t.user.deleted
    · have hnf : ¬ m.fresh u := fun q => (h.fr3 u q).1 h1
      rw [if_pos h1, if_pos (h.ch1 u (Or.inr ((mem_uids ..).2 (Or.inr (Or.inr h1))))), if_neg hnf]
    · rw [if_neg h1, if_neg h2, if_neg h3]
      by_cases hc : m.changed u
      · rw [if_pos hc]
        rcases h.ch2 u hc with k | k | k
        · exact absurd k hnc
        · rw [mem_uids] at k; tauto
        · rw [if_pos k.1]
      · rw [if_neg hc]

/-- Proof device; nothing in /repo: nothing is written where no object of the client is stored. -/
theorem Fit.root_kept (h : Fit r m s) : (s.t.commit none).2.db r = s.t.db r := by
  have hs := h.sync
  rw [commit_ok hs.tctx h.troot h.tr]
  refine Multi.commit_other s.t r fun u _ => ?_
  rw [slot_place h.troot]
  unfold place
  by_cases q : u = r
  · rw [if_pos q]; exact h.root0.symm
  · rw [if_neg q]; exact q

theorem written_root (h : Fit r m s) : written m s r (s.t.db 0) ≠ ∅ := by
  unfold written
  rw [shown_pos h.cr]
  have hf := h.full r h.cr
  by_cases hc : m.changed r
  · rw [if_pos hc]
    dsimp only
    by_cases hfr : m.fresh r
    · rw [if_pos hfr]
      intro q
      exact hf (Finset.subset_empty.1 (by rw [← q]; exact Finset.subset_union_right))
    · rw [if_neg hfr]; exact hf
  · rw [if_neg hc]
    exact h.rdb fun q => hc (h.ch1 r (Or.inr q))

/-- Proof device; nothing in /repo: after a commit. -/
theorem Fit.committed (h : Fit r m s) (he : s.c.user = .empty) {c' t' : St} (hc1 : c'.ctx = .user) (hc2 : c'.user = .empty) (hc3 : c'.root = s.c.root) (hcr : ∀ u, u ∈ c'.reg ↔ u ∈ s.c.reg)
    (hc5 : ∀ u, c'.g u = s.c.g u) (hc6 : ∀ u ∈ c'.expired, u ∈ s.c.reg) (ht : t' = { (s.t.commit none).2 with engine := .empty }) (net : Sync.Net) (res : Except PyErr (List (Option Uid))) :
    Fit r (m.step (.commit net none) res) ⟨c', t'⟩ ∧ Effect r m s (.commit net none) ⟨c', t'⟩ := by
  have hs := h.sync
  have hok := commit_ok (s := s.t) hs.tctx h.troot h.tr
  have hreg : t'.reg = s.t.reg := by rw [ht, hok]
  have hg : t'.g = s.t.g := by rw [ht, hok]
  have hus : t'.user = .empty := by rw [ht, hok]
  have hroot : t'.root = some r := by rw [ht, hok]; exact h.troot
  have hctx : t'.ctx = .user := by rw [ht, hok]; exact hs.tctx
  have hdb : t'.db = (s.t.commit none).2.db := by rw [ht]
  have hst : ∀ u, u ≠ 0 → t'.db (place r u) = written m s u (s.t.db (place r u)) := by
    intro u hu
    rw [hdb]; exact h.stored_after he hu
  have h0 : t'.db 0 = written m s r (s.t.db 0) := by
    have := hst r h.root0
    unfold place at this
    rw [if_pos rfl] at this
    exact this
  have hsame : ∀ u, (u ∈ s.c.reg ↔ u ∈ s.t.reg) ∧ (u ∈ s.c.reg → s.c.g u = s.t.g u) := fun u => hs.same u (by rw [he]; exact uids_empty u)
  have hnc : ∀ u, u ∉ c'.user.uids := by rw [hc2]; exact uids_empty
  have hnt : ∀ u, u ∉ t'.user.uids := by rw [hus]; exact uids_empty
  have hca : ∀ u, u ∉ c'.user.added := fun u q => hnc u ((mem_uids ..).2 (Or.inl q))
  have hta : ∀ u, u ∉ t'.user.added := fun u q => hnt u ((mem_uids ..).2 (Or.inl q))
  have hA : Agree c' t' := ⟨fun u => by rw [hcr, hreg]; exact (hsame u).1, fun u hu => by rw [hc5, hg]; exact (hsame u).2 ((hcr u).1 hu)⟩
  have hgb : GoodBuf t'.user t'.reg := by rw [hus]; exact ⟨disj_empty, by simp [Buf.empty], by simp [Buf.empty]⟩
  constructor
  · refine ⟨synced_of_agree hA hc1 hctx hc2 hgb, hc3.trans h.croot, hroot, (hcr r).2 h.cr, by rw [hreg]; exact h.tr, fun u hu => ?_, ⟨by rw [hreg]; exact h.zero.1, hnt 0, ?_, hnc 0⟩,
      fun u hu => ⟨(hcr u).2 (hc6 u hu), hnc u⟩, fun u _ => hnt u, fun u q => absurd q (hca u), fun _ => ?_, ?_, fun u q => absurd q id, ?_, fun u q => absurd q id, fun u q => absurd q id, fun u q => absurd q id, fun u q => absurd q id, ?_⟩
    · show c'.g u ≠ ∅
      rw [hc5]; exact h.full u ((hcr u).1 hu)
    · show 0 ∉ c'.reg
      rw [hcr]; exact h.zero.2.2.1
    · show t'.db 0 ≠ ∅
      rw [h0]; exact written_root h
    · rintro u (q | q)
      · exact absurd q (hnc u)
      · exact absurd q (hnt u)
    · rintro u (q | q)
      · exact absurd q (hca u)
      · exact absurd q (hta u)
    · intro u hu
      obtain ⟨n1, n2, n3, n4, n5, n6⟩ := h.new u hu
      exact ⟨by show u ∉ c'.reg; rw [hcr]; exact n1, hnc u, by show c'.g u = ∅; rw [hc5]; exact n3, by show u ∉ t'.reg; rw [hreg]; exact n4, hnt u, by show t'.g u = ∅; rw [hg]; exact n6⟩
  · refine ⟨?_, h0, ?_, fun u hu hur => ?_⟩
    · funext u
      unfold shown
      by_cases q : u ∈ s.c.reg
      · rw [if_pos q, if_pos (by exact (hcr u).2 q)]
        exact congrArg some (hc5 u)
      · rw [if_neg q, if_neg (by exact fun k => q ((hcr u).1 k))]
    · show t'.db r = _
      rw [hdb]; exact h.root_kept
    · have := hst u hu
      unfold place at this
      rw [if_neg hur] at this
      exact this

/-- Proof device; nothing in /repo: what is written does not depend on whether the changes have arrived. -/
theorem Effect.arrived (h : Fit r m s) {net : Sync.Net} {s' : RSt} (k : Effect r m ⟨{ s.c with user := .empty }, Remote.arrived s⟩ (.commit net none) s') : Effect r m s (.commit net none) s' := by
  have hdb := h.arrive.2.2
  obtain ⟨k1, k2, k3, k4⟩ := k
  refine ⟨k1, ?_, ?_, ?_⟩
  · rw [k2]
    show written m _ r ((Remote.arrived s).db 0) = _
    rw [hdb]; rfl
  · rw [k3]
    show (Remote.arrived s).db r = _
    rw [hdb]
  · intro u hu hur
    rw [k4 u hu hur]
    show written m _ u ((Remote.arrived s).db u) = _
    rw [hdb]; rfl

/-- A commit that reaches the server. -/
theorem Fit.commit (h : Fit r m s) (net : Sync.Net) (hn : net ≠ .noRequest) (res : Except PyErr (List (Option Uid))) :
    (Remote.commit s net none).1 = result (Remote.commit s net none).2 (.commit net none) ∧ Fit r (m.step (.commit net none) res) (Remote.commit s net none).2 ∧
      Effect r m s (.commit net none) (Remote.commit s net none).2 ∧ (net = .fine → ∀ u ∈ s.c.reg, u ∈ (Remote.commit s net none).2.c.expired) := by
  obtain ⟨e, k, -⟩ := h.arrive
  have hs := k.sync
  have hok := commit_ok (s := arrived s) hs.tctx k.troot k.tr
  have hcmd := commitCmd_ok hs.tctx k.troot k.tr
  obtain ⟨t2, ht2⟩ : ∃ t2, t2 = ((arrived s).commit none).2 := ⟨_, rfl⟩
  dsimp only at hcmd
  rw [← ht2] at hcmd
  have heng : t2.engine = .empty := by rw [ht2, hok]
  have hrec : Recorded (arrived s) [] t2 := by
    refine ⟨by rw [ht2, hok]; exact hs.tctx, by rw [ht2, hok]; exact ⟨disj_empty, by simp [Buf.empty], by simp [Buf.empty]⟩, ?_, ?_, ?_, ?_, ?_, ?_, ?_⟩
    · rw [heng]; exact ⟨disj_empty, by simp [Buf.empty], by simp [Buf.empty]⟩
    · rw [heng]; simp [Buf.empty]
    · rw [heng]; simp [Buf.empty, Buf.uids]
    · rw [heng]; simp [Buf.empty]
    · rw [heng]; simp [Buf.empty]
    · intro u _; rw [ht2, hok]; exact ⟨Iff.rfl, fun _ => rfl⟩
    · simp
  have hser : (serialize s.c (some .user)).2 = { s.c with user := .empty } := rfl
  have hsv : serve (commitCmd none) (serialize s.c (some .user)).1 s.t = (some (respond [] t2).1, (respond [] t2).2) := by
    unfold serve
    rw [e]
    dsimp only
    rw [hcmd]
  have hr2 : (respond [] t2).2 = { t2 with engine := .empty } := rfl
  cases net with
  | noRequest => exact absurd rfl hn
  | noResponse =>
    have hcall : Remote.commit s .noResponse none = (.error .connectionClosed, ⟨{ s.c with user := .empty }, { t2 with engine := .empty }⟩) := by
      unfold Remote.commit call request
      dsimp only
      rw [if_neg (by decide), if_pos rfl, if_pos rfl, hsv]
      rfl
    rw [hcall]
    have := k.committed rfl (c' := { s.c with user := .empty }) (t' := { t2 with engine := .empty }) hs.cctx rfl rfl (fun _ => Iff.rfl) (fun _ => rfl) (fun u hu => (k.cexp u hu).1) (by rw [ht2]) .noResponse res
    exact ⟨rfl, this.1, Effect.arrived h this.2, fun q => absurd q (by decide)⟩
  | fine =>
    obtain ⟨c', d, s1, s2, s3, s4, s5, s6⟩ := response_same (c := { s.c with user := .empty }) (fun hx => absurd (hs.cctx.symm.trans hx) (by decide))
      (fun u hu => hs.same u hu) hrec (fun u _ => uids_empty u) (by rw [heng]; simp [Buf.empty])
    have hcall : Remote.commit s .fine none = (.ok [], ⟨c', { t2 with engine := .empty }⟩) := by
      unfold Remote.commit call request
      dsimp only
      rw [if_neg (by decide), if_neg (by decide), if_pos rfl, hsv]
      dsimp only
      rw [hser, d]
      rfl
    rw [hcall]
    have hnone : ∀ u, ¬ (u ∈ t2.engine.uids ∨ some u ∈ ([] : List (Option Uid))) := by
      intro u; rw [heng]; simp [Buf.empty, Buf.uids]
    have := k.committed rfl (t' := { t2 with engine := .empty }) (s2.trans hs.cctx) s3 (s4 (by show s.c.root ≠ none; rw [h.croot]; simp)) (fun u => (s5 u (hnone u)).1) (fun u => (s5 u (hnone u)).2.1)
      (fun u hu => ((s6 u).1 hu).1) (by rw [ht2]) .fine res
    refine ⟨rfl, this.1, Effect.arrived h this.2, fun _ u hu => (s6 u).2 ⟨hu, Or.inr ⟨?_, uids_empty u⟩, fun q => hnone u (Or.inl q), by simp⟩⟩
    have hx := (commit_exact (arrived s) hs.tctx k.zero.2.1 (by rw [hok])).2.2.1 u
    rw [ht2, hx]
    exact (hs.same u (uids_empty u)).1.1 hu

/-- A commit whose request reaches the server, where the backend raises while it writes. -/
theorem Fit.commit_fail (h : Fit r m s) (net : Sync.Net) (hn : net ≠ .noRequest) {k : Nat} (hk : k < (arrived s).commitOps.length) :
    (Remote.commit s net (some k)).1 = result (Remote.commit s net (some k)).2 (.commit net (some k)) ∧ Fit r m (Remote.commit s net (some k)).2 ∧
      Effect r m s (.commit net (some k)) (Remote.commit s net (some k)).2 := by
  obtain ⟨e, g, hdb⟩ := h.arrive
  have hs := g.sync
  obtain ⟨x, hx⟩ := Sess.commit_fail (s := arrived s) hs.tctx hk
  have hcmd : commitCmd (some k) (arrived s) = (.error x, { arrived s with engine := .empty }) := by
    unfold commitCmd
    rw [hx]
  have hser : (serialize s.c (some .user)).2 = { s.c with user := .empty } := rfl
  have hsv : serve (commitCmd (some k)) (serialize s.c (some .user)).1 s.t = (none, { arrived s with engine := .empty }) := by
    unfold serve
    rw [e]
    dsimp only
    rw [hcmd]
  have hgood := g.engine s.c.engine .empty
  cases net with
  | noRequest => exact absurd rfl hn
  | noResponse =>
    have hcall : Remote.commit s .noResponse (some k) = (.error .connectionClosed, ⟨{ s.c with user := .empty }, { arrived s with engine := .empty }⟩) := by
      unfold Remote.commit call request
      dsimp only
      rw [if_neg (by decide), if_pos rfl, if_pos rfl, hsv]
      rfl
    rw [hcall]
    exact ⟨rfl, hgood, rfl, hdb⟩
  | fine =>
    have hcall : Remote.commit s .fine (some k) = (.error .runtimeError, ⟨{ s.c with user := .empty }, { arrived s with engine := .empty }⟩) := by
      unfold Remote.commit call request
      dsimp only
      rw [if_neg (by decide), if_neg (by decide), if_pos rfl, hsv]
      rfl
    rw [hcall]
    exact ⟨rfl, hgood, rfl, hdb⟩

end Osp.Clients
