import Verif.Clients.Read
/-!
# Loading objects into one of several clients
-/
namespace Osp.Clients
open Osp.Sess Osp.Sync Osp.Remote

variable {r : Uid} {m : Mem} {s : RSt} {P : Params}

/-- Proof device; nothing in /repo: an object that was loaded. -/
theorem Fit.loaded (h : Fit r m s) {u : Uid} (hu0 : u ≠ 0) (hm : ¬ m.used u) {y : Content} {c' t' : St} (h1 : c'.ctx = .user) (h2 : t'.ctx = .user) (h3 : c'.user = s.c.user) (h4 : t'.user = s.t.user)
    (h5 : c'.root = s.c.root) (h6 : t'.root = s.t.root) (h7 : t'.db = s.t.db)
    (hc : ∀ v, v ≠ u → (v ∈ c'.reg ↔ v ∈ s.c.reg) ∧ c'.g v = s.c.g v ∧ c'.det v = s.c.det v)
    (ht : ∀ v, v ≠ u → (v ∈ t'.reg ↔ v ∈ s.t.reg) ∧ t'.g v = s.t.g v)
    (hcu : (u ∈ c'.reg ↔ y ≠ ∅) ∧ c'.g u = y) (htu : (u ∈ t'.reg ↔ y ≠ ∅) ∧ (y ≠ ∅ → t'.g u = y) ∧ (y = ∅ → t'.g u = s.t.g u))
    (hcx : ∀ v ∈ c'.expired, v ∈ c'.reg ∧ (v ∈ s.c.user.uids → v ∈ s.c.expired)) (htx : ∀ v ∈ t'.expired, v ∈ s.t.user.uids → v ∈ s.t.expired)
    {m' : Mem} (m1 : m'.changed = m.changed) (m2 : m'.fresh = m.fresh) (m3 : ∀ v, m'.used v ↔ (v = u ∧ y ≠ ∅) ∨ m.used v) : Fit r m' ⟨c', t'⟩ := by
  have hs := h.sync
  obtain ⟨n1, n2, n3, n4, n5, n6⟩ := h.new u hm
  have nch : ¬ m.changed u := fun q => hm (h.used u q)
  have nfr : ¬ m.fresh u := fun q => nch (h.frch u q)
  have key : ∀ (p : Uid → Prop), p u → (∀ v, v ≠ u → p v) → ∀ v, p v := by
    intro p hp hq v
    by_cases hv : v = u
    · subst hv; exact hp
    · exact hq v hv
  have hcont : ∀ v, v ≠ u → c'.content v = s.c.content v := by
    intro v hv
    obtain ⟨q1, q2, q3⟩ := hc v hv
    unfold St.content
    by_cases hr : v ∈ s.c.reg
    · rw [if_pos hr, if_pos (q1.2 hr), q2]
    · rw [if_neg hr, if_neg (fun q => hr (q1.1 q)), q3]
  have hur : r ≠ u := by rintro rfl; exact n1 h.cr
  have h0u : (0 : Uid) ≠ u := fun q => hu0 q.symm
  refine ⟨⟨h1, h2, ⟨?_, ?_, ?_⟩, ?_, ⟨?_, ?_, ?_⟩, ?_, ?_, ?_, ?_⟩, h5.trans h.croot, h6.trans h.troot, (hc r hur).1.2 h.cr, (ht r hur).1.2 h.tr, ?_, ?_, ?_, ?_, ?_, ?_, ?_, ?_, ?_, ?_, ?_, ?_, ?_, ?_⟩
  · rw [h3]; exact hs.cbuf.disj
  · show ∀ v, v ∈ c'.user.added ∨ v ∈ c'.user.updated → v ∈ c'.reg
    rw [h3]
    exact key _ (fun q => absurd (uids_live q) n2) fun v hv => by rw [(hc v hv).1]; exact hs.cbuf.live v
  · show ∀ v ∈ c'.user.deleted, v ∉ c'.reg
    rw [h3]
    exact key _ (fun q => absurd (uids_changed (Or.inr q)) n2) fun v hv => by rw [(hc v hv).1]; exact hs.cbuf.dead v
  · rw [h3]; exact hs.nodup
  · rw [h4]; exact hs.tbuf.disj
  · show ∀ v, v ∈ t'.user.added ∨ v ∈ t'.user.updated → v ∈ t'.reg
    rw [h4]
    exact key _ (fun q => absurd (uids_live q) n5) fun v hv => by rw [(ht v hv).1]; exact hs.tbuf.live v
  · show ∀ v ∈ t'.user.deleted, v ∉ t'.reg
    rw [h4]
    exact key _ (fun q => absurd (uids_changed (Or.inr q)) n5) fun v hv => by rw [(ht v hv).1]; exact hs.tbuf.dead v
  · show ∀ v ∈ c'.user.uids, c'.content v ≠ ∅
    rw [h3]
    exact key _ (fun q => absurd q n2) fun v hv => by rw [hcont v hv]; exact hs.has v
  · show ∀ v ∈ c'.user.added, v ∉ t'.reg ∧ t'.g v = ∅
    rw [h3]
    exact key _ (fun q => absurd (uids_live (Or.inl q)) n2) fun v hv => by rw [(ht v hv).1, (ht v hv).2]; exact hs.fresh v
  · show ∀ v, v ∈ c'.user.updated ∨ v ∈ c'.user.deleted → v ∈ t'.reg
    rw [h3]
    exact key _ (fun q => absurd (uids_changed q) n2) fun v hv => by rw [(ht v hv).1]; exact hs.known v
  · show ∀ v, v ∉ c'.user.uids → (v ∈ c'.reg ↔ v ∈ t'.reg) ∧ (v ∈ c'.reg → c'.g v = t'.g v)
    rw [h3]
    exact key _ (fun _ => ⟨by rw [hcu.1, htu.1], fun q => by rw [hcu.2, htu.2.1 (hcu.1.1 q)]⟩) fun v hv => by
      rw [(ht v hv).1, (ht v hv).2, (hc v hv).1, (hc v hv).2.1]; exact hs.same v
  · exact key _ (fun q => by
      show c'.g u ≠ ∅
      rw [hcu.2]; exact hcu.1.1 q) fun v hv => by
      show v ∈ c'.reg → c'.g v ≠ ∅
      rw [(hc v hv).1, (hc v hv).2.1]; exact h.full v
  · obtain ⟨z1, z2, z3, z4⟩ := h.zero
    refine ⟨?_, ?_, ?_, ?_⟩
    · show 0 ∉ t'.reg
      rw [(ht 0 h0u).1]; exact z1
    · show 0 ∉ t'.user.uids
      rw [h4]; exact z2
    · show 0 ∉ c'.reg
      rw [(hc 0 h0u).1]; exact z3
    · show 0 ∉ c'.user.uids
      rw [h3]; exact z4
  · intro v hv
    obtain ⟨q1, q2⟩ := hcx v hv
    refine ⟨q1, ?_⟩
    show v ∉ c'.user.uids
    rw [h3]
    exact fun q => (h.cexp v (q2 q)).2 q
  · intro v hv
    show v ∉ t'.user.uids
    rw [h4]
    exact fun q => h.texp v (htx v hv q) q
  · show ∀ v ∈ c'.user.added, v ∉ t'.user.uids
    rw [h3, h4]; exact h.cadd
  · show r ∉ t'.user.uids → t'.db 0 ≠ ∅
    rw [h4, h7]; exact h.rdb
  · show ∀ v, v ∈ c'.user.uids ∨ v ∈ t'.user.uids → m'.changed v
    rw [h3, h4, m1]; exact h.ch1
  · show ∀ v, m'.changed v → v ∈ c'.user.uids ∨ v ∈ t'.user.uids ∨ (m'.fresh v ∧ v ∉ c'.reg)
    rw [h3, h4, m1, m2]
    exact key _ (fun q => absurd q nch) fun v hv => by rw [(hc v hv).1]; exact h.ch2 v
  · show ∀ v, v ∈ c'.user.added ∨ v ∈ t'.user.added → m'.fresh v
    rw [h3, h4, m2]; exact h.fr1
  · show ∀ v, m'.fresh v → v ∈ c'.reg → v ∈ c'.user.added ∨ v ∈ t'.user.added
    rw [h3, h4, m2]
    exact key _ (fun q => absurd q nfr) fun v hv => by rw [(hc v hv).1]; exact h.fr2 v
  · show ∀ v, m'.fresh v → v ∉ t'.user.deleted ∧ (v ∈ c'.user.deleted → v ∈ t'.user.added)
    rw [h3, h4, m2]; exact h.fr3
  · rw [m1, m2]; exact h.frch
  · intro v hv
    rw [m1] at hv
    exact (m3 v).2 (Or.inr (h.used v hv))
  · show ∀ v, ¬ m'.used v → v ∉ c'.reg ∧ v ∉ c'.user.uids ∧ c'.g v = ∅ ∧ v ∉ t'.reg ∧ v ∉ t'.user.uids ∧ t'.g v = ∅
    rw [h3, h4]
    intro v hv
    rw [m3] at hv
    have hv2 : ¬ m.used v := fun q => hv (Or.inr q)
    by_cases hvu : v = u
    · subst hvu
      have hy : y = ∅ := by by_contra q; exact hv (Or.inl ⟨rfl, q⟩)
      exact ⟨fun q => hcu.1.1 q hy, n2, hcu.2.trans hy, fun q => htu.1.1 q hy, n5, (htu.2.2 hy).trans n6⟩
    · rw [(ht v hvu).1, (ht v hvu).2, (hc v hvu).1, (hc v hvu).2.1]
      exact h.new v hv2

/-- Loading an object the client has. -/
theorem Fit.load_old (hT : HasType P) (h : Fit r m s) {u : Uid} (hh : u ∈ s.c.reg) :
    (Remote.load P s u).1 = .ok [if shown (Remote.load P s u).2 u = none then none else some u] ∧ Fit r m (Remote.load P s u).2 ∧ (Remote.load P s u).2.t.db = s.t.db ∧
      ∃ y, MayRead r m s u y ∧ shown (Remote.load P s u).2 = Function.update (shown s) u y := by
  by_cases hx : u ∈ s.c.expired
  · obtain ⟨-, hn⟩ := h.cexp u hx
    obtain ⟨htr, htg⟩ := h.inT hh hn
    have hexp : s.c.expire [u] = ([u], s.c) := by
      have e1 : (s.c.expired ++ [u].filter (· ∉ s.c.expired)).filter (· ∈ s.c.reg) = s.c.expired := by
        have : [u].filter (· ∉ s.c.expired) = [] := by simp [hx]
        rw [this, List.append_nil, List.filter_eq_self]
        intro v hv
        simpa using (h.cexp v hv).1
      have e2 : [u].filter (· ∉ s.c.user.uids) = [u] := by simp [hn]
      unfold St.expire
      dsimp only
      rw [e2, e1]
      simp [hh]
    obtain ⟨rs, c', t', e1, e2, e3⟩ := read_refreshes hT h.sync (by rw [h.croot]; simp) (by rw [h.troot]; simp) hh hx hn (by rw [htg]; exact h.full u hh)
      (fun q1 q2 => h.texp u q2 q1)
    have hr : Remote.load P s u = (.ok rs, ⟨c', t'⟩) := by
      unfold Remote.load
      unfold Sync.read at e1
      rw [if_pos hx, hexp] at e1
      dsimp only at e1
      rw [show (fetch P) = fun us t => t.load P us from rfl, e1]
    obtain ⟨k1, k2⟩ := h.refreshed hx e2
    rw [hr]
    refine ⟨?_, k1, e2.db, shown ⟨c', t'⟩ u, ?_, ?_⟩
    · dsimp only
      rw [e3]
      by_cases q : u ∈ c'.reg
      · rw [if_pos q, if_neg (by rw [shown_pos (by exact q)]; simp)]
      · rw [if_neg q, if_pos (shown_neg (by exact q))]
    · rcases k2 with ⟨-, q1, q2⟩ | ⟨q1, q2⟩
      · left
        rw [shown_pos (by exact q1), shown_pos hh]
        exact congrArg some q2
      · exact Or.inr ⟨q1, by rw [shown_pos hh]; simp, q2⟩
    · exact shown_update (fun v hv => ⟨(e2.mine v hv).1, (e2.mine v hv).2.1⟩) rfl
  · have hr : Remote.load P s u = (.ok [some u], ⟨{ s.c with engine := .empty, expired := del s.c.expired u }, s.t⟩) := by
      unfold Remote.load load1
      rw [if_neg (by rw [h.croot]; simp)]
      dsimp only
      rw [if_pos ⟨hh, hx⟩]
    rw [hr]
    have hsh : shown ⟨{ s.c with engine := .empty, expired := del s.c.expired u }, s.t⟩ = shown s := rfl
    refine ⟨?_, h.setExp _ fun v hv => h.cexp v ((mem_del ..).1 hv).1, rfl, shown s u, Or.inl rfl, ?_⟩
    · dsimp only
      rw [hsh, if_neg (by rw [shown_pos hh]; simp)]
    · dsimp only
      rw [hsh, Function.update_eq_self]

set_option maxHeartbeats 1000000 in
/-- Loading an object the client never had. -/
theorem Fit.load_new (h : Fit r m s) {u : Uid} (hu0 : u ≠ 0) (hm : ¬ m.used u) {m' : Mem} (m1 : m'.changed = m.changed) (m2 : m'.fresh = m.fresh)
    (m3 : ∀ v, m'.used v ↔ (v = u ∧ s.t.db u ≠ ∅) ∨ m.used v) :
    (Remote.load P s u).1 = .ok [if s.t.db u = ∅ then none else some u] ∧ Fit r m' (Remote.load P s u).2 ∧ (Remote.load P s u).2.t.db = s.t.db ∧
      shown (Remote.load P s u).2 = Function.update (shown s) u (asObject (s.t.db u)) := by
  have hs := h.sync
  obtain ⟨hnr, hnc, hgu0, hntr, hnt, htg0⟩ := h.new u hm
  have hur : u ≠ r := by rintro rfl; exact hnr h.cr
  obtain ⟨t1, ht1⟩ : ∃ t1, t1 = (s.t.expire (del s.c.expired u)).2 := ⟨_, rfl⟩
  have f1 : t1.ctx = s.t.ctx ∧ t1.user = s.t.user ∧ t1.reg = s.t.reg ∧ t1.g = s.t.g ∧ t1.db = s.t.db ∧ t1.root = s.t.root := by rw [ht1]; exact ⟨rfl, rfl, rfl, rfl, rfl, rfl⟩
  obtain ⟨f1, f2, f3, f4, f5, f6⟩ := f1
  have fx : ∀ v ∈ t1.expired, v ∈ s.t.reg ∧ (v ∈ s.t.user.uids → v ∈ s.t.expired) := by
    intro v hv
    rw [ht1, (expire_exact s.t (del s.c.expired u) v).1] at hv
    rw [mem_uids]
    tauto
  have fdb : t1.db (t1.slot u) = s.t.db u := by
    rw [f5, slot_root (f6.trans h.troot), if_neg hur]
  obtain ⟨t2, l0, l1, l2, l3, l4, l5, l6, l7, l8, l9, l10⟩ := Remote.load_new (P := P) (t := t1) (u := u) (f1.trans hs.tctx) (by rw [f6, h.troot]; simp) (by rw [f3]; exact hntr) (by rw [f2]; exact hnt)
    (by rw [f2, f3]; exact hs.tbuf) (fun q => hntr (fx u q).1) (by
      intro _
      rw [f4]; exact htg0)
  rw [fdb] at l0 l1 l7 l8 l9
  generalize hy : s.t.db u = y at *
  obtain ⟨rs, hrs⟩ : ∃ rs, rs = [if y = ∅ then none else some u] := ⟨_, rfl⟩
  rw [← hrs] at l0 l1 ⊢
  have hor : ∀ v, some v ∈ rs → v = u ∧ y ≠ ∅ := by
    intro v hv
    rw [hrs] at hv
    by_cases hve : y = ∅
    · rw [if_pos hve] at hv; simp at hv
    · rw [if_neg hve] at hv; exact ⟨by simpa using hv, hve⟩
  obtain ⟨c0, hc0⟩ : ∃ c0 : St, c0 = { s.c with engine := .empty, ctx := .engine, expired := del s.c.expired u } := ⟨_, rfl⟩
  have hcu : c0.user = s.c.user := by rw [hc0]
  have hsame : Same c0 t1 := by
    intro v hv
    rw [hcu] at hv
    rw [f3, f4, hc0]
    exact hs.same v hv
  have hgu : c0.g u = ∅ := by rw [hc0]; exact hgu0
  obtain ⟨c2, hde, s1, s2, s3, s4, s5, s6⟩ := response_same (c := c0) (by intro _; rw [hc0]) hsame l1 (by
    intro v hv
    rw [hcu]
    have : v = u := by
      rcases hv with hv | hv
      · exact l5 v hv
      · exact (hor v hv).1
    rw [this]; exact hnc) (by
    intro v hv
    rw [l5 v (uids_live (Or.inl hv)), hgu]; exact Finset.empty_subset _)
  have hreq : request .fine ⟨none, c0.expired, []⟩ (fetch P [u]) c0 s.t = ⟨.ok rs, c2, { t2 with engine := .empty }⟩ := by
    unfold request
    have hsv : serve (fetch P [u]) ⟨none, c0.expired, []⟩ s.t = (some (respond rs t2).1, (respond rs t2).2) := by
      unfold serve
      have hde : deserialize .user ⟨none, c0.expired, []⟩ s.t = (.ok [], t1) := by rw [ht1, hc0]; rfl
      rw [hde]
      dsimp only
      rw [show fetch P [u] t1 = t1.load P [u] from rfl, l0]
    rw [if_neg (by decide), hsv]
    dsimp only
    rw [if_neg (by decide), hde]
    rfl
  have hr : Remote.load P s u = (.ok rs, ⟨{ c2 with ctx := s.c.ctx }, { t2 with engine := .empty }⟩) := by
    unfold Remote.load load1
    rw [if_neg (by rw [h.croot]; simp)]
    dsimp only
    have hxu : u ∉ s.c.expired := fun q => hnr (h.cexp u q).1
    rw [if_neg (by tauto), if_neg hnr, if_neg hxu, ← hc0]
    have e : del s.c.expired u = c0.expired := by rw [hc0]
    rw [e, hreq]
    dsimp only
    rw [if_neg (by simp)]
    rw [hrs]
    rfl
  rw [hr]
  have hmine : ∀ v, v ≠ u → (v ∈ c2.reg ↔ v ∈ s.c.reg) ∧ c2.g v = s.c.g v ∧ c2.det v = s.c.det v := by
    intro v hv
    have := s5 v (by
      rintro (q | q)
      · exact hv (l5 v q)
      · exact hv (hor v q).1)
    rw [hc0] at this
    exact this
  have hsu := s1 u (by rw [s3, hcu]; exact hnc)
  have hgy : c2.g u = y := by
    by_cases hve : y = ∅
    · have := s5 u (by
        rintro (q | q)
        · rw [mem_uids] at q
          rcases q with q | q | q
          · exact l7.1 (l1.ebuf.live u (Or.inl q)) hve
          · exact l7.1 (l1.ebuf.live u (Or.inr q)) hve
          · exact hntr (by rw [← f3]; exact l1.known u (Or.inr q))
        · exact (hor u q).2 hve)
      rw [this.2.1, hgu, hve]
    · rw [hsu.2 (hsu.1.2 (l7.2 hve)), l8 hve]
  have hin : u ∈ c2.reg ↔ y ≠ ∅ := hsu.1.trans l7
  refine ⟨rfl, h.loaded (y := y) (c' := { c2 with ctx := s.c.ctx }) (t' := { t2 with engine := .empty }) hu0 hm hs.cctx l1.ctx (s3.trans hcu) (l2.trans f2) ((s4 (by rw [hc0]; show s.c.root ≠ none; rw [h.croot]; simp)).trans (by rw [hc0])) (l4.trans f6) (l3.trans f5)
    hmine ?_ ⟨hin, hgy⟩ ?_ ?_ ?_ m1 m2 m3, l3.trans f5, ?_⟩
  · intro v hv
    have := l6 v hv
    rw [f3, f4] at this
    exact this
  · refine ⟨l7, l8, fun q => ?_⟩
    show t2.g u = _
    rw [l9 q, f4]
  · intro v hv
    have hv' : v ∈ c2.expired := hv
    have := (s6 v).1 hv'
    rw [hc0] at this
    have hvr : v ∈ s.c.reg := this.1
    have hvu : v ≠ u := by rintro rfl; exact hnr hvr
    refine ⟨(hmine v hvu).1.2 hvr, fun q => ?_⟩
    rcases this.2.1 with q' | q'
    · exact ((mem_del ..).1 q').1
    · exact absurd q q'.2
  · intro v hv q
    exact (fx v (l10 v hv)).2 q
  · refine shown_update (fun v hv => ⟨(hmine v hv).1, (hmine v hv).2.1⟩) ?_
    unfold asObject
    by_cases hve : y = ∅
    · rw [if_pos hve]; exact shown_neg (fun q => hin.1 q hve)
    · rw [if_neg hve]
      exact (shown_pos (by exact hin.2 hve)).trans (congrArg some hgy)

end Osp.Clients
