import Verif.Remote.Read
/-!
# Loading objects into a client session
-/
namespace Osp.Remote
open Osp.Sess Osp.Sync

variable {r : Uid} {m : View} {s : RSt} {P : Params}

theorem View.load_same {u : Uid} (h : m.has u ∨ m.view u = ∅) : m.step (.load u) = m := by
  have : (fun v => (v = u ∧ m.view u ≠ ∅) ∨ m.has v) = m.has := by
    funext v
    apply propext
    constructor
    · rintro (⟨rfl, q⟩ | q)
      · rcases h with h | h
        · exact h
        · exact absurd h q
      · exact q
    · exact Or.inr
  show ({ m with has := fun v => (v = u ∧ m.view u ≠ ∅) ∨ m.has v } : View) = m
  rw [this]

/-- An object that was loaded. -/
theorem Good.loaded (h : Good r m s) {u : Uid} (hu0 : u ≠ 0) (hd : ¬ m.dead u) (hh : ¬ m.has u) {c' t' : St} (h1 : c'.ctx = .user) (h2 : t'.ctx = .user) (h3 : c'.user = s.c.user) (h4 : t'.user = s.t.user)
    (h5 : c'.root = s.c.root) (h6 : t'.root = s.t.root) (h7 : t'.db = s.t.db)
    (hc : ∀ v, v ≠ u → (v ∈ c'.reg ↔ v ∈ s.c.reg) ∧ c'.g v = s.c.g v ∧ c'.det v = s.c.det v)
    (ht : ∀ v, v ≠ u → (v ∈ t'.reg ↔ v ∈ s.t.reg) ∧ t'.g v = s.t.g v)
    (hcu : (u ∈ c'.reg ↔ m.view u ≠ ∅) ∧ c'.g u = m.view u) (htu : (u ∈ t'.reg ↔ m.view u ≠ ∅) ∧ (m.view u ≠ ∅ → t'.g u = m.view u) ∧ (m.view u = ∅ → t'.g u = s.t.g u))
    (hcx : ∀ v ∈ c'.expired, v ∈ c'.reg ∧ (v ∈ s.c.user.uids → v ∈ s.c.expired)) (htx : ∀ v ∈ t'.expired, v ∈ s.t.user.uids → v ∈ s.t.expired) :
    Good r (m.step (.load u)) ⟨c', t'⟩ := by
  have hs := h.sync
  have hnr : u ∉ s.c.reg := fun q => hh ((h.has u).1 q)
  have hdu := h.dead1 u
  have hlive := hs.cbuf.live u
  have hnc : u ∉ s.c.user.uids := by rw [mem_uids]; tauto
  have hntr : u ∉ s.t.reg := fun q => hnr ((hs.same u hnc).1.2 q)
  have hlt := hs.tbuf.live u
  have hnt : u ∉ s.t.user.uids := by rw [mem_uids]; tauto
  have hview := h.out u hu0 hh hd
  have key : ∀ (p : Uid → Prop), p u → (∀ v, v ≠ u → p v) → ∀ v, p v := by
    intro p hp hq v
    by_cases hv : v = u
    · subst hv; exact hp
    · exact hq v hv
  have hne : ∀ {b : Prop} {v : Uid}, v ∈ s.c.user.uids → v ≠ u := by rintro _ v hv rfl; exact hnc hv
  have hcont : ∀ v, v ≠ u → c'.content v = s.c.content v := by
    intro v hv
    obtain ⟨q1, q2, q3⟩ := hc v hv
    unfold St.content
    by_cases hr : v ∈ s.c.reg
    · rw [if_pos hr, if_pos (q1.2 hr), q2]
    · rw [if_neg hr, if_neg (fun q => hr (q1.1 q)), q3]
  have hhas : (m.step (.load u)).has u ↔ m.view u ≠ ∅ := by
    constructor
    · rintro (q | q)
      · exact q.2
      · exact absurd q hh
    · exact fun q => Or.inl ⟨rfl, q⟩
  have hhas' : ∀ v, v ≠ u → ((m.step (.load u)).has v ↔ m.has v) := by
    intro v hv
    constructor
    · rintro (q | q)
      · exact absurd q.1 hv
      · exact q
    · exact Or.inr
  have hur : r ≠ u := by rintro rfl; exact hh h.hasr
  refine ⟨⟨h1, h2, ⟨?_, ?_, ?_⟩, ?_, ⟨?_, ?_, ?_⟩, ?_, ?_, ?_, ?_⟩, h5.trans h.croot, h6.trans h.troot, (hhas' r hur).2 h.hasr, (ht r hur).1.2 h.tr, ?_, ?_, ?_, ?_, ?_, ?_, ?_, ?_, ?_, ?_, ?_, h.rsub, ?_, ?_, ?_, ?_, ?_, ?_⟩
  · rw [h3]; exact hs.cbuf.disj
  · show ∀ v, v ∈ c'.user.added ∨ v ∈ c'.user.updated → v ∈ c'.reg
    rw [h3]
    exact key _ (fun q => absurd (uids_live q) hnc) fun v hv => by rw [(hc v hv).1]; exact hs.cbuf.live v
  · show ∀ v ∈ c'.user.deleted, v ∉ c'.reg
    rw [h3]
    exact key _ (fun q => absurd (uids_changed (Or.inr q)) hnc) fun v hv => by rw [(hc v hv).1]; exact hs.cbuf.dead v
  · rw [h3]; exact hs.nodup
  · rw [h4]; exact hs.tbuf.disj
  · show ∀ v, v ∈ t'.user.added ∨ v ∈ t'.user.updated → v ∈ t'.reg
    rw [h4]
    exact key _ (fun q => absurd (uids_live q) hnt) fun v hv => by rw [(ht v hv).1]; exact hs.tbuf.live v
  · show ∀ v ∈ t'.user.deleted, v ∉ t'.reg
    rw [h4]
    exact key _ (fun q => absurd (uids_changed (Or.inr q)) hnt) fun v hv => by rw [(ht v hv).1]; exact hs.tbuf.dead v
  · show ∀ v ∈ c'.user.uids, c'.content v ≠ ∅
    rw [h3]
    exact key _ (fun q => absurd q hnc) fun v hv => by rw [hcont v hv]; exact hs.has v
  · show ∀ v ∈ c'.user.added, v ∉ t'.reg ∧ t'.g v = ∅
    rw [h3]
    exact key _ (fun q => absurd (uids_live (Or.inl q)) hnc) fun v hv => by rw [(ht v hv).1, (ht v hv).2]; exact hs.fresh v
  · show ∀ v, v ∈ c'.user.updated ∨ v ∈ c'.user.deleted → v ∈ t'.reg
    rw [h3]
    exact key _ (fun q => absurd (uids_changed q) hnc) fun v hv => by rw [(ht v hv).1]; exact hs.known v
  · show ∀ v, v ∉ c'.user.uids → (v ∈ c'.reg ↔ v ∈ t'.reg) ∧ (v ∈ c'.reg → c'.g v = t'.g v)
    rw [h3]
    exact key _ (fun _ => ⟨by rw [hcu.1, htu.1], fun q => by rw [hcu.2, htu.2.1 (hcu.1.1 q)]⟩) fun v hv => by
      rw [(ht v hv).1, (ht v hv).2, (hc v hv).1, (hc v hv).2.1]; exact hs.same v
  · exact key _ (by rw [hhas]; exact hcu.1) fun v hv => by
      show v ∈ c'.reg ↔ _
      rw [hhas' v hv, (hc v hv).1]; exact h.has v
  · exact key _ (fun _ => hcu.2) fun v hv => by
      show _ → c'.g v = m.view v
      rw [hhas' v hv, (hc v hv).2.1]; exact h.view v
  · exact key _ (fun q => hhas.1 q) fun v hv => by
      show _ → m.view v ≠ ∅
      rw [hhas' v hv]; exact h.full v
  · exact key _ (fun q => by
      show c'.g u = ∅
      rw [hcu.2]; rw [hhas] at q; exact Classical.not_not.1 q) fun v hv => by
      show _ → c'.g v = ∅
      rw [hhas' v hv, (hc v hv).2.1]; exact h.unreg v
  · intro v hv
    show t'.db (t'.slot v) = m.stored v
    rw [h7, slot_root (h6.trans h.troot), ← slot_root h.troot]; exact h.db v hv
  · obtain ⟨z1, z2, z3, z4⟩ := h.zero
    refine ⟨?_, ?_, ?_, ?_⟩
    · show 0 ∉ t'.reg
      rw [(ht 0 (fun q => hu0 q.symm)).1]; exact z1
    · show 0 ∉ t'.user.uids
      rw [h4]; exact z2
    · rw [hhas' 0 (fun q => hu0 q.symm)]; exact z3
    · show 0 ∉ c'.user.uids
      rw [h3]; exact z4
  · intro v hv
    obtain ⟨q1, q2⟩ := hcx v hv
    refine ⟨?_, ?_⟩
    · by_cases hvu : v = u
      · rw [hvu, hhas, ← hcu.1, ← hvu]; exact q1
      · rw [hhas' v hvu]; exact (h.has v).1 ((hc v hvu).1.1 q1)
    · show v ∉ c'.user.uids
      rw [h3]
      exact fun q => (h.cexp v (q2 q)).2 q
  · intro v hv
    show v ∉ t'.user.uids
    rw [h4]
    exact fun q => h.texp v (htx v hv q) q
  · show ∀ v ∈ t'.reg, v ∉ t'.user.uids → t'.g v = m.stored v
    rw [h4]
    exact key _ (fun q _ => by rw [htu.2.1 (htu.1.1 q), hview]) fun v hv => by
      rw [(ht v hv).1, (ht v hv).2]; exact h.clean v
  · show ∀ v ∈ t'.user.added, _
    rw [h4]; exact h.tadd
  · show r ∈ t'.user.added → _
    rw [h4]; exact h.radd
  · show ∀ v ∈ c'.user.added, _ ∧ v ∉ t'.user.uids
    rw [h3, h4]; exact h.cadd
  · show ∀ v, v ∈ c'.user.deleted ∨ v ∈ t'.user.deleted → _
    rw [h3, h4]; exact h.dead1
  · show ∀ v, m.dead v → _ ∧ _ ∧ _ ∧ (_ ∨ v ∈ c'.user.deleted ∨ v ∈ t'.user.deleted)
    rw [h3, h4]
    exact key _ (fun q => absurd q hd) fun v hv => by rw [hhas' v hv]; exact h.dead2 v
  · exact key _ (fun _ _ _ => hview) fun v hv => by
      rw [hhas' v hv]; exact h.out v
  · show ∀ v, _ → v ∉ t'.reg → _ → m.stored v ≠ ∅ → t'.g v = ∅
    exact key _ (fun _ q1 _ q2 => absurd (htu.1.2 (by rw [hview]; exact q2)) q1) fun v hv => by
      rw [(ht v hv).1, (ht v hv).2]; exact h.left v
  · show ∀ v, ¬ m.used v → v ∉ t'.reg ∧ t'.g v = ∅ ∧ v ∉ t'.user.uids ∧ _ ∧ v ∉ c'.user.uids ∧ _ ∧ _
    rw [h3, h4]
    exact key _ (fun q => by
      obtain ⟨n1, n2, n3, n4, n5, n6, n7⟩ := h.new u q
      refine ⟨fun k => htu.1.1 k n7, by rw [htu.2.2 n7]; exact n2, n3, ?_, n5, n6, n7⟩
      rw [hhas]; exact fun k => k n7) fun v hv => by
      rw [(ht v hv).1, (ht v hv).2, hhas' v hv]; exact h.new v

/-- Only what is expired on the client changes. -/
theorem Good.setExp (h : Good r m s) {ex : List Uid} (e : Buf) (he : ∀ u ∈ ex, m.has u ∧ u ∉ s.c.user.uids) : Good r m ⟨{ s.c with engine := e, expired := ex }, s.t⟩ :=
  ⟨⟨h.sync.cctx, h.sync.tctx, h.sync.cbuf, h.sync.nodup, h.sync.tbuf, h.sync.has, h.sync.fresh, h.sync.known, h.sync.same⟩,
    h.croot, h.troot, h.hasr, h.tr, h.has, h.view, h.full, h.unreg, h.db, h.zero, he, h.texp, h.clean, h.tadd, h.radd, h.rsub, h.cadd, h.dead1, h.dead2, h.out, h.left, h.new⟩

/-- `expire` on the client. -/
theorem Good.expire (h : Good r m s) (us : List Uid) : Good r m (Remote.expire s us) := by
  have := h.setExp (ex := (s.c.expire us).2.expired) s.c.engine (by
    intro u hu
    rw [(expire_exact s.c us u).1] at hu
    rw [mem_uids]
    refine ⟨(h.has u).1 hu.1, ?_⟩
    rcases hu.2 with q | q
    · have := (h.cexp u q).2
      rw [mem_uids] at this; exact this
    · tauto)
  exact this

set_option maxHeartbeats 1000000 in
/-- The server's `load` of an object it does not have. -/
theorem load_new {t : St} {u : Uid} (hc : t.ctx = .user) (hr : t.root ≠ none) (hu : u ∉ t.reg) (hn : u ∉ t.user.uids) (hb : GoodBuf t.user t.reg) (hx : u ∉ t.expired)
    (hg : t.db (t.slot u) ≠ ∅ → t.g u = ∅) :
    ∃ t', t.load P [u] = (.ok [if t.db (t.slot u) = ∅ then none else some u], t') ∧ Recorded t [if t.db (t.slot u) = ∅ then none else some u] t' ∧
      t'.user = t.user ∧ t'.db = t.db ∧ t'.root = t.root ∧ (∀ v ∈ t'.engine.uids, v = u) ∧ (∀ v, v ≠ u → (v ∈ t'.reg ↔ v ∈ t.reg) ∧ t'.g v = t.g v) ∧
      (u ∈ t'.reg ↔ t.db (t.slot u) ≠ ∅) ∧ (t.db (t.slot u) ≠ ∅ → t'.g u = t.db (t.slot u)) ∧ (t.db (t.slot u) = ∅ → t'.g u = t.g u) ∧ (∀ v ∈ t'.expired, v ∈ t.expired) := by
  rw [load_unfold hc hr]
  have hf : [u].filter (fun v => v ∉ t.reg ∨ v ∈ [u].filter (· ∈ t.expired)) = [u] := by simp [hu]
  rw [hf]
  unfold St.loadStep
  rw [if_neg (by simp), if_neg (by exact hu)]
  by_cases hdb : t.db (t.slot u) = ∅
  · have hl : (St.start t u).loadByIri u = (.ok none, St.start t u) := by
      unfold St.loadByIri
      dsimp only
      rw [if_pos (by exact hdb)]
    dsimp only
    rw [hl]
    dsimp only [St.afterLoad]
    rw [if_pos hdb]
    refine ⟨_, rfl, ?_, rfl, rfl, rfl, ?_, fun _ _ => ⟨Iff.rfl, rfl⟩, ?_, fun h => absurd hdb h, fun _ => rfl, fun v hv => (List.mem_filter.1 hv).1⟩
    · refine ⟨rfl, hb, ⟨disj_empty, by simp [Buf.empty], by simp [Buf.empty]⟩, by simp [Buf.empty], by simp [Buf.empty, Buf.uids], by simp [Buf.empty], by simp [Buf.empty],
        fun v _ => ⟨Iff.rfl, fun _ => rfl⟩, by simp⟩
    · simp [Buf.empty, Buf.uids]
    · exact ⟨fun q => absurd q hu, fun q => absurd hdb q⟩
  · obtain ⟨s1, hl, hs1⟩ : ∃ s1, (St.start t u).loadByIri u = (.ok (some u), s1) ∧ s1 = { t with
        reg := t.reg ++ [u],
        expired := del (t.expired.filter (· ∉ [u].filter (· ∈ t.expired))) u,
        g := Function.update t.g u (t.db (t.slot u)),
        engine := ⟨[u], [], []⟩,
        ctx := .engine } := by
      refine ⟨_, ?_, rfl⟩
      unfold St.loadByIri
      dsimp only
      rw [if_neg (by exact hdb), if_neg (by exact hu)]
      have hst : St.store { St.start t u with expired := del (St.start t u).expired u } u ∅ = { t with
          reg := t.reg ++ [u],
          expired := del (t.expired.filter (· ∉ [u].filter (· ∈ t.expired))) u,
          engine := ⟨[u], [], []⟩,
          ctx := .engine } := by
        unfold St.store
        simp only [St.buf, St.setBuf]
        rw [if_neg (by exact hu)]
        obtain ⟨r0, hr0⟩ := Option.ne_none_iff_exists'.1 hr
        simp [ins, del, hu, Buf.empty, hr0]
      rw [hst]
      dsimp only
      unfold St.notifyUpdate St.buf
      dsimp only
      rw [if_neg (by simp), if_neg (by simp)]
      dsimp only
      rw [hg hdb, empty_union']
      rfl
    dsimp only
    rw [hl]
    dsimp only [St.afterLoad]
    rw [if_neg hdb]
    have hR : ∀ v, v ∈ s1.reg ↔ v ∈ t.reg ∨ v = u := by intro v; rw [hs1]; simp
    have hE : s1.engine = ⟨[u], [], []⟩ := by rw [hs1]
    have hU : s1.user = t.user := by rw [hs1]
    have hgv : ∀ v, v ≠ u → s1.g v = t.g v := by intro v hv; rw [hs1]; exact Function.update_of_ne hv _ _
    have hgu : s1.g u = t.db (t.slot u) := by rw [hs1]; exact Function.update_self ..
    refine ⟨_, rfl, ⟨rfl, ?_, ?_, ?_, ?_, ?_, ?_, ?_, ?_⟩, hU, by rw [hs1], by rw [hs1], ?_, ?_, ?_, fun _ => hgu, fun h => absurd h hdb, ?_⟩
    · show GoodBuf s1.user s1.reg
      rw [hU]
      refine ⟨hb.disj, fun v hv => (hR v).2 (Or.inl (hb.live v hv)), fun v hv q => ?_⟩
      rcases (hR v).1 q with q | q
      · exact hb.dead v hv q
      · subst q; exact hn (uids_changed (Or.inr hv))
    · show GoodBuf s1.engine s1.reg
      rw [hE]
      refine ⟨by intro v; simp, fun v hv => ?_, by simp⟩
      obtain rfl : v = u := by simpa using hv
      exact (hR v).2 (Or.inr rfl)
    · show s1.engine.deleted.Nodup
      rw [hE]; simp
    · intro v hv
      have hv' : v ∈ s1.engine.uids := hv
      rw [hE] at hv'
      obtain rfl : v = u := by simpa [Buf.uids] using hv'
      show St.content s1 v ≠ ∅
      unfold St.content
      rw [if_pos ((hR v).2 (Or.inr rfl)), hgu]; exact hdb
    · intro v hv
      have hv' : v ∈ s1.engine.added := hv
      rw [hE] at hv'
      obtain rfl : v = u := by simpa using hv'
      exact hu
    · intro v hv
      have hv' : v ∈ s1.engine.updated ∨ v ∈ s1.engine.deleted := hv
      rw [hE] at hv'
      simp at hv'
    · intro v hv
      have hv' : v ∉ s1.engine.uids := hv
      rw [hE] at hv'
      have hvu : v ≠ u := by rintro rfl; exact hv' (by simp [Buf.uids])
      exact ⟨by show v ∈ s1.reg ↔ _; rw [hR]; tauto, fun _ => hgv v hvu⟩
    · intro v hv
      obtain rfl : v = u := by simpa using hv
      exact ⟨(hR v).2 (Or.inr rfl), by show s1.g v ≠ ∅; rw [hgu]; exact hdb⟩
    · intro v hv
      have hv' : v ∈ s1.engine.uids := hv
      rw [hE] at hv'
      simpa [Buf.uids] using hv'
    · intro v hv
      exact ⟨by show v ∈ s1.reg ↔ _; rw [hR]; tauto, hgv v hv⟩
    · exact ⟨fun _ => hdb, fun _ => (hR u).2 (Or.inr rfl)⟩
    · intro v hv
      have hv' : v ∈ s1.expired := hv
      rw [hs1] at hv'
      exact (List.mem_filter.1 ((mem_del ..).1 hv').1).1

set_option maxHeartbeats 1000000 in
/-- Loading. -/
theorem Good.load (hT : HasType P) (h : Good r m s) {u : Uid} (hu0 : u ≠ 0) (hd : ¬ m.dead u) :
    (Remote.load P s u).1 = .ok [if m.view u = ∅ then none else some u] ∧ Good r (m.step (.load u)) (Remote.load P s u).2 := by
  have hs := h.sync
  by_cases hh : m.has u
  · have hreg := (h.has u).2 hh
    rw [View.load_same (Or.inl hh), if_neg (h.full u hh)]
    by_cases hx : u ∈ s.c.expired
    · -- read from the server
      obtain ⟨-, hn⟩ := h.cexp u hx
      obtain ⟨htr, htg⟩ := h.inT hh hn
      have hexp : s.c.expire [u] = ([u], s.c) := by
        have e1 : (s.c.expired ++ [u].filter (· ∉ s.c.expired)).filter (· ∈ s.c.reg) = s.c.expired := by
          have : [u].filter (· ∉ s.c.expired) = [] := by simp [hx]
          rw [this, List.append_nil, List.filter_eq_self]
          intro v hv
          simpa using (h.has v).2 (h.cexp v hv).1
        have e2 : [u].filter (· ∉ s.c.user.uids) = [u] := by simp [hn]
        unfold St.expire
        dsimp only
        rw [e2, e1]
        simp [hreg]
      obtain ⟨rs, c', t', e1, e2, e3⟩ := read_refreshes hT h.sync (by rw [h.croot]; simp) (by rw [h.troot]; simp) hreg hx hn (by rw [htg]; exact h.full u hh)
        (fun q1 q2 => h.texp u q2 q1)
      have hr : Remote.load P s u = (.ok rs, ⟨c', t'⟩) := by
        unfold Remote.load
        unfold Sync.read at e1
        rw [if_pos hx, hexp] at e1
        dsimp only at e1
        rw [show (fetch P) = fun us t => t.load P us from rfl, e1]
      have hg := h.refreshed hx e2
      rw [hr]
      refine ⟨?_, hg⟩
      rw [e3, if_pos ((hg.has u).2 hh)]
    · have hr : Remote.load P s u = (.ok [some u], ⟨{ s.c with engine := .empty, expired := del s.c.expired u }, s.t⟩) := by
        unfold Remote.load load1
        rw [if_neg (by rw [h.croot]; simp)]
        dsimp only
        rw [if_pos ⟨hreg, hx⟩]
      rw [hr]
      exact ⟨rfl, h.setExp _ fun v hv => h.cexp v ((mem_del ..).1 hv).1⟩
  · have hnr : u ∉ s.c.reg := fun q => hh ((h.has u).1 q)
    have hdu := h.dead1 u
    have hlive := hs.cbuf.live u
    have hnc : u ∉ s.c.user.uids := by rw [mem_uids]; tauto
    have hntr : u ∉ s.t.reg := fun q => hnr ((hs.same u hnc).1.2 q)
    have hlt := hs.tbuf.live u
    have hnt : u ∉ s.t.user.uids := by rw [mem_uids]; tauto
    have hview := h.out u hu0 hh hd
    obtain ⟨t1, ht1⟩ : ∃ t1, t1 = (s.t.expire (del s.c.expired u)).2 := ⟨_, rfl⟩
    have f1 : t1.ctx = s.t.ctx ∧ t1.user = s.t.user ∧ t1.reg = s.t.reg ∧ t1.g = s.t.g ∧ t1.db = s.t.db ∧ t1.root = s.t.root := by rw [ht1]; exact ⟨rfl, rfl, rfl, rfl, rfl, rfl⟩
    obtain ⟨f1, f2, f3, f4, f5, f6⟩ := f1
    have fx : ∀ v ∈ t1.expired, v ∈ s.t.reg ∧ (v ∈ s.t.user.uids → v ∈ s.t.expired) := by
      intro v hv
      rw [ht1, (expire_exact s.t (del s.c.expired u) v).1] at hv
      rw [mem_uids]
      tauto
    have fdb : t1.db (t1.slot u) = m.view u := by
      rw [f5, slot_root (f6.trans h.troot), ← slot_root h.troot, h.db u hu0, hview]
    obtain ⟨t2, l0, l1, l2, l3, l4, l5, l6, l7, l8, l9, l10⟩ := load_new (P := P) (t := t1) (u := u) (f1.trans hs.tctx) (by rw [f6, h.troot]; simp) (by rw [f3]; exact hntr) (by rw [f2]; exact hnt)
      (by rw [f2, f3]; exact hs.tbuf) (fun q => hntr (fx u q).1) (by
        rw [fdb, f4, hview]
        exact fun q => h.left u hu0 hntr hd q)
    rw [fdb] at l0 l1 l7 l8 l9
    obtain ⟨rs, hrs⟩ : ∃ rs, rs = [if m.view u = ∅ then none else some u] := ⟨_, rfl⟩
    rw [← hrs] at l0 l1 ⊢
    have hor : ∀ v, some v ∈ rs → v = u ∧ m.view u ≠ ∅ := by
      intro v hv
      rw [hrs] at hv
      by_cases hve : m.view u = ∅
      · rw [if_pos hve] at hv; simp at hv
      · rw [if_neg hve] at hv; exact ⟨by simpa using hv, hve⟩
    obtain ⟨c0, hc0⟩ : ∃ c0 : St, c0 = { s.c with engine := .empty, ctx := .engine, expired := del s.c.expired u } := ⟨_, rfl⟩
    have hcu : c0.user = s.c.user := by rw [hc0]
    have hsame : Same c0 t1 := by
      intro v hv
      rw [hcu] at hv
      rw [f3, f4, hc0]
      exact hs.same v hv
    have hgu : c0.g u = ∅ := by rw [hc0]; exact h.unreg u hh
    obtain ⟨c2, hde, s1, s2, s3, s4, s5, s6⟩ := response_same (c := c0) (by intro _; rw [hc0]) hsame l1 (by
      intro v hv
      rw [hcu]
      have : v = u := by
        rcases hv with hv | hv
        · exact l5 v hv
        · exact (hor v hv).1
      rw [this]; exact hnc) (by
      intro v hv
      rw [l5 v (uids_live (Or.inl hv)), hgu]; exact Finset.empty_subset _)
    have hreq : request .fine ⟨none, c0.expired, []⟩ (fetch P [u]) c0 s.t = ⟨.ok rs, c2, { t2 with engine := .empty }⟩ := by
      unfold request
      have hsv : serve (fetch P [u]) ⟨none, c0.expired, []⟩ s.t = (some (respond rs t2).1, (respond rs t2).2) := by
        unfold serve
        have hde : deserialize .user ⟨none, c0.expired, []⟩ s.t = (.ok [], t1) := by rw [ht1, hc0]; rfl
        rw [hde]
        dsimp only
        rw [show fetch P [u] t1 = t1.load P [u] from rfl, l0]
      rw [if_neg (by decide), hsv]
      dsimp only
      rw [if_neg (by decide), hde]
      rfl
    have hr : Remote.load P s u = (.ok rs, ⟨{ c2 with ctx := s.c.ctx }, { t2 with engine := .empty }⟩) := by
      unfold Remote.load load1
      rw [if_neg (by rw [h.croot]; simp)]
      dsimp only
      have hxu : u ∉ s.c.expired := fun q => hh (h.cexp u q).1
      rw [if_neg (by tauto), if_neg hnr, if_neg hxu, ← hc0]
      have e : del s.c.expired u = c0.expired := by rw [hc0]
      rw [e, hreq]
      dsimp only
      rw [if_neg (by simp)]
      rw [hrs]
      rfl
    rw [hr]
    refine ⟨rfl, h.loaded hu0 hd hh hs.cctx l1.ctx (s3.trans hcu) (l2.trans f2) ((s4 (by rw [hc0]; show s.c.root ≠ none; rw [h.croot]; simp)).trans (by rw [hc0])) (l4.trans f6) (l3.trans f5)
      ?_ ?_ ?_ ?_ ?_ ?_⟩
    · intro v hv
      have := s5 v (by
        rintro (q | q)
        · exact hv (l5 v q)
        · exact hv (hor v q).1)
      rw [hc0] at this
      exact this
    · intro v hv
      have := l6 v hv
      rw [f3, f4] at this
      exact this
    · have hsu := s1 u (by rw [s3, hcu]; exact hnc)
      refine ⟨hsu.1.trans l7, ?_⟩
      show c2.g u = _
      by_cases hve : m.view u = ∅
      · have := s5 u (by
          rintro (q | q)
          · rw [mem_uids] at q
            rcases q with q | q | q
            · exact l7.1 (l1.ebuf.live u (Or.inl q)) hve
            · exact l7.1 (l1.ebuf.live u (Or.inr q)) hve
            · exact hntr (by rw [← f3]; exact l1.known u (Or.inr q))
          · exact (hor u q).2 hve)
        rw [this.2.1, hgu, hve]
      · rw [hsu.2 (hsu.1.2 (l7.2 hve)), l8 hve]
    · refine ⟨l7, l8, fun q => ?_⟩
      show t2.g u = _
      rw [l9 q, f4]
    · intro v hv
      have hv' : v ∈ c2.expired := hv
      have := (s6 v).1 hv'
      rw [hc0] at this
      have hvr : v ∈ s.c.reg := this.1
      have hvu : v ≠ u := by rintro rfl; exact hnr hvr
      refine ⟨?_, fun q => ?_⟩
      · show v ∈ c2.reg
        have k := s5 v (by
          rintro (q | q)
          · exact hvu (l5 v q)
          · exact hvu (hor v q).1)
        rw [k.1, hc0]; exact hvr
      · rcases this.2.1 with q' | q'
        · exact ((mem_del ..).1 q').1
        · exact absurd q q'.2
    · intro v hv q
      exact (fx v (l10 v hv)).2 q

end Osp.Remote
