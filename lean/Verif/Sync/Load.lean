import Verif.Sync.Props
/-!
# Reading an expired object through the server (C58)
-/
namespace Osp.Sync
open Osp.Sess

/-- Every object with triples has a type. -/
def HasType (P : Params) : Prop := ∀ c, c ≠ ∅ → P.typePart c ≠ ∅

/-- What the server's `load` of one registered object does. -/
structure Loaded (t : St) (u : Uid) (rs : List (Option Uid)) (t' : St) : Prop where
  rec_ : Recorded t rs t'
  user : t'.user = t.user
  db : t'.db = t.db
  root : t'.root = t.root
  only : ∀ v ∈ t'.engine.uids, v = u
  reg : ∀ v, v ≠ u → (v ∈ t'.reg ↔ v ∈ t.reg)
  g : ∀ v, v ≠ u → t'.g v = t.g v
  noNew : t'.engine.added = []
  exp : ∀ v ∈ t'.expired, v ∈ t.user.uids → v ∈ t.expired
  res : rs = [some u] ∨ rs = [none]
  found : u ∈ t.expired → t.db (t.slot u) ≠ ∅ → rs = [some u] ∧ t'.g u = t.db (t.slot u)
  gone : u ∈ t.expired → t.db (t.slot u) = ∅ → rs = [none] ∧ u ∉ t'.reg
  current : u ∉ t.expired → rs = [some u] ∧ t'.g u = t.g u

theorem recorded_nothing {t t' : St} {u : Uid} (h1 : t'.ctx = .user) (h2 : GoodBuf t'.user t'.reg) (h3 : t'.engine = .empty) (h4 : t'.reg = t.reg) (h5 : t'.g = t.g)
    (h6 : u ∈ t'.reg ∧ t'.g u ≠ ∅) : Recorded t [some u] t' := by
  refine ⟨h1, h2, ?_, ?_, ?_, ?_, ?_, ?_, ?_⟩
  · rw [h3]; exact ⟨disj_empty, by simp [Buf.empty], by simp [Buf.empty]⟩
  · rw [h3]; simp [Buf.empty]
  · rw [h3]; simp [Buf.empty, Buf.uids]
  · rw [h3]; simp [Buf.empty]
  · rw [h3]; simp [Buf.empty]
  · intro v _; rw [h4, h5]; exact ⟨Iff.rfl, fun _ => rfl⟩
  · intro v hv; obtain rfl : v = u := by simpa using hv
    exact h6

/-- The state of the server before the object is loaded: in the engine context, with empty engine buffers, and no longer expired. -/
abbrev St.start (t : St) (u : Uid) : St := { t with expired := t.expired.filter (· ∉ [u].filter (· ∈ t.expired)), engine := .empty, ctx := .engine }

theorem load_unfold {P : Params} {t : St} {u : Uid} (hc : t.ctx = .user) (hr : t.root ≠ none) :
    t.load P [u] = match St.loadStep P [u] ([u].filter (fun v => v ∉ t.reg ∨ v ∈ [u].filter (· ∈ t.expired))) u (St.start t u) with
      | (.error e, s) => (.error e, { s with ctx := .user })
      | (.ok x, s) => (.ok [x], { s with ctx := .user }) := by
  unfold St.load
  rw [if_neg hr]
  dsimp only
  unfold St.loadLoop St.inEngine
  dsimp only
  rw [hc, if_pos (by decide)]
  dsimp only
  generalize St.loadStep P [u] _ u _ = r
  obtain ⟨r1, r2⟩ := r
  cases r1 with
  | error e => rfl
  | ok x => rfl

/-- An object that is not expired: it is taken from the registry. -/
theorem load_current {P : Params} {t : St} {u : Uid} (hc : t.ctx = .user) (hr : t.root ≠ none) (hu : u ∈ t.reg) (hb : GoodBuf t.user t.reg) (hg : t.g u ≠ ∅) (hx : u ∉ t.expired) :
    ∃ rs t', t.load P [u] = (.ok rs, t') ∧ Loaded t u rs t' := by
  rw [load_unfold hc hr]
  have hf : [u].filter (fun v => v ∉ t.reg ∨ v ∈ [u].filter (· ∈ t.expired)) = [] := by
    simp [hu, hx]
  rw [hf]
  unfold St.loadStep
  rw [if_pos (by simp), if_pos (by exact hu)]
  refine ⟨_, _, rfl, ?_⟩
  refine ⟨recorded_nothing rfl hb rfl rfl rfl ⟨hu, hg⟩, rfl, rfl, rfl, ?_, fun _ _ => Iff.rfl, fun _ _ => rfl, rfl, fun v hv _ => (List.mem_filter.1 hv).1, Or.inl rfl, fun h => absurd h hx, fun h => absurd h hx, fun _ => ⟨rfl, rfl⟩⟩
  simp [Buf.empty, Buf.uids]

theorem afterLoad_some (P : Params) (uids : List Uid) (o : Content) (u w : Uid) (s : St) :
    ∃ ex, St.afterLoad P uids (some o) u (some w) s = (.ok (some w), { s with expired := ex }) ∧ ∀ v ∈ ex, v ∈ s.user.uids → v ∈ s.expired := by
  unfold St.afterLoad
  dsimp only
  rw [if_neg (by simp)]
  split
  · exact ⟨s.expired, rfl, fun _ h _ => h⟩
  · refine ⟨(s.expire ((P.diff o (if (some w).isSome then s.g u else ∅)).filter (· ∉ uids))).2.expired, rfl, ?_⟩
    intro v hv hu
    rw [(expire_exact ..).1] at hv
    rw [mem_uids] at hu
    tauto

theorem afterLoad_none (P : Params) (uids : List Uid) (o : Content) (u : Uid) (s : St) (hu : u ∈ s.reg) :
    ∃ ex, St.afterLoad P uids (some o) u none s = (.ok none,
      St.notifyDelete { s with expired := ex, reg := del s.reg u, det := Function.update s.det u (P.typePart (s.g u)), g := Function.update s.g u ∅ } u) ∧
      ∀ v ∈ ex, v ∈ s.user.uids → v ∈ s.expired := by
  unfold St.afterLoad
  dsimp only
  split
  · refine ⟨s.expired, ?_, fun _ h _ => h⟩
    rw [if_pos ⟨rfl, hu⟩]
    unfold St.deleteTriples
    rw [if_neg (by simpa using hu)]
  · refine ⟨(s.expire ((P.diff o (if (none : Option Uid).isSome then s.g u else ∅)).filter (· ∉ uids))).2.expired, ?_, ?_⟩
    · rw [if_pos ⟨rfl, by exact hu⟩]
      unfold St.deleteTriples
      rw [if_neg (by simpa using (show u ∈ (s.expire ((P.diff o (if (none : Option Uid).isSome then s.g u else ∅)).filter (· ∉ uids))).2.reg from hu))]
      rfl
    · intro v hv hu
      rw [(expire_exact ..).1] at hv
      rw [mem_uids] at hu
      tauto

/-- An expired object the backend has. -/
theorem load_found {P : Params} {t : St} {u : Uid} (hc : t.ctx = .user) (hr : t.root ≠ none) (hu : u ∈ t.reg) (hb : GoodBuf t.user t.reg) (hx : u ∈ t.expired)
    (hdb : t.db (t.slot u) ≠ ∅) : ∃ rs t', t.load P [u] = (.ok rs, t') ∧ Loaded t u rs t' := by
  rw [load_unfold hc hr]
  have hf : [u].filter (fun v => v ∉ t.reg ∨ v ∈ [u].filter (· ∈ t.expired)) = [u] := by
    simp [hx]
  rw [hf]
  unfold St.loadStep
  rw [if_neg (by simp), if_pos (by exact hu)]
  obtain ⟨s1, hl, hs1⟩ : ∃ s1, (St.start t u).loadByIri u = (.ok (some u), s1) ∧ s1 = { t with
      expired := del (t.expired.filter (· ∉ [u].filter (· ∈ t.expired))) u,
      g := Function.update t.g u (t.db (t.slot u)),
      engine := ⟨[], [u], []⟩,
      ctx := .engine } := by
    refine ⟨_, ?_, rfl⟩
    unfold St.loadByIri
    dsimp only
    rw [if_neg (by exact hdb), if_pos (by exact hu)]
    unfold St.notifyUpdate St.buf St.setBuf
    simp [Buf.empty]
    congr 1
    ext x
    simp
    rfl
  dsimp only
  rw [hl]
  dsimp only
  obtain ⟨ex, he, hex⟩ := afterLoad_some P [u] ((St.start t u).g u) u u s1
  rw [he]
  refine ⟨_, _, rfl, ?_⟩
  have hg : ∀ v, v ≠ u → s1.g v = t.g v := by
    intro v hv; rw [hs1]; exact Function.update_of_ne hv _ _
  have hgu : s1.g u = t.db (t.slot u) := by rw [hs1]; exact Function.update_self ..
  have hR : s1.reg = t.reg := by rw [hs1]
  have hE : s1.engine = ⟨[], [u], []⟩ := by rw [hs1]
  have hU : s1.user = t.user := by rw [hs1]
  have hu1 : ∀ v ∈ s1.engine.uids, v = u := by rw [hE]; simp [Buf.uids]
  refine ⟨⟨rfl, ?_, ?_, ?_, ?_, ?_, ?_, ?_, ?_⟩, hU, by rw [hs1], by rw [hs1], hu1, fun v _ => by show v ∈ s1.reg ↔ _; rw [hR], hg, by rw [hE], ?_, Or.inl rfl,
    fun _ _ => ⟨rfl, hgu⟩, fun _ h => absurd h hdb, fun h => absurd hx h⟩
  · show GoodBuf s1.user s1.reg
    rw [hU, hR]; exact hb
  · show GoodBuf s1.engine s1.reg
    rw [hE, hR]
    refine ⟨?_, ?_, by simp⟩
    · intro v; simp
    · intro v hv
      obtain rfl : v = u := by simpa using hv
      exact hu
  · show s1.engine.deleted.Nodup
    rw [hE]; simp
  · intro v hv
    obtain rfl := hu1 v hv
    show St.content s1 v ≠ ∅
    unfold St.content
    rw [hR, if_pos hu, hgu]; exact hdb
  · intro v hv
    have : v ∈ s1.engine.added := hv
    rw [hE] at this
    simp at this
  · intro v hv
    have : v ∈ s1.engine.updated ∨ v ∈ s1.engine.deleted := hv
    rw [hE] at this
    obtain rfl : v = u := by simpa using this
    exact hu
  · intro v hv
    have hv' : v ∉ s1.engine.uids := hv
    have : v ≠ u := by rintro rfl; exact hv' (by rw [hE]; simp [Buf.uids])
    exact ⟨by show v ∈ s1.reg ↔ _; rw [hR], fun _ => hg v this⟩
  · intro v hv
    obtain rfl : v = u := by simpa using hv
    exact ⟨by show v ∈ s1.reg; rw [hR]; exact hu, by show s1.g v ≠ ∅; rw [hgu]; exact hdb⟩
  · intro v hv hvu
    have := hex v hv (by rw [hU]; exact hvu)
    rw [hs1] at this
    exact (List.mem_filter.1 ((mem_del ..).1 this).1).1

/-- An expired object the backend does not have any more. -/
theorem load_gone {P : Params} {t : St} {u : Uid} (hT : HasType P) (hc : t.ctx = .user) (hr : t.root ≠ none) (hu : u ∈ t.reg) (hb : GoodBuf t.user t.reg) (hn : u ∉ t.user.uids)
    (hg : t.g u ≠ ∅) (hx : u ∈ t.expired) (hdb : t.db (t.slot u) = ∅) : ∃ rs t', t.load P [u] = (.ok rs, t') ∧ Loaded t u rs t' := by
  rw [load_unfold hc hr]
  have hf : [u].filter (fun v => v ∉ t.reg ∨ v ∈ [u].filter (· ∈ t.expired)) = [u] := by
    simp [hx]
  rw [hf]
  unfold St.loadStep
  rw [if_neg (by simp), if_pos (by exact hu)]
  have hl : (St.start t u).loadByIri u = (.ok none, St.start t u) := by
    unfold St.loadByIri
    dsimp only
    rw [if_pos (by exact hdb)]
  dsimp only
  rw [hl]
  dsimp only
  obtain ⟨ex, he, hex⟩ := afterLoad_none P [u] ((St.start t u).g u) u (St.start t u) hu
  rw [he]
  obtain ⟨s1, hs, hs1⟩ : ∃ s1, St.notifyDelete { St.start t u with
      expired := ex, reg := del (St.start t u).reg u, det := Function.update (St.start t u).det u (P.typePart ((St.start t u).g u)), g := Function.update (St.start t u).g u ∅ } u = s1 ∧
      s1 = { t with
        reg := del t.reg u,
        g := Function.update t.g u ∅,
        det := Function.update t.det u (P.typePart (t.g u)),
        engine := ⟨[], [], [u]⟩,
        ctx := .engine,
        expired := ex } := by
    refine ⟨_, rfl, ?_⟩
    unfold St.notifyDelete St.buf St.setBuf
    simp [Buf.empty]
  rw [hs]
  refine ⟨_, _, rfl, ?_⟩
  have hgv : ∀ v, v ≠ u → s1.g v = t.g v := by
    intro v hv; rw [hs1]; exact Function.update_of_ne hv _ _
  have hR : ∀ v, v ∈ s1.reg ↔ v ∈ t.reg ∧ v ≠ u := by intro v; rw [hs1]; exact mem_del ..
  have hE : s1.engine = ⟨[], [], [u]⟩ := by rw [hs1]
  have hU : s1.user = t.user := by rw [hs1]
  have hu1 : ∀ v ∈ s1.engine.uids, v = u := by rw [hE]; simp [Buf.uids]
  refine ⟨⟨rfl, ?_, ?_, ?_, ?_, ?_, ?_, ?_, ?_⟩, hU, by rw [hs1], by rw [hs1], hu1, fun v hv => by show v ∈ s1.reg ↔ _; rw [hR]; tauto, hgv, by rw [hE], ?_, Or.inr rfl,
    fun _ h => absurd hdb h, fun _ _ => ⟨rfl, fun h => ((hR u).1 h).2 rfl⟩, fun h => absurd hx h⟩
  · show GoodBuf s1.user s1.reg
    rw [hU]
    refine ⟨hb.disj, ?_, ?_⟩
    · intro v hv
      rw [hR]
      refine ⟨hb.live v hv, ?_⟩
      rintro rfl
      exact hn ((mem_uids ..).2 (by tauto))
    · intro v hv h
      exact hb.dead v hv ((hR v).1 h).1
  · show GoodBuf s1.engine s1.reg
    rw [hE]
    refine ⟨?_, by simp, ?_⟩
    · intro v; simp
    · intro v hv h
      obtain rfl : v = u := by simpa using hv
      exact ((hR v).1 h).2 rfl
  · show s1.engine.deleted.Nodup
    rw [hE]; simp
  · intro v hv
    obtain rfl := hu1 v hv
    show St.content s1 v ≠ ∅
    unfold St.content
    rw [if_neg (fun h => ((hR v).1 h).2 rfl), hs1]
    show Function.update t.det v (P.typePart (t.g v)) v ≠ ∅
    rw [Function.update_self]
    exact hT _ hg
  · intro v hv
    have : v ∈ s1.engine.added := hv
    rw [hE] at this
    simp at this
  · intro v hv
    have : v ∈ s1.engine.updated ∨ v ∈ s1.engine.deleted := hv
    rw [hE] at this
    obtain rfl : v = u := by simpa using this
    exact hu
  · intro v hv
    have hv' : v ∉ s1.engine.uids := hv
    have : v ≠ u := by rintro rfl; exact hv' (by rw [hE]; simp [Buf.uids])
    exact ⟨by show v ∈ s1.reg ↔ _; rw [hR]; tauto, fun _ => hgv v this⟩
  · intro v hv
    simp at hv
  · intro v hv hvu
    have hv' : v ∈ s1.expired := hv
    rw [hs1] at hv'
    exact (List.mem_filter.1 (hex v hv' hvu)).1

/-- The server's `load` of one object of its session. -/
theorem load_loaded {P : Params} {t : St} {u : Uid} (hT : HasType P) (hc : t.ctx = .user) (hr : t.root ≠ none) (hu : u ∈ t.reg) (hb : GoodBuf t.user t.reg)
    (hg : t.g u ≠ ∅) (hn : u ∈ t.expired → u ∉ t.user.uids) : ∃ rs t', t.load P [u] = (.ok rs, t') ∧ Loaded t u rs t' := by
  by_cases hx : u ∈ t.expired
  · by_cases hdb : t.db (t.slot u) = ∅
    · exact load_gone hT hc hr hu hb (hn hx) hg hx hdb
    · exact load_found hc hr hu hb hx hdb
  · exact load_current hc hr hu hb hg hx

theorem uids_live {b : Buf} {v : Uid} (h : v ∈ b.added ∨ v ∈ b.updated) : v ∈ b.uids := by rw [mem_uids]; tauto
theorem uids_changed {b : Buf} {v : Uid} (h : v ∈ b.updated ∨ v ∈ b.deleted) : v ∈ b.uids := by rw [mem_uids]; tauto

/-- What a client and a server look like after the client read the object `u`. -/
structure ReadEffect (c t : St) (u : Uid) (c' t' : St) : Prop where
  synced : Synced c' t'
  fresh : u ∉ c'.expired
  /-- the backend's triples, if the server has no changes of its own to the object -/
  found : u ∉ t.user.uids → t.db (t.slot u) ≠ ∅ → u ∈ c'.reg ∧ c'.g u = t.db (t.slot u)
  gone : u ∉ t.user.uids → t.db (t.slot u) = ∅ → u ∉ c'.reg
  pending : u ∈ t.user.uids → u ∉ t.expired → u ∈ c'.reg ∧ c'.g u = t.g u
  others : ∀ v, v ≠ u → (v ∈ t'.reg ↔ v ∈ t.reg) ∧ t'.g v = t.g v
  db : t'.db = t.db
  troot : t'.root = t.root
  tuser : t'.user = t.user
  user : c'.user = c.user
  croot : c'.root = c.root
  texp : ∀ v ∈ t'.expired, v ∈ t.user.uids → v ∈ t.expired
  mine : ∀ v, v ≠ u → (v ∈ c'.reg ↔ v ∈ c.reg) ∧ c'.g v = c.g v ∧ c'.det v = c.det v
  cexp : ∀ v ∈ c'.expired, v ∈ c'.reg ∧ (v ∈ c.user.uids → v ∈ c.expired)

theorem expire_single (t : St) (u : Uid) : applyMsg ⟨none, [u], []⟩ t = (.ok [], (t.expire [u]).2) := rfl

set_option maxHeartbeats 1000000 in
/-- **C58.** Reading an expired object on the client: the request reaches the backend behind the server, and afterwards the client has the object with the triples the backend
has (or does not have it any more if the backend does not); client and server are still in agreement, also about everything else. -/
theorem read_refreshes {P : Params} (hT : HasType P) {c t : St} {u : Uid} (h : Synced c t) (hcr : c.root ≠ none) (htr : t.root ≠ none) (hu : u ∈ c.reg) (hx : u ∈ c.expired)
    (hn : u ∉ c.user.uids) (hg : t.g u ≠ ∅) (ht : u ∈ t.user.uids → u ∉ t.expired) :
    ∃ rs c' t', read P .fine (fun us t => t.load P us) u c t = ⟨.ok rs, c', t'⟩ ∧ ReadEffect c t u c' t' ∧ rs = [if u ∈ c'.reg then some u else none] := by
  unfold read
  rw [if_pos hx]
  have hes : (c.expire [u]).1 = [u] := by
    simp [St.expire, hn, hu]
  have hcx : ∀ v, v ∈ (c.expire [u]).2.expired ↔ v ∈ c.reg ∧ (v ∈ c.expired ∨ v = u) := by
    intro v
    rw [(expire_exact c [u] v).1]
    rw [mem_uids] at hn
    by_cases hv : v = u
    · subst hv; tauto
    · simp [hv]
  have e0 : (c.expire [u]).2 = { c with expired := (c.expire [u]).2.expired } := rfl
  generalize (c.expire [u]).2.expired = ex at hcx e0
  dsimp only
  rw [hes, e0]
  dsimp only
  unfold load1
  rw [if_neg (by exact hcr)]
  have hxu : u ∈ ex := (hcx u).2 ⟨hu, Or.inr rfl⟩
  dsimp only
  rw [if_neg (by simp [hxu]), if_pos hxu, if_pos hu]
  -- the server
  have hur : u ∈ t.reg := (h.same u hn).1.1 hu
  have htx : u ∈ (t.expire [u]).2.expired ↔ u ∈ t.expired ∨ u ∉ t.user.uids := by
    rw [(expire_exact t [u] u).1, mem_uids]
    simp [hur]
  obtain ⟨t1, ht1⟩ : ∃ t1, t1 = (t.expire [u]).2 := ⟨_, rfl⟩
  rw [← ht1] at htx
  have f1 : t1.ctx = t.ctx ∧ t1.user = t.user ∧ t1.reg = t.reg ∧ t1.g = t.g ∧ t1.db = t.db ∧ t1.root = t.root := by rw [ht1]; exact ⟨rfl, rfl, rfl, rfl, rfl, rfl⟩
  obtain ⟨f1, f2, f3, f4, f5, f6⟩ := f1
  have fs : t1.slot u = t.slot u := by unfold St.slot; rw [f6]
  obtain ⟨rs, t2, hl, hL⟩ := load_loaded (P := P) (t := t1) (u := u) hT (f1.trans h.tctx) (by rw [f6]; exact htr) (by rw [f3]; exact hur) (by rw [f2, f3]; exact h.tbuf)
    (by rw [f4]; exact hg) (by
      intro hx1 hx2
      rw [f2] at hx2
      rcases htx.1 hx1 with h1 | h1
      · exact ht hx2 h1
      · exact h1 hx2)
  -- the response
  obtain ⟨c0, hc0⟩ : ∃ c0 : St, c0 = { c with engine := .empty, ctx := .engine, expired := del ex u } := ⟨_, rfl⟩
  have hcu : c0.user = c.user := by rw [hc0]
  have hsame : Same c0 t1 := by
    intro v hv
    rw [hcu] at hv
    rw [f3, f4, hc0]
    exact h.same v hv
  have hng : c0.user.uids = c.user.uids := by rw [hcu]
  obtain ⟨c2, hd, s1, s2, s3, s4, s5, s6⟩ := response_same (c := c0) (by intro _; rw [hc0]) hsame hL.rec_ (by
    intro v hv
    rw [hng]
    have : v = u := by
      rcases hv with hv | hv
      · exact hL.only v hv
      · rcases hL.res with k | k
        · rw [k] at hv; simpa using hv
        · rw [k] at hv; simp at hv
    rw [this]; exact hn) (by rw [hL.noNew]; simp)
  have hreq : request .fine ⟨none, [u], []⟩ (fun t => t.load P [u]) c0 t = ⟨.ok rs, c2, { t2 with engine := .empty }⟩ := by
    unfold request
    have hsv : serve (fun t => t.load P [u]) ⟨none, [u], []⟩ t = (some (respond rs t2).1, (respond rs t2).2) := by
      unfold serve
      have hde : deserialize .user ⟨none, [u], []⟩ t = (.ok [], t1) := by rw [ht1]; rfl
      rw [hde]
      dsimp only
      rw [hl]
    rw [if_neg (by decide), hsv]
    dsimp only
    rw [if_neg (by decide), hd]
    rfl
  rw [← hc0, hreq]
  dsimp only
  -- the end of `load` on the client
  have hc2u : c2.user.uids = c.user.uids := by rw [s3, hng]
  have hru : u ∈ c2.reg ↔ u ∈ t2.reg := (s1 u (by rw [hc2u]; exact hn)).1
  have hnew : rs.headD none = none → u ∉ c2.reg := by
    intro k
    by_cases hx1 : u ∈ t1.expired
    · by_cases hdb : t1.db (t1.slot u) = ∅
      · rw [hru]; exact (hL.gone hx1 hdb).2
      · rw [(hL.found hx1 hdb).1] at k; simp at k
    · rw [(hL.current hx1).1] at k; simp at k
  have hux : u ∉ c2.expired := by
    intro hxx
    have := (s6 u).1 hxx
    rcases hL.res with k | k
    · exact this.2.2.2 (by rw [k]; simp)
    · have hrs := hL.rec_.same u this.2.2.1
      by_cases hx1 : u ∈ t1.expired
      · by_cases hdb : t1.db (t1.slot u) = ∅
        · have hg := (hL.gone hx1 hdb).2
          rw [hrs.1, f3] at hg
          exact hg hur
        · rw [(hL.found hx1 hdb).1] at k; simp at k
      · rw [(hL.current hx1).1] at k; simp at k
  obtain ⟨df, hdf⟩ : ∃ df, df = (P.diff (c.g u) (if (rs.headD none).isSome then c2.g u else ∅)).filter (· ≠ u) := ⟨_, rfl⟩
  have hgoal : ReadEffect c t u { (c2.expire df).2 with ctx := c.ctx } { t2 with engine := .empty } := by
    have hother : ∀ v, v ≠ u → (v ∈ c2.reg ↔ v ∈ c.reg) ∧ c2.g v = c.g v ∧ c2.det v = c.det v := by
      intro v hv
      have := s5 v (by
        rintro (k | k)
        · exact hv (hL.only v k)
        · rcases hL.res with e | e
          · rw [e] at k; exact hv (by simpa using k)
          · rw [e] at k; simp at k)
      rw [hc0] at this
      exact this
    have hne : ∀ v ∈ c.user.uids, v ≠ u := by rintro v hv rfl; exact hn hv
    have hus : c2.user = c.user := s3.trans hcu
    have hcont : ∀ v ∈ c.user.uids, c2.content v = c.content v := by
      intro v hv
      have := hother v (hne v hv)
      unfold St.content
      by_cases hr : v ∈ c.reg
      · rw [if_pos hr, if_pos (this.1.2 hr), this.2.1]
      · rw [if_neg hr, if_neg (fun k => hr (this.1.1 k)), this.2.2]
    have hot : ∀ v, v ≠ u → (v ∈ t2.reg ↔ v ∈ t.reg) ∧ t2.g v = t.g v := by
      intro v hv
      have a := hL.reg v hv
      have b := hL.g v hv
      rw [f3] at a; rw [f4] at b
      exact ⟨a, b⟩
    refine ⟨⟨h.cctx, hL.rec_.ctx, ?_, ?_, hL.rec_.ubuf, ?_, ?_, ?_, ?_⟩, ?_, ?_, ?_, ?_, hot, ?_, hL.root.trans f6, hL.user.trans f2, hus, ?_, ?_, hother, ?_⟩
    · show GoodBuf c2.user c2.reg
      rw [hus]
      refine ⟨h.cbuf.disj, ?_, ?_⟩
      · intro v hv
        exact (hother v (hne v (uids_live hv))).1.2 (h.cbuf.live v hv)
      · intro v hv k
        exact h.cbuf.dead v hv ((hother v (hne v (uids_changed (Or.inr hv)))).1.1 k)
    · show c2.user.deleted.Nodup
      rw [hus]; exact h.nodup
    · intro v hv
      have hv' : v ∈ c.user.uids := by rw [← hus]; exact hv
      show c2.content v ≠ ∅
      rw [hcont v hv']
      exact h.has v hv'
    · intro v hv
      have hv' : v ∈ c.user.added := by rw [← hus]; exact hv
      have hvu : v ≠ u := hne v (uids_live (Or.inl hv'))
      have := h.fresh v hv'
      show v ∉ t2.reg ∧ t2.g v = ∅
      rw [(hot v hvu).1, (hot v hvu).2]
      exact this
    · intro v hv
      have hv' : v ∈ c.user.updated ∨ v ∈ c.user.deleted := by rw [← hus]; exact hv
      show v ∈ t2.reg
      rw [(hot v (hne v (uids_changed hv'))).1]
      exact h.known v hv'
    · exact s1
    · intro hxx
      have hxx' : u ∈ (c2.expire df).2.expired := hxx
      rw [(expire_exact c2 df u).1] at hxx'
      rcases hxx'.2 with k | k
      · exact hux k
      · rw [hdf] at k
        simp at k
    · intro k1 k2
      have hx1 : u ∈ t1.expired := htx.2 (Or.inr k1)
      have := hL.found hx1 (by rw [f5, fs]; exact k2)
      have hrg : u ∈ t2.reg := (hL.rec_.result u (by rw [this.1]; simp)).1
      refine ⟨hru.2 hrg, ?_⟩
      show c2.g u = _
      rw [(s1 u (by rw [hc2u]; exact hn)).2 (hru.2 hrg), this.2, f5, fs]
    · intro k1 k2
      have hx1 : u ∈ t1.expired := htx.2 (Or.inr k1)
      have := hL.gone hx1 (by rw [f5, fs]; exact k2)
      exact fun k => this.2 (hru.1 k)
    · intro k1 k2
      have hx1 : u ∉ t1.expired := fun k => by rcases htx.1 k with k | k <;> tauto
      have := hL.current hx1
      have hrg : u ∈ t2.reg := (hL.rec_.result u (by rw [this.1]; simp)).1
      refine ⟨hru.2 hrg, ?_⟩
      show c2.g u = _
      rw [(s1 u (by rw [hc2u]; exact hn)).2 (hru.2 hrg), this.2, f4]
    · exact hL.db.trans f5
    · show c2.root = c.root
      rw [s4 (by rw [hc0]; exact hcr), hc0]
    · intro v hv hvu
      have := hL.exp v hv (by rw [f2]; exact hvu)
      rw [ht1, (expire_exact ..).1] at this
      rw [mem_uids] at hvu
      tauto
    · intro v hv
      have hv' : v ∈ (c2.expire df).2.expired := hv
      rw [(expire_exact c2 df v).1] at hv'
      refine ⟨hv'.1, fun hvu => ?_⟩
      have hvu2 : v ∈ c2.user.uids := by rw [hc2u]; exact hvu
      rw [mem_uids] at hvu2
      have h1 : v ∈ c2.expired := by tauto
      have h2 := (s6 v).1 h1
      have h3 : v ∈ del ex u := by
        rcases h2.2.1 with k | k
        · rw [hc0] at k; exact k
        · exact absurd (by rw [hng]; exact hvu) k.2
      have h4 := (hcx v).1 ((mem_del ..).1 h3).1
      rcases h4.2 with k | k
      · exact k
      · exact absurd k ((mem_del ..).1 h3).2
  rw [← hdf]
  refine ⟨[rs.headD none], _, _, ?_, hgoal, ?_⟩
  rotate_left
  · show [rs.headD none] = [if u ∈ c2.reg then some u else none]
    rcases hL.res with k | k
    · rw [if_pos (hru.2 (hL.rec_.result u (by rw [k]; simp)).1), k]; rfl
    · rw [if_neg (hnew (by rw [k]; rfl)), k]; rfl
  have hcond : ¬ ((some (c.g u)).isSome = true ∧ rs.headD none = none ∧ u ∈ (c2.expire df).2.reg) := fun ⟨_, k1, k2⟩ => hnew k1 k2
  exact if_neg hcond

end Osp.Sync
