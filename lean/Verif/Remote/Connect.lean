import Verif.Remote.Load
/-!
# Connecting a client session
-/
namespace Osp.Remote
open Osp.Sess Osp.Sync

variable {r : Uid} {P : Params}

/-- The engine buffers after an object was loaded. -/
theorem loadByIri_buf {s s' : St} {res : Option Uid} {u : Uid} (hc : s.ctx = .engine) (hd : s.engine.deleted = []) (e : s.loadByIri u = (.ok res, s')) :
    s'.ctx = .engine ∧ s'.engine.deleted = [] ∧ (∀ v, v ∈ s'.reg ↔ v ∈ s.reg ∨ (v = u ∧ s.stored u ≠ ∅)) ∧
      (∀ v, v ∈ s'.engine.added ↔ v ∈ s.engine.added ∨ (v = u ∧ u ∉ s.reg ∧ s.stored u ≠ ∅)) ∧
      (∀ v, v ∈ s'.engine.updated ↔ v ∈ s.engine.updated ∨ (v = u ∧ u ∈ s.reg ∧ u ∉ s.engine.added ∧ s.stored u ≠ ∅)) := by
  unfold St.loadByIri at e
  dsimp only at e
  have hst : s.db (s.slot u) = s.stored u := rfl
  rw [hst] at e
  by_cases h0 : s.stored u = ∅
  · rw [if_pos h0] at e
    obtain ⟨-, rfl⟩ := Prod.mk.inj e
    refine ⟨hc, hd, ?_, ?_, ?_⟩ <;> intro v <;> simp [h0]
  rw [if_neg h0] at e
  by_cases hr : u ∈ s.reg
  · rw [if_pos hr] at e
    unfold St.notifyUpdate St.buf St.setBuf at e
    simp only [hc, hd, List.not_mem_nil, if_false] at e
    by_cases hn : u ∉ s.engine.added ∧ u ∉ s.engine.updated
    · rw [if_pos hn] at e
      obtain ⟨-, rfl⟩ := Prod.mk.inj e
      refine ⟨rfl, rfl, ?_, ?_, ?_⟩
      · intro v; exact ⟨Or.inl, fun q => by rcases q with q | ⟨rfl, -⟩ <;> assumption⟩
      · intro v; exact ⟨Or.inl, fun q => by rcases q with q | q; exacts [q, absurd hr q.2.1]⟩
      · intro v
        show v ∈ s.engine.updated ++ [u] ↔ _
        rw [List.mem_append, List.mem_singleton]
        tauto
    · rw [if_neg hn] at e
      obtain ⟨-, rfl⟩ := Prod.mk.inj e
      refine ⟨rfl, hd, ?_, ?_, ?_⟩
      · intro v; exact ⟨Or.inl, fun q => by rcases q with q | ⟨rfl, -⟩ <;> assumption⟩
      · intro v; exact ⟨Or.inl, fun q => by rcases q with q | q; exacts [q, absurd hr q.2.1]⟩
      · intro v
        refine ⟨Or.inl, ?_⟩
        rintro (q | ⟨rfl, q1, q2, q3⟩)
        · exact q
        · by_contra k; exact hn ⟨q2, k⟩
  · rw [if_neg hr] at e
    unfold St.store St.notifyUpdate St.buf St.setBuf at e
    simp only [hc, hd, if_neg hr] at e
    have hm : u ∈ ins s.engine.added u := (mem_ins _ _ _).2 (Or.inr rfl)
    simp only [del, List.filter_nil, List.not_mem_nil, if_false, hm, not_true_eq_false, false_and] at e
    obtain ⟨-, rfl⟩ := Prod.mk.inj e
    refine ⟨rfl, rfl, ?_, ?_, ?_⟩
    · intro v
      show v ∈ ins s.reg u ↔ _
      rw [mem_ins]; tauto
    · intro v
      show v ∈ ins s.engine.added u ↔ _
      rw [mem_ins]; tauto
    · intro v; exact ⟨Or.inl, fun q => by rcases q with q | q; exacts [q, absurd q.2.1 hr]⟩

/-- The engine buffers after the objects `us` were loaded. -/
theorem loadAll_bufs : ∀ (us : List Uid) (s s' : St), s.ctx = .engine → s.engine.deleted = [] → s.root ≠ none → (∀ u, u ∉ s.reg → s.g u = ∅) → s.loadAll us = (.ok (), s') →
    s'.ctx = .engine ∧ s'.engine.deleted = [] ∧ (∀ v, v ∈ s'.reg ↔ v ∈ s.reg ∨ (v ∈ us ∧ s.stored v ≠ ∅)) ∧
      (∀ v, v ∈ s'.engine.added ↔ v ∈ s.engine.added ∨ (v ∈ us ∧ v ∉ s.reg ∧ s.stored v ≠ ∅)) ∧
      (∀ v, v ∈ s'.engine.updated ↔ v ∈ s.engine.updated ∨ (v ∈ us ∧ v ∈ s.reg ∧ v ∉ s.engine.added ∧ s.stored v ≠ ∅)) := by
  intro us
  induction us with
  | nil =>
    intro s s' hc hd _ _ e
    obtain ⟨-, rfl⟩ := Prod.mk.inj (show ((.ok (), s) : Res Unit) = (.ok (), s') from e)
    exact ⟨hc, hd, by simp, by simp, by simp⟩
  | cons u us ih =>
    intro s s' hc hd hr hg e
    unfold St.loadAll at e
    obtain ⟨res, s1, e1, h1, h2, h3⟩ : ∃ res s1, s.loadByIri u = (.ok res, s1) ∧ s1.root ≠ none ∧ (∀ v, v ∉ s1.reg → s1.g v = ∅) ∧ ∀ v, s1.stored v = s.stored v := by
      rcases loadByIri_spec hr hc (u := u) (hg u) (by rw [hd]; simp) with ⟨a, b⟩ | ⟨a, e, -, b⟩
      · exact ⟨_, _, b, hr, hg, fun _ => rfl⟩
      · refine ⟨_, _, b, hr, ?_, fun _ => rfl⟩
        intro v hv
        have hv' : v ∉ ins s.reg u := hv
        rw [mem_ins] at hv'
        show Function.update s.g u _ v = ∅
        rw [Function.update_of_ne (by tauto)]
        exact hg v (by tauto)
    rw [e1] at e
    dsimp only at e
    obtain ⟨b1, b2, b3, b4, b5⟩ := loadByIri_buf hc hd e1
    obtain ⟨i1, i2, i3, i4, i5⟩ := ih s1 s' b1 b2 h1 h2 e
    refine ⟨i1, i2, ?_, ?_, ?_⟩
    · intro v
      rw [i3, b3, h3, List.mem_cons]
      by_cases hv : v = u
      · subst hv; tauto
      · tauto
    · intro v
      rw [i4, b4, b3, h3, List.mem_cons]
      by_cases hv : v = u
      · subst hv; tauto
      · tauto
    · intro v
      rw [i5, b5, b4, b3, h3, List.mem_cons]
      by_cases hv : v = u
      · subst hv; tauto
      · tauto

/-- What the server's session looks like after the initialisation. -/
structure Inited (P : Params) (db : Uid → Content) (r : Uid) (x : Content) (t : St) : Prop where
  ctx : t.ctx = .user
  root : t.root = some r
  db_ : t.db = db
  user : t.user = ⟨[r], [], []⟩
  del_ : t.engine.deleted = []
  exp : ∀ v, v ∉ t.expired
  reg : ∀ v, v ∈ t.reg ↔ v = r ∨ (v ∈ P.nb (db 0) ∧ v ≠ 0 ∧ db v ≠ ∅)
  add : ∀ v, v ∈ t.engine.added ↔ v ≠ r ∧ v ∈ P.nb (db 0) ∧ v ≠ 0 ∧ db v ≠ ∅
  upd : ∀ v, v ∈ t.engine.updated ↔ v = r ∧ db 0 ≠ ∅
  gr : t.g r = db 0 ∪ x
  gv : ∀ v, v ≠ r → v ∈ t.reg → t.g v = db v
  gn : ∀ v, v ∉ t.reg → t.g v = ∅

set_option maxHeartbeats 1000000 in
theorem serverInit_spec (P : Params) (db : Uid → Content) {r : Uid} (hr0 : r ≠ 0) (x : Content) :
    ∃ t, serverInit P db r x = (.ok (), t) ∧ Inited P db r x t := by
  have hstore : (St.opened db).store r ∅ = { St.opened db with reg := [r], user := ⟨[r], [], []⟩, root := some r } := by
    unfold St.store St.opened
    simp [St.buf, St.setBuf, ins, del, Buf.empty]
  unfold serverInit St.create
  rw [if_neg hr0]
  have hn : (St.opened db).root = none := rfl
  simp only [hn, if_true, hstore]
  unfold St.inEngine
  have hctx : (St.opened db).ctx = .user := rfl
  simp only [hctx, ne_eq, reduceCtorEq, not_false_eq_true, if_true]
  generalize hs0 : ({ reg := [r], g := (St.opened db).g, det := (St.opened db).det, user := ⟨[r], [], []⟩, engine := Buf.empty, ctx := Ctx.engine, expired := (St.opened db).expired, root := some r, db := (St.opened db).db } : St) = s0
  have hst : ∀ u, s0.stored u = if u = r then db 0 else db u := by
    intro u
    rw [← hs0]
    unfold St.stored St.slot
    show db (if some r = some u then 0 else u) = _
    by_cases h : u = r
    · subst h; simp
    · have : ¬ (some r = some u) := fun k => h (by injection k with k; exact k.symm)
      rw [if_neg this, if_neg h]
  have hnb : (St.opened db).db (s0.slot r) = db 0 := by
    have := hst r
    rw [if_pos rfl] at this
    rw [← this, ← hs0]
    rfl
  rw [hnb]
  generalize hus : P.order _ = us0
  have hmem : ∀ v, v ∈ us0 ↔ v = r ∨ (v ∈ P.nb (db 0) ∧ v ≠ 0) := by
    intro v
    rw [← hus, P.order_mem, List.mem_cons, List.mem_filter]
    simp
  have hreg0 : s0.reg = [r] := by rw [← hs0]
  have hg0 : ∀ v, s0.g v = ∅ := by intro v; rw [← hs0]; rfl
  have hc0 : s0.ctx = .engine := by rw [← hs0]
  have he0 : s0.engine = .empty := by rw [← hs0]
  have hr0' : s0.root ≠ none := by rw [← hs0]; simp
  obtain ⟨s', c1, c2, c3, c4, c5, c6, c7, c8⟩ := loadAll_spec us0 s0 hc0 (by rw [he0]; simp [Buf.empty]) hr0' (fun u _ => hg0 u)
  obtain ⟨b1, b2, b3, b4, b5⟩ := loadAll_bufs us0 s0 s' hc0 (by rw [he0]; rfl) hr0' (fun u _ => hg0 u) c1
  rw [c1]
  dsimp only
  have huser : s'.user = ⟨[r], [], []⟩ := by rw [c2, ← hs0]
  have hnu : ∀ t : St, t.ctx = .user → t.user = ⟨[r], [], []⟩ → t.notifyUpdate r = (.ok (), t) := by
    intro t h1 h2
    unfold St.notifyUpdate St.buf
    rw [h1]
    dsimp only
    rw [h2, if_neg (by simp), if_neg (by simp)]
  rw [hnu _ rfl (by exact huser)]
  refine ⟨_, rfl, rfl, ?_, ?_, huser, b2, ?_, ?_, ?_, ?_, ?_, ?_, ?_⟩
  · show s'.root = _
    rw [c4, ← hs0]
  · show s'.db = _
    rw [c3, ← hs0]; rfl
  · intro v hv
    have := c8 v hv
    rw [← hs0] at this
    exact absurd this (by simp [St.opened])
  · intro v
    show v ∈ s'.reg ↔ _
    rw [b3, hreg0, hmem, hst, List.mem_singleton]
    by_cases hv : v = r
    · simp [hv]
    · simp [hv, and_assoc]
  · intro v
    show v ∈ s'.engine.added ↔ _
    rw [b4, hreg0, hmem, hst, he0, List.mem_singleton]
    by_cases hv : v = r
    · simp [hv, Buf.empty]
    · simp [hv, Buf.empty, and_assoc]
  · intro v
    show v ∈ s'.engine.updated ↔ _
    rw [b5, hreg0, hmem, hst, he0, List.mem_singleton]
    by_cases hv : v = r
    · simp [hv, Buf.empty]
    · simp [hv, Buf.empty]
  · show Function.update s'.g r (s'.g r ∪ x) r = _
    rw [Function.update_self]
    by_cases h : db 0 = ∅
    · rw [(c7 r (Or.inr (by rw [hst, if_pos rfl]; exact h))).2, hg0, h]
    · rw [(c6 r ((hmem r).2 (Or.inl rfl)) (by rw [hst, if_pos rfl]; exact h)).2, hst, if_pos rfl]
  · intro v hv hvr
    show Function.update s'.g r (s'.g r ∪ x) v = _
    rw [Function.update_of_ne hv]
    have hvr' : v ∈ s'.reg := hvr
    rw [b3, hreg0, List.mem_singleton] at hvr'
    obtain ⟨q1, q2⟩ := hvr'.resolve_left hv
    rw [(c6 v q1 q2).2, hst, if_neg hv]
  · intro v hvr
    have hvr' : v ∉ s'.reg := hvr
    have hv : v ≠ r := by
      rintro rfl
      exact hvr' ((b3 v).2 (Or.inl (by rw [hreg0]; simp)))
    show Function.update s'.g r (s'.g r ∪ x) v = _
    rw [Function.update_of_ne hv]
    exact c5 v hvr'

set_option maxHeartbeats 1000000 in
/-- Connecting, with what the buffers contain afterwards. -/
theorem connect_more (P : Params) (db : Uid → Content) {r : Uid} (hr0 : r ≠ 0) {x : Content} (hx : x ≠ ∅) :
    (connect P db r x).1 = .ok () ∧ Good r (View.open P db r x) (connect P db r x).2 ∧ (connect P db r x).2.c.user = .empty ∧ (connect P db r x).2.t.user = ⟨[r], [], []⟩ ∧
      (connect P db r x).2.t.db = db ∧ ∀ u, u ∉ (connect P db r x).2.t.reg → (connect P db r x).2.t.g u = ∅ := by
  obtain ⟨t, e, k⟩ := serverInit_spec P db hr0 x
  unfold connect
  rw [if_neg hr0, e]
  dsimp only
  have hcs : (St.opened fun _ => ∅).store r x = { St.opened (fun _ => ∅) with reg := [r], user := ⟨[r], [], []⟩, g := Function.update (fun _ => ∅) r x, root := some r } := by
    unfold St.store St.opened
    simp [St.buf, St.setBuf, ins, del, Buf.empty, empty_union']
  rw [hcs]
  have hxx : db 0 ∪ x ≠ ∅ := by
    intro q
    exact hx (Finset.subset_empty.1 (q ▸ Finset.subset_union_right))
  have hcont : ∀ v ∈ t.reg, t.content v = t.g v := fun v hv => by unfold St.content; rw [if_pos hv]
  have hmine : ∀ v ∈ t.engine.uids, v ∈ t.reg := by
    intro v hv
    rw [mem_uids, k.add, k.upd, k.del_] at hv
    rw [k.reg]
    rcases hv with q | q | q
    · exact Or.inr q.2
    · exact Or.inl q.1
    · simp at q
  have hne : ∀ v ∈ t.reg, t.g v ≠ ∅ := by
    intro v hv
    by_cases h : v = r
    · subst h; rw [k.gr]; exact hxx
    · rw [k.gv v h hv]
      exact (((k.reg v).1 hv).resolve_left h).2.2
  have hser : (serialize t (some .engine)).1 = ⟨some ⟨docs t.content t.engine.added, docs t.content t.engine.updated, docs t.content t.engine.deleted⟩, t.expired, []⟩ :=
    congrArg Prod.fst <| serialize_engine fun v hv => by rw [hcont v (hmine v hv)]; exact hne v (hmine v hv)
  have hser2 : (serialize t (some .engine)).2 = { t with engine := .empty } := rfl
  rw [hser, hser2]
  obtain ⟨c0, hc0⟩ : ∃ c0 : St, c0 = { St.opened (fun _ => ∅) with reg := [r], user := ⟨[r], [], []⟩, g := Function.update (fun _ => ∅) r x, root := some r, ctx := .engine } := ⟨_, rfl⟩
  have hb0 : c0.buf = .empty := by rw [hc0]; rfl
  have hreg0 : c0.reg = [r] := by rw [hc0]
  have hgf : c0.g = Function.update (fun _ => ∅) r x := by rw [hc0]
  have hg0 : ∀ v, v ≠ r → c0.g v = ∅ := by intro v hv; rw [hgf]; exact Function.update_of_ne hv _ _
  obtain ⟨c2, e2, a⟩ := applyMsg_spec (C := t.content) (A := t.engine.added) (U := t.engine.updated) (D := t.engine.deleted) (E := t.expired) (R := []) (s := c0) (by rw [k.del_]; simp)
    (by rw [k.del_]; simp) (by rw [k.del_]; simp) (by rw [hb0]; exact ⟨disj_empty, by simp [Buf.empty], by simp [Buf.empty]⟩) (by
      intro v _ hv
      rw [hreg0, List.mem_singleton] at hv
      rw [hg0 v hv]; exact Finset.empty_subset _)
  have hde : ∀ c : St, c = { St.opened (fun _ => ∅) with reg := [r], user := ⟨[r], [], []⟩, g := Function.update (fun _ => ∅) r x, root := some r } →
      deserialize .engine ⟨some ⟨docs t.content t.engine.added, docs t.content t.engine.updated, docs t.content t.engine.deleted⟩, t.expired, []⟩ c = (.ok [], { c2 with ctx := .user }) := by
    intro c hc
    unfold deserialize St.inEngine
    dsimp only
    have : ({ (if c.ctx ≠ .engine then { c with engine := .empty } else c) with ctx := .engine } : St) = c0 := by
      have hcx : c.ctx ≠ .engine := by rw [hc]; exact fun q => nomatch q
      rw [if_pos hcx, hc, hc0]; rfl
    rw [this, show ([] : List Doc) = optDocs t.content [] from rfl, e2, hc]
    rfl
  rw [hde _ rfl]
  dsimp only
  have hus : c2.user = ⟨[r], [], []⟩ := by rw [a.frame.user (by rw [hc0]), hc0]
  have huser : ({ c2.user with added := del c2.user.added r } : Buf) = .empty := by
    rw [hus]; simp [del, Buf.empty]
  rw [huser]
  refine ⟨rfl, ?_, rfl, k.user, k.db_, k.gn⟩
  have hU : ∀ v, v ∈ t.engine.updated ++ objs [] ↔ v = r ∧ db 0 ≠ ∅ := by
    intro v
    rw [show t.engine.updated ++ objs [] = t.engine.updated from List.append_nil _, k.upd]
  have hD : ∀ v, v ∉ t.engine.deleted := by rw [k.del_]; simp
  have hreg : ∀ v, v ∈ c2.reg ↔ v ∈ t.reg := by
    intro v
    rw [a.reg, hreg0, List.mem_singleton, k.add, hU, k.reg]
    have := hD v
    tauto
  have hgc : ∀ v, c2.g v = t.g v := by
    intro v
    by_cases hv : v ∈ t.engine.added ∨ v ∈ t.engine.updated ++ objs [] ∨ v ∈ t.engine.deleted
    · rw [a.gIn v hv]
      apply hcont
      apply hmine
      rw [mem_uids]
      rw [hU, ← k.upd] at hv
      exact hv
    · rw [a.gOut v hv]
      by_cases h : v = r
      · subst h
        have hz : db 0 = ∅ := by
          by_contra q
          exact hv (Or.inr (Or.inl ((hU v).2 ⟨rfl, q⟩)))
        rw [hgf, k.gr, hz, empty_union']
        exact Function.update_self ..
      · rw [hg0 v h]
        refine (k.gn v fun q => hv (Or.inl ?_)).symm
        rw [k.add]
        exact ⟨h, ((k.reg v).1 q).resolve_left h⟩
  have hexp : ∀ v, v ∉ c2.expired := by
    intro v hv
    have := ((a.exp v).1 hv).2.1
    rw [hc0] at this
    rcases this with q | q
    · exact absurd q (by simp [St.opened])
    · exact k.exp v q.1
  have hroot : c2.root = some r := by rw [a.frame.root (by rw [hc0]; simp), hc0]
  have hzr : (0 : Uid) ∉ t.reg := by
    rw [k.reg]
    rintro (q | q)
    · exact hr0 q.symm
    · exact q.2.1 rfl
  have hdr : ∀ u, (if u = r then db 0 else db u) = (View.open P db r x).stored u := fun _ => rfl
  refine ⟨synced_of_agree ⟨hreg, fun v _ => hgc v⟩ rfl k.ctx rfl ?_, hroot, k.root, Or.inl rfl, (k.reg r).2 (Or.inl rfl), ?_, ?_, ?_, ?_, ?_, ⟨hzr, ?_, ?_, uids_empty 0⟩, ?_, ?_, ?_, ?_, ?_, ?_, ?_, ?_, ?_, ?_, ?_, ?_⟩
  · show GoodBuf t.user t.reg
    rw [k.user]
    refine ⟨by intro v; simp, fun v hv => ?_, by simp⟩
    obtain rfl : v = r := by simpa using hv
    exact (k.reg v).2 (Or.inl rfl)
  · intro u
    show u ∈ c2.reg ↔ _
    rw [hreg, k.reg]; rfl
  · intro u hu
    show c2.g u = if u = r then db 0 ∪ x else db u
    rw [hgc]
    by_cases h : u = r
    · subst h; rw [if_pos rfl, k.gr]
    · rw [if_neg h]; exact k.gv u h ((k.reg u).2 hu)
  · intro u hu
    show (if u = r then db 0 ∪ x else db u) ≠ ∅
    by_cases h : u = r
    · rw [if_pos h]; exact hxx
    · rw [if_neg h]; exact (Or.resolve_left hu h).2.2
  · intro u hu
    show c2.g u = ∅
    rw [hgc]; exact k.gn u fun q => hu ((k.reg u).1 q)
  · intro u _
    show t.db (St.slot { t with engine := .empty } u) = if u = r then db 0 else db u
    rw [slot_root (t := { t with engine := .empty }) k.root, k.db_]
    by_cases h : u = r
    · rw [if_pos h, if_pos h]
    · rw [if_neg h, if_neg h]
  · show 0 ∉ t.user.uids
    rw [k.user]
    simp [Buf.uids]
    exact fun q => hr0 q.symm
  · rintro (q | q)
    · exact hr0 q.symm
    · exact q.2.1 rfl
  · exact fun u hu => absurd hu (hexp u)
  · exact fun u hu => absurd hu (k.exp u)
  · intro u hu hn
    have hur : u ≠ r := by
      rintro rfl
      exact hn (by show u ∈ t.user.uids; rw [k.user]; simp [Buf.uids])
    show t.g u = if u = r then db 0 else db u
    rw [if_neg hur]
    exact k.gv u hur hu
  · intro u hu hur
    have : u ∈ t.user.added := hu
    rw [k.user] at this
    exact absurd (by simpa using this) hur
  · intro _; trivial
  · intro _
    show (if r = r then db 0 else db r) ⊆ if r = r then db 0 ∪ x else db r
    rw [if_pos rfl, if_pos rfl]
    exact Finset.subset_union_left
  · intro u hu; exact absurd hu (by simp [Buf.empty])
  · rintro u (hu | hu)
    · exact absurd hu (by simp [Buf.empty])
    · have : u ∈ t.user.deleted := hu
      rw [k.user] at this
      exact absurd this (by simp)
  · exact fun u hu => hu.elim
  · intro u _ hu _
    show (if u = r then db 0 ∪ x else db u) = if u = r then db 0 else db u
    have : u ≠ r := fun q => hu (Or.inl q)
    rw [if_neg this, if_neg this]
  · exact fun u _ hu _ _ => k.gn u hu
  · intro u hu
    have h1 : u ≠ r := fun q => hu (Or.inl q)
    have h2 : db u = ∅ := by by_contra q; exact hu (Or.inr q)
    have h3 : u ∉ t.reg := by
      rw [k.reg]
      rintro (q | q)
      · exact h1 q
      · exact q.2.2 h2
    refine ⟨h3, k.gn u h3, ?_, fun q => h3 ((k.reg u).2 q), uids_empty u, ?_, ?_⟩
    · show u ∉ t.user.uids
      rw [k.user]; simp [Buf.uids, h1]
    · show (if u = r then db 0 else db u) = ∅
      rw [if_neg h1]; exact h2
    · show (if u = r then db 0 ∪ x else db u) = ∅
      rw [if_neg h1]; exact h2

/-- Connecting. -/
theorem connect_good (P : Params) (db : Uid → Content) {r : Uid} (hr0 : r ≠ 0) {x : Content} (hx : x ≠ ∅) :
    (connect P db r x).1 = .ok () ∧ Good r (View.open P db r x) (connect P db r x).2 :=
  ⟨(connect_more P db hr0 hx).1, (connect_more P db hr0 hx).2.1⟩

end Osp.Remote
