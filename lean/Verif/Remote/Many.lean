import Verif.Remote.Props
/-!
# Loading several objects through a client, refreshing (C92)

`load` with any number of uids, wrapper_session.py:70-111, on a `TransportSessionClient`: transport_session_client.py (client:), transport_session_server.py (server:).
-/
namespace Osp.Remote
open Osp.Sess Osp.Sync

/-- The part of the loop body of `load` after the object was received: `_expire_neighour_diff`, wrapper_session.py:379-395 (on a client there is no exception for the wrapper), and
the deletion of objects the server does not have any more, wrapper_session.py:104-110. -/
def after (P : Params) (us : List Uid) (old : Option Content) (u : Uid) (new : Option Uid) (c : St) : Res (Option Uid) :=
  match old with
  | none => (.ok new, c)
  | some k =>
    let c := (c.expire ((P.diff k (if new.isSome then c.g u else ∅)).filter (· ∉ us))).2
    if new = none ∧ u ∈ c.reg then
      match c.deleteTriples P u with
      | (.ok _, c) => (.ok new, c)
      | (.error e, c) => (.error e, c)
    else (.ok new, c)

/-- `next` on the generator `_load_from_backend`, client:103-111: the first call sends one request for all missing objects, whose response is processed at once; the other calls take
the next result. -/
def getMissing (P : Params) (missing expired : List Uid) (q : Option (List (Option Uid))) (s : RSt) : Except PyErr (List (Option Uid)) × RSt :=
  match q with
  | some rs => (.ok rs, s)
  | none =>
    let o := request .fine ⟨none, if expired = [] then s.c.expired else expired, []⟩ (fetch P missing) s.c s.t
    (o.res, ⟨o.client, o.server⟩)

/-- The loop of `load`, wrapper_session.py:96-111, consumed completely; every `next` enters the engine context, buffers.py:83-112. `q`: the results not taken yet, if the request
was sent; after the last one `None`, wrapper_session.py:362-377. -/
def manyLoop (P : Params) (us missing expired : List Uid) : List Uid → Option (List (Option Uid)) → RSt → Except PyErr (List (Option Uid)) × RSt
  | [], _, s => (.ok [], s)
  | u :: rest, q, s =>
    let c := { s.c with engine := if s.c.ctx ≠ .engine then .empty else s.c.engine, ctx := .engine }
    if u ∉ missing then
      if u ∉ c.reg then (.error .keyError, ⟨{ c with ctx := s.c.ctx }, s.t⟩)
      else match manyLoop P us missing expired rest q ⟨{ c with ctx := s.c.ctx }, s.t⟩ with
        | (.error e, s) => (.error e, s)
        | (.ok xs, s) => (.ok (some u :: xs), s)
    else
      match getMissing P missing expired q ⟨c, s.t⟩ with
      | (.error e, s') => (.error e, ⟨{ s'.c with ctx := s.c.ctx }, s'.t⟩)
      | (.ok rs, s') => match after P us (if u ∈ c.reg then some (c.g u) else none) u (rs.headD none) s'.c with
        | (.error e, c') => (.error e, ⟨{ c' with ctx := s.c.ctx }, s'.t⟩)
        | (.ok x, c') => match manyLoop P us missing expired rest (some rs.tail) ⟨{ c' with ctx := s.c.ctx }, s'.t⟩ with
          | (.error e, s) => (.error e, s)
          | (.ok xs, s) => (.ok (x :: xs), s)

/-- `load` of any number of uids, wrapper_session.py:70-111. -/
def loadMany (P : Params) (s : RSt) (us : List Uid) : Except PyErr (List (Option Uid)) × RSt :=
  if s.c.root = none then (.error .runtimeError, s)
  else
    let expired := us.filter (· ∈ s.c.expired)
    let missing := us.filter (fun u => u ∉ s.c.reg ∨ u ∈ expired)
    manyLoop P us missing expired us none { s with c := { s.c with expired := s.c.expired.filter (· ∉ expired) } }

/-- `refresh`, wrapper_session.py:145-158; `us` in the order in which the set of uids is iterated. -/
def refresh (P : Params) (s : RSt) (us : List Uid) : Except PyErr (List (Option Uid)) × RSt :=
  if us = [] then (.ok [], s)
  else
    let (es, c) := s.c.expire us
    let (r, s) := loadMany P { s with c := c } es
    (r.map fun _ => [], s)

variable {r : Uid} {m : View} {s : RSt} {P : Params}

/-! ### the invariant -/

/-- Several objects that were loaded. -/
theorem Good.loadedSet (h : Good r m s) (N : Uid → Prop) (hN : ∀ u, N u → u ≠ 0 ∧ ¬ m.dead u ∧ ¬ m.has u ∧ m.view u ≠ ∅) {c' t' : St} (h1 : c'.ctx = .user) (h2 : t'.ctx = .user)
    (h3 : c'.user = s.c.user) (h4 : t'.user = s.t.user) (h5 : c'.root = s.c.root) (h6 : t'.root = s.t.root) (h7 : t'.db = s.t.db)
    (hc : ∀ v, ¬ N v → (v ∈ c'.reg ↔ v ∈ s.c.reg) ∧ c'.g v = s.c.g v ∧ c'.det v = s.c.det v)
    (ht : ∀ v, ¬ N v → (v ∈ t'.reg ↔ v ∈ s.t.reg) ∧ t'.g v = s.t.g v)
    (hcu : ∀ u, N u → u ∈ c'.reg ∧ c'.g u = m.view u) (htu : ∀ u, N u → u ∈ t'.reg ∧ t'.g u = m.view u)
    (hcx : ∀ v ∈ c'.expired, v ∈ c'.reg ∧ (v ∈ s.c.user.uids → v ∈ s.c.expired)) (htx : ∀ v ∈ t'.expired, v ∈ s.t.user.uids → v ∈ s.t.expired) :
    Good r { m with has := fun v => N v ∨ m.has v } ⟨c', t'⟩ := by
  have hs := h.sync
  have hnr : ∀ u, N u → u ∉ s.c.reg := fun u n q => (hN u n).2.2.1 ((h.has u).1 q)
  have hnc : ∀ u, N u → u ∉ s.c.user.uids := by
    intro u n
    have hdu := h.dead1 u
    have hlive := hs.cbuf.live u
    have := hnr u n
    have := (hN u n).2.1
    rw [mem_uids]; tauto
  have hntr : ∀ u, N u → u ∉ s.t.reg := fun u n q => hnr u n ((hs.same u (hnc u n)).1.2 q)
  have hnt : ∀ u, N u → u ∉ s.t.user.uids := by
    intro u n
    have hdu := h.dead1 u
    have hlt := hs.tbuf.live u
    have := hntr u n
    have := (hN u n).2.1
    rw [mem_uids]; tauto
  have hview : ∀ u, N u → m.view u = m.stored u := fun u n => h.out u (hN u n).1 (hN u n).2.2.1 (hN u n).2.1
  have key : ∀ (p : Uid → Prop), (∀ v, N v → p v) → (∀ v, ¬ N v → p v) → ∀ v, p v := fun p hp hq v => (Classical.em (N v)).elim (hp v) (hq v)
  have hcont : ∀ v, ¬ N v → c'.content v = s.c.content v := by
    intro v hv
    obtain ⟨q1, q2, q3⟩ := hc v hv
    unfold St.content
    by_cases hr : v ∈ s.c.reg
    · rw [if_pos hr, if_pos (q1.2 hr), q2]
    · rw [if_neg hr, if_neg (fun q => hr (q1.1 q)), q3]
  have hhas' : ∀ v, ¬ N v → ((N v ∨ m.has v) ↔ m.has v) := fun v hv => ⟨fun q => q.resolve_left hv, Or.inr⟩
  have hur : ¬ N r := fun n => (hN r n).2.2.1 h.hasr
  have hu0 : ¬ N 0 := fun n => (hN 0 n).1 rfl
  refine ⟨⟨h1, h2, ⟨?_, ?_, ?_⟩, ?_, ⟨?_, ?_, ?_⟩, ?_, ?_, ?_, ?_⟩, h5.trans h.croot, h6.trans h.troot, Or.inr h.hasr, (ht r hur).1.2 h.tr, ?_, ?_, ?_, ?_, ?_, ?_, ?_, ?_, ?_, ?_, ?_, h.rsub, ?_, ?_, ?_, ?_, ?_, ?_⟩
  · rw [h3]; exact hs.cbuf.disj
  · show ∀ v, v ∈ c'.user.added ∨ v ∈ c'.user.updated → v ∈ c'.reg
    rw [h3]
    exact key _ (fun v n q => absurd (uids_live q) (hnc v n)) fun v hv => by rw [(hc v hv).1]; exact hs.cbuf.live v
  · show ∀ v ∈ c'.user.deleted, v ∉ c'.reg
    rw [h3]
    exact key _ (fun v n q => absurd (uids_changed (Or.inr q)) (hnc v n)) fun v hv => by rw [(hc v hv).1]; exact hs.cbuf.dead v
  · rw [h3]; exact hs.nodup
  · rw [h4]; exact hs.tbuf.disj
  · show ∀ v, v ∈ t'.user.added ∨ v ∈ t'.user.updated → v ∈ t'.reg
    rw [h4]
    exact key _ (fun v n q => absurd (uids_live q) (hnt v n)) fun v hv => by rw [(ht v hv).1]; exact hs.tbuf.live v
  · show ∀ v ∈ t'.user.deleted, v ∉ t'.reg
    rw [h4]
    exact key _ (fun v n q => absurd (uids_changed (Or.inr q)) (hnt v n)) fun v hv => by rw [(ht v hv).1]; exact hs.tbuf.dead v
  · show ∀ v ∈ c'.user.uids, c'.content v ≠ ∅
    rw [h3]
    exact key _ (fun v n q => absurd q (hnc v n)) fun v hv => by rw [hcont v hv]; exact hs.has v
  · show ∀ v ∈ c'.user.added, v ∉ t'.reg ∧ t'.g v = ∅
    rw [h3]
    exact key _ (fun v n q => absurd (uids_live (Or.inl q)) (hnc v n)) fun v hv => by rw [(ht v hv).1, (ht v hv).2]; exact hs.fresh v
  · show ∀ v, v ∈ c'.user.updated ∨ v ∈ c'.user.deleted → v ∈ t'.reg
    rw [h3]
    exact key _ (fun v n q => absurd (uids_changed q) (hnc v n)) fun v hv => by rw [(ht v hv).1]; exact hs.known v
  · show ∀ v, v ∉ c'.user.uids → (v ∈ c'.reg ↔ v ∈ t'.reg) ∧ (v ∈ c'.reg → c'.g v = t'.g v)
    rw [h3]
    exact key _ (fun v n _ => ⟨⟨fun _ => (htu v n).1, fun _ => (hcu v n).1⟩, fun _ => by rw [(hcu v n).2, (htu v n).2]⟩) fun v hv => by
      rw [(ht v hv).1, (ht v hv).2, (hc v hv).1, (hc v hv).2.1]; exact hs.same v
  · exact key _ (fun v n => ⟨fun _ => Or.inl n, fun _ => (hcu v n).1⟩) fun v hv => by
      show v ∈ c'.reg ↔ (N v ∨ m.has v)
      rw [hhas' v hv, (hc v hv).1]; exact h.has v
  · exact key _ (fun v n _ => (hcu v n).2) fun v hv => by
      show (N v ∨ m.has v) → c'.g v = m.view v
      rw [hhas' v hv, (hc v hv).2.1]; exact h.view v
  · exact key _ (fun v n _ => (hN v n).2.2.2) fun v hv => by
      show (N v ∨ m.has v) → m.view v ≠ ∅
      rw [hhas' v hv]; exact h.full v
  · exact key _ (fun v n q => absurd (Or.inl n) q) fun v hv => by
      show ¬ (N v ∨ m.has v) → c'.g v = ∅
      rw [hhas' v hv, (hc v hv).2.1]; exact h.unreg v
  · intro v hv
    show t'.db (t'.slot v) = m.stored v
    rw [h7, slot_root (h6.trans h.troot), ← slot_root h.troot]; exact h.db v hv
  · obtain ⟨z1, z2, z3, z4⟩ := h.zero
    refine ⟨?_, ?_, ?_, ?_⟩
    · show 0 ∉ t'.reg
      rw [(ht 0 hu0).1]; exact z1
    · show 0 ∉ t'.user.uids
      rw [h4]; exact z2
    · show ¬ (N 0 ∨ m.has 0)
      rw [hhas' 0 hu0]; exact z3
    · show 0 ∉ c'.user.uids
      rw [h3]; exact z4
  · intro v hv
    obtain ⟨q1, q2⟩ := hcx v hv
    refine ⟨?_, ?_⟩
    · by_cases hvu : N v
      · exact Or.inl hvu
      · exact Or.inr ((h.has v).1 ((hc v hvu).1.1 q1))
    · show v ∉ c'.user.uids
      rw [h3]
      exact fun q => (h.cexp v (q2 q)).2 q
  · intro v hv
    show v ∉ t'.user.uids
    rw [h4]
    exact fun q => h.texp v (htx v hv q) q
  · show ∀ v ∈ t'.reg, v ∉ t'.user.uids → t'.g v = m.stored v
    rw [h4]
    exact key _ (fun v n _ _ => by rw [(htu v n).2, hview v n]) fun v hv => by
      rw [(ht v hv).1, (ht v hv).2]; exact h.clean v
  · show ∀ v ∈ t'.user.added, _
    rw [h4]; exact h.tadd
  · show r ∈ t'.user.added → _
    rw [h4]; exact h.radd
  · show ∀ v ∈ c'.user.added, _ ∧ v ∉ t'.user.uids
    rw [h3, h4]; exact h.cadd
  · show ∀ v, v ∈ c'.user.deleted ∨ v ∈ t'.user.deleted → _
    rw [h3, h4]; exact h.dead1
  · show ∀ v, m.dead v → ¬ (N v ∨ m.has v) ∧ _ ∧ _ ∧ (_ ∨ v ∈ c'.user.deleted ∨ v ∈ t'.user.deleted)
    rw [h3, h4]
    exact key _ (fun v n q => absurd q (hN v n).2.1) fun v hv => by rw [hhas' v hv]; exact h.dead2 v
  · exact key _ (fun v n _ _ _ => hview v n) fun v hv => by
      show v ≠ 0 → ¬ (N v ∨ m.has v) → _
      rw [hhas' v hv]; exact h.out v
  · show ∀ v, _ → v ∉ t'.reg → _ → m.stored v ≠ ∅ → t'.g v = ∅
    exact key _ (fun v n _ q1 _ q2 => absurd (htu v n).1 q1) fun v hv => by
      rw [(ht v hv).1, (ht v hv).2]; exact h.left v
  · show ∀ v, ¬ m.used v → v ∉ t'.reg ∧ t'.g v = ∅ ∧ v ∉ t'.user.uids ∧ ¬ (N v ∨ m.has v) ∧ v ∉ c'.user.uids ∧ _ ∧ _
    rw [h3, h4]
    exact key _ (fun v n q => absurd (h.new v q).2.2.2.2.2.2 (hN v n).2.2.2) fun v hv => by
      rw [(ht v hv).1, (ht v hv).2, hhas' v hv]; exact h.new v

/-! ### the server -/

theorem loadByIri_engine {t : St} (hc : t.ctx = .engine) (he : t.engine = .empty) (u : Uid) :
    (t.loadByIri u).2.engine.deleted = [] ∧ ∀ v, v ∈ (t.loadByIri u).2.engine.added ∨ v ∈ (t.loadByIri u).2.engine.updated → v = u := by
  obtain ⟨reg, g, det, user, engine, ctx, expired, root, db⟩ := t
  dsimp only at hc he
  subst hc he
  unfold St.loadByIri
  dsimp only
  split
  · simp [Buf.empty]
  · by_cases hu : u ∈ reg
    · simp [hu, St.notifyUpdate, St.buf, St.setBuf, Buf.empty]
    · simp [hu, St.notifyUpdate, St.buf, St.setBuf, Buf.empty, St.store, ins, del]

theorem afterLoad_found (uids : List Uid) (old : Option Content) (u : Uid) (t : St) :
    ∃ ex, St.afterLoad P uids old u (some u) t = (.ok (some u), { t with expired := ex }) ∧ ∀ v ∈ ex, v ∈ t.expired ∨ v ∉ t.user.uids := by
  unfold St.afterLoad
  cases old with
  | none => exact ⟨t.expired, rfl, fun _ h => Or.inl h⟩
  | some o =>
    dsimp only
    rw [if_neg (by simp)]
    split
    · exact ⟨t.expired, rfl, fun _ h => Or.inl h⟩
    · refine ⟨_, rfl, fun v hv => ?_⟩
      have := ((mem_expire t _ v).1 hv).1
      exact this.imp id And.right

/-- One round of the server's loop. -/
theorem round_exact {uids missing : List Uid} {t : St} {u : Uid} (hc : t.ctx = .user) (hr : t.root ≠ none) (h1 : u ∉ missing → u ∈ t.reg)
    (h2 : u ∈ missing → u ∉ t.reg → t.stored u ≠ ∅ → t.g u = ∅) (h3 : u ∈ missing → u ∈ t.reg → t.stored u = t.g u ∧ t.g u ≠ ∅) :
    ∃ t1, t.inEngine (St.loadStep P uids missing u) = (.ok (if u ∈ t.reg ∨ t.stored u ≠ ∅ then some u else none), t1) ∧ t1.ctx = .user ∧ t1.user = t.user ∧ t1.root = t.root ∧ t1.db = t.db ∧
      (∀ v, v ∈ t1.reg ↔ v ∈ t.reg ∨ (v = u ∧ t.stored v ≠ ∅ ∧ v ∈ missing)) ∧ (∀ v, v ∈ t.reg ∨ v ≠ u → t1.g v = t.g v) ∧ (u ∉ t.reg → t.stored u ≠ ∅ → t1.g u = t.stored u) ∧
      (u ∉ t.reg → t.stored u = ∅ → t1.g u = t.g u) ∧ (∀ v ∈ t1.expired, v ∈ t.expired ∨ v ∉ t.user.uids) ∧
      t1.engine.deleted = [] ∧ ∀ v, v ∈ t1.engine.added ∨ v ∈ t1.engine.updated → v = u ∧ v ∈ t1.reg := by
  unfold St.inEngine
  simp only [hc, ne_eq, reduceCtorEq, not_false_eq_true, if_true]
  obtain ⟨t0, ht0⟩ : ∃ t0 : St, t0 = { t with engine := .empty, ctx := .engine } := ⟨_, rfl⟩
  rw [← ht0]
  have e1 : t0.reg = t.reg := by rw [ht0]
  have e2 : t0.g = t.g := by rw [ht0]
  have e3 : t0.stored u = t.stored u := by rw [ht0]; rfl
  by_cases hm : u ∈ missing
  · by_cases hst : t.stored u = ∅
    · have hu : u ∉ t.reg := fun q => by
        obtain ⟨k1, k2⟩ := h3 hm q
        exact k2 (by rw [← k1]; exact hst)
      refine ⟨{ t0 with ctx := .user }, ?_, rfl, by rw [ht0], by rw [ht0], by rw [ht0], ?_, fun _ _ => by rw [← e2], fun _ q => absurd hst q, fun _ _ => by rw [← e2], ?_, ?_, ?_⟩
      · have hl : t0.loadByIri u = (.ok none, t0) := by
          unfold St.loadByIri
          dsimp only
          rw [if_pos (by exact e3.trans hst)]
        unfold St.loadStep
        rw [if_neg (by simpa using hm), hl, if_neg (by rw [e1]; exact hu), if_neg (by
          rintro (q | q)
          · exact hu q
          · exact q hst)]
        rfl
      · intro v
        show v ∈ t0.reg ↔ _
        rw [e1]
        exact ⟨Or.inl, fun q => q.elim id fun q => absurd (q.1 ▸ hst) q.2.1⟩
      · intro v hv
        exact Or.inl (by rw [ht0] at hv; exact hv)
      · rw [ht0]; rfl
      · rw [ht0]; simp [Buf.empty]
    · have he := loadByIri_engine (t := t0) (by rw [ht0]) (by rw [ht0]) u
      rcases loadByIri_spec (s := t0) (by rw [ht0]; exact hr) (by rw [ht0]) (u := u) (by
        intro q
        rw [e1] at q
        rw [e2]; exact h2 hm q hst) (by rw [ht0]; simp [Buf.empty]) with ⟨a, b⟩ | ⟨a, e, -, b⟩
      · exact absurd (e3.symm.trans a) hst
      · rw [b] at he
        dsimp only at he
        obtain ⟨ex, k1, k2⟩ := afterLoad_found (P := P) uids (if u ∈ t0.reg then some (t0.g u) else none) u
          { t0 with reg := ins t0.reg u, g := Function.update t0.g u (t0.stored u), expired := del t0.expired u, engine := e }
        have hreg : ∀ v, v ∈ ins t0.reg u ↔ v ∈ t.reg ∨ v = u := fun v => by rw [mem_ins, e1]
        refine ⟨{ t0 with reg := ins t0.reg u, g := Function.update t0.g u (t0.stored u), expired := ex, engine := e, ctx := .user }, ?_, rfl, by rw [ht0], by rw [ht0], by rw [ht0], ?_, ?_, ?_,
          fun _ q => absurd q hst, ?_, he.1, ?_⟩
        · unfold St.loadStep
          rw [if_neg (by simpa using hm), b]
          dsimp only
          rw [k1, if_pos (Or.inr hst)]
        · intro v
          show v ∈ ins t0.reg u ↔ _
          rw [hreg]
          constructor
          · rintro (q | rfl)
            · exact Or.inl q
            · exact Or.inr ⟨rfl, hst, hm⟩
          · rintro (q | q)
            · exact Or.inl q
            · exact Or.inr q.1
        · intro v hv
          show Function.update t0.g u (t0.stored u) v = _
          by_cases hvu : v = u
          · subst hvu
            rw [Function.update_self, e3]
            exact (h3 hm (hv.resolve_right fun k => k rfl)).1
          · rw [Function.update_of_ne hvu, e2]
        · intro _ _
          show Function.update t0.g u (t0.stored u) u = _
          rw [Function.update_self, e3]
        · intro v hv
          rcases k2 v hv with q | q
          · left
            have := ((mem_del ..).1 q).1
            rw [ht0] at this; exact this
          · right
            rw [ht0] at q; exact q
        · intro v hv
          have := he.2 v hv
          exact ⟨this, (hreg v).2 (Or.inr this)⟩
  · have hu := h1 hm
    refine ⟨{ t0 with ctx := .user }, ?_, rfl, by rw [ht0], by rw [ht0], by rw [ht0], ?_, fun _ _ => by rw [← e2], fun q => absurd hu q, fun q => absurd hu q, ?_, ?_, ?_⟩
    · unfold St.loadStep
      rw [if_pos hm, if_pos (by rw [e1]; exact hu), if_pos (Or.inl hu)]
    · intro v
      show v ∈ t0.reg ↔ _
      rw [e1]
      exact ⟨Or.inl, fun q => q.elim id fun q => absurd (q.1 ▸ q.2.2) hm⟩
    · intro v hv
      exact Or.inl (by rw [ht0] at hv; exact hv)
    · rw [ht0]; rfl
    · rw [ht0]; simp [Buf.empty]

/-- The server's loop. -/
theorem rounds_exact {uids missing : List Uid} : ∀ (us : List Uid) (t : St), t.ctx = .user → t.root ≠ none → (∀ u ∈ us, u ∉ missing → u ∈ t.reg) →
    (∀ u ∈ us, u ∈ missing → u ∉ t.reg → t.stored u ≠ ∅ → t.g u = ∅) → (∀ u ∈ us, u ∈ missing → u ∈ t.reg → t.stored u = t.g u ∧ t.g u ≠ ∅) →
    ∃ t', St.loadLoop P uids missing us t = (.ok (us.map fun u => if u ∈ t.reg ∨ t.stored u ≠ ∅ then some u else none), t') ∧ t'.ctx = .user ∧ t'.user = t.user ∧ t'.root = t.root ∧ t'.db = t.db ∧
      (∀ v, v ∈ t'.reg ↔ v ∈ t.reg ∨ (v ∈ us ∧ t.stored v ≠ ∅ ∧ v ∈ missing)) ∧ (∀ v, v ∈ t.reg ∨ v ∉ us → t'.g v = t.g v) ∧
      (∀ v ∈ us, v ∉ t.reg → t.stored v ≠ ∅ → t'.g v = t.stored v) ∧ (∀ v ∈ us, v ∉ t.reg → t.stored v = ∅ → t'.g v = t.g v) ∧ (∀ v ∈ t'.expired, v ∈ t.expired ∨ v ∉ t.user.uids) ∧
      (t'.engine = t.engine ∨ (t'.engine.deleted = [] ∧ ∀ v, v ∈ t'.engine.added ∨ v ∈ t'.engine.updated → v ∈ us ∧ v ∈ t'.reg))
  | [], t, hc, _, _, _, _ => ⟨t, rfl, hc, rfl, rfl, rfl, by simp, by simp, by simp, by simp, fun _ h => Or.inl h, Or.inl rfl⟩
  | u :: us, t, hc, hr, h1, h2, h3 => by
    obtain ⟨t1, a1, a2, a3, a4, a5, a6, a7, a8, a9, a10, a11, a12⟩ := round_exact (P := P) (uids := uids) (missing := missing) hc hr (h1 u List.mem_cons_self) (h2 u List.mem_cons_self) (h3 u List.mem_cons_self)
    have hst : ∀ v, t1.stored v = t.stored v := fun v => stored_eq a4 a5 v
    have hgu : ∀ v, v ∈ t1.reg → v ∉ t.reg → v = u ∧ t1.g v = t.stored v ∧ t.stored v ≠ ∅ ∧ v ∈ missing := by
      intro v q1 q2
      rcases (a6 v).1 q1 with q | ⟨rfl, q3, q4⟩
      · exact absurd q q2
      · exact ⟨rfl, a8 q2 q3, q3, q4⟩
    have hgn : ∀ v, v ∉ t1.reg → t1.g v = t.g v := by
      intro v q
      by_cases hv : v = u
      · subst hv
        have k : v ∉ t.reg := fun k => q ((a6 v).2 (Or.inl k))
        refine a9 k (Classical.not_not.1 fun k2 => ?_)
        by_cases hm : v ∈ missing
        · exact q ((a6 v).2 (Or.inr ⟨rfl, k2, hm⟩))
        · exact k (h1 v List.mem_cons_self hm)
      · exact a7 v (Or.inr hv)
    obtain ⟨t', b1, b2, b3, b4, b5, b6, b7, b8, b9, b10, b11⟩ := rounds_exact us t1 a2 (by rw [a4]; exact hr)
      (fun v hv hm => (a6 v).2 (Or.inl (h1 v (List.mem_cons_of_mem _ hv) hm)))
      (fun v hv hm hn hs => by
        rw [hgn v hn]
        exact h2 v (List.mem_cons_of_mem _ hv) hm (fun k => hn ((a6 v).2 (Or.inl k))) (by rw [← hst]; exact hs))
      (fun v hv hm hn => by
        rw [hst]
        by_cases k : v ∈ t.reg
        · rw [a7 v (Or.inl k)]; exact h3 v (List.mem_cons_of_mem _ hv) hm k
        · obtain ⟨-, q1, q2, -⟩ := hgu v hn k
          rw [q1]; exact ⟨rfl, q2⟩)
    simp only [hst] at b1 b6 b8 b9
    refine ⟨t', ?_, b2, b3.trans a3, b4.trans a4, b5.trans a5, fun v => ?_, fun v hv => ?_, fun v hv hn hs => ?_, fun v hv hn hs => ?_, fun v hv => ?_, Or.inr ?_⟩
    · unfold St.loadLoop
      rw [a1]
      dsimp only
      rw [b1]
      dsimp only
      rw [List.map_cons]
      congr 3
      apply List.map_congr_left
      intro v hv
      by_cases k : v ∈ t.reg
      · rw [if_pos (Or.inl ((a6 v).2 (Or.inl k))), if_pos (Or.inl k)]
      · by_cases k2 : t.stored v = ∅
        · rw [if_neg, if_neg]
          · rintro (q | q)
            · exact k q
            · exact q k2
          · rintro (q | q)
            · exact (hgu v q k).2.2.1 k2
            · exact q k2
        · rw [if_pos (Or.inr k2), if_pos (Or.inr k2)]
    · rw [b6, a6, List.mem_cons]
      constructor
      · rintro ((q | q) | q)
        · exact Or.inl q
        · exact Or.inr ⟨Or.inl q.1, q.2⟩
        · exact Or.inr ⟨Or.inr q.1, q.2⟩
      · rintro (q | ⟨q | q, q'⟩)
        · exact Or.inl (Or.inl q)
        · exact Or.inl (Or.inr ⟨q, q'⟩)
        · exact Or.inr ⟨q, q'⟩
    · rw [List.mem_cons, not_or] at hv
      rcases hv with hv | hv
      · rw [b7 v (Or.inl ((a6 v).2 (Or.inl hv))), a7 v (Or.inl hv)]
      · rw [b7 v (Or.inr hv.2), a7 v (Or.inr hv.1)]
    · by_cases k : v ∈ t1.reg
      · rw [b7 v (Or.inl k), (hgu v k hn).2.1]
      · rcases List.mem_cons.1 hv with rfl | hvs
        · refine absurd ((a6 v).2 (Or.inr ⟨rfl, hs, ?_⟩)) k
          exact Classical.not_not.1 fun q => hn (h1 v List.mem_cons_self q)
        · exact b8 v hvs k hs
    · have k : v ∉ t1.reg := fun k => (hgu v k hn).2.2.1 hs
      by_cases hvs : v ∈ us
      · rw [b9 v hvs k hs, hgn v k]
      · rw [b7 v (Or.inr hvs), hgn v k]
    · rcases b10 v hv with q | q
      · exact a10 v q
      · exact Or.inr (by rw [a3] at q; exact q)
    · rcases b11 with q | ⟨q1, q2⟩
      · rw [q]
        exact ⟨a11, fun v hv => ⟨by rw [(a12 v hv).1]; exact List.mem_cons_self, (b6 v).2 (Or.inl (a12 v hv).2)⟩⟩
      · exact ⟨q1, fun v hv => ⟨List.mem_cons_of_mem _ (q2 v hv).1, (q2 v hv).2⟩⟩

/-! ### the request -/

/-- The specification of loading `us`: what exists is in the session afterwards. -/
def View.adding (m : View) (us : List Uid) : View := { m with has := fun v => (v ∈ us ∧ m.view v ≠ ∅) ∨ m.has v }

/-- Specification: what loading `u` gives. -/
def View.found (m : View) (u : Uid) : Option Uid := if m.view u = ∅ then none else some u

set_option maxHeartbeats 1000000 in
/-- The request for the missing objects. `E` are the uids reported as expired. -/
theorem request_many (h : Good r m s) (he : s.t.engine = .empty) (E missing : List Uid) (hm : ∀ u ∈ missing, u ≠ 0 ∧ ¬ m.dead u ∧ u ∉ s.c.user.uids) :
    ∃ c2 t2, request .fine ⟨none, E, []⟩ (fetch P missing) { s.c with engine := .empty, ctx := .engine } s.t = ⟨.ok (missing.map m.found), c2, t2⟩ ∧
      Good r (m.adding missing) ⟨{ c2 with ctx := .user }, t2⟩ ∧ t2.engine = .empty := by
  have hy := h.sync
  obtain ⟨t1, ht1⟩ : ∃ t1, t1 = (s.t.expire E).2 := ⟨_, rfl⟩
  have f1 : t1.ctx = s.t.ctx ∧ t1.user = s.t.user ∧ t1.reg = s.t.reg ∧ t1.g = s.t.g ∧ t1.db = s.t.db ∧ t1.root = s.t.root ∧ t1.engine = .empty := by rw [ht1]; exact ⟨rfl, rfl, rfl, rfl, rfl, rfl, he⟩
  obtain ⟨f1, f2, f3, f4, f5, f6, f7⟩ := f1
  have fx : ∀ v ∈ t1.expired, v ∈ s.t.reg ∧ v ∉ s.t.user.uids := by
    intro v hv
    rw [ht1] at hv
    obtain ⟨q1, q2⟩ := (mem_expire s.t E v).1 hv
    exact ⟨q2, q1.elim (h.texp v) And.right⟩
  have hstored : ∀ u, u ≠ 0 → t1.stored u = m.stored u := by
    intro u hu
    unfold St.stored
    rw [f5, slot_root (f6.trans h.troot), ← slot_root h.troot]; exact h.db u hu
  -- the objects asked for
  have hreg1 : ∀ u ∈ missing, (u ∈ t1.reg ↔ m.has u) := fun u hu => by rw [f3, ← h.has]; exact ((hy.same u (hm u hu).2.2).1).symm
  have hg1 : ∀ u ∈ missing, m.has u → t1.g u = m.view u := fun u hu hh => by rw [f4]; exact (h.inT hh (hm u hu).2.2).2
  have hst1 : ∀ u ∈ missing, ¬ m.has u → t1.stored u = m.view u := fun u hu hh => by rw [hstored u (hm u hu).1, h.out u (hm u hu).1 hh (hm u hu).2.1]
  obtain ⟨ex0, hex0⟩ : ∃ ex0, ex0 = missing.filter (· ∈ t1.expired) := ⟨_, rfl⟩
  obtain ⟨ms, hms⟩ : ∃ ms, ms = missing.filter (fun u => u ∉ t1.reg ∨ u ∈ ex0) := ⟨_, rfl⟩
  have hmem : ∀ u ∈ missing, (u ∈ ms ↔ u ∉ t1.reg ∨ u ∈ t1.expired) := by
    intro u hu
    rw [hms, List.mem_filter, hex0]
    simp [hu]
  obtain ⟨ta, hta⟩ : ∃ ta : St, ta = { t1 with expired := t1.expired.filter (· ∉ ex0) } := ⟨_, rfl⟩
  have ga : ta.ctx = t1.ctx ∧ ta.user = t1.user ∧ ta.reg = t1.reg ∧ ta.g = t1.g ∧ ta.db = t1.db ∧ ta.root = t1.root ∧ ta.engine = t1.engine ∧ (∀ v, ta.stored v = t1.stored v) ∧ (∀ v ∈ ta.expired, v ∈ t1.expired) := by
    rw [hta]; exact ⟨rfl, rfl, rfl, rfl, rfl, rfl, rfl, fun _ => rfl, fun v hv => (List.mem_filter.1 hv).1⟩
  obtain ⟨ga1, ga2, ga3, ga4, ga5, ga6, ga7, ga8, ga9⟩ := ga
  obtain ⟨t2, l1, l2, l3, l4, l5, l6, l7, l8, l9, l10, l11⟩ := rounds_exact (P := P) (uids := missing) (missing := ms) missing ta (ga1.trans (f1.trans hy.tctx)) (by rw [ga6, f6, h.troot]; simp)
    (by
      intro u hu hn
      rw [hmem u hu, not_or, Classical.not_not] at hn
      rw [ga3]; exact hn.1)
    (by
      intro u hu _ hn hs
      rw [ga3] at hn
      rw [ga8] at hs
      rw [ga4, f4]
      rw [f3] at hn
      exact h.left u (hm u hu).1 hn (hm u hu).2.1 (by rw [← hstored u (hm u hu).1]; exact hs))
    (by
      intro u hu hq hn
      rw [ga3] at hn
      rw [ga8, ga4]
      have hx : u ∈ t1.expired := ((hmem u hu).1 hq).resolve_left fun k => k hn
      have hh := (hreg1 u hu).1 hn
      refine ⟨?_, by rw [hg1 u hu hh]; exact h.full u hh⟩
      rw [hstored u (hm u hu).1, f4]
      exact (h.clean u (fx u hx).1 (fx u hx).2).symm)
  obtain ⟨rs, hrs⟩ : ∃ rs, rs = missing.map m.found := ⟨_, rfl⟩
  have hrs' : (missing.map fun u => if u ∈ ta.reg ∨ ta.stored u ≠ ∅ then some u else none) = rs := by
    rw [hrs]
    apply List.map_congr_left
    intro u hu
    unfold View.found
    rw [ga3, ga8]
    by_cases hh : m.has u
    · rw [if_pos (Or.inl ((hreg1 u hu).2 hh)), if_neg (h.full u hh)]
    · have hn : u ∉ t1.reg := fun k => hh ((hreg1 u hu).1 k)
      rw [hst1 u hu hh]
      by_cases hv : m.view u = ∅
      · rw [if_pos hv, if_neg]
        rintro (q | q)
        · exact hn q
        · exact q hv
      · rw [if_neg hv, if_pos (Or.inr hv)]
  rw [hrs'] at l1
  have hor : ∀ v, v ∈ objs rs ↔ v ∈ missing ∧ m.view v ≠ ∅ := by
    intro v
    rw [mem_objs, hrs, List.mem_map]
    unfold View.found
    constructor
    · rintro ⟨u, hu, q⟩
      by_cases hv : m.view u = ∅
      · rw [if_pos hv] at q; exact (nomatch q)
      · rw [if_neg hv] at q
        obtain rfl := Option.some.inj q
        exact ⟨hu, hv⟩
    · rintro ⟨hu, hv⟩
      exact ⟨v, hu, by rw [if_neg hv]⟩
  have hreg2 : ∀ v, v ∈ t2.reg ↔ v ∈ s.t.reg ∨ (v ∈ missing ∧ m.view v ≠ ∅) := by
    intro v
    rw [l6, ga3, f3]
    constructor
    · rintro (q | ⟨q1, q2, q3⟩)
      · exact Or.inl q
      · by_cases hh : m.has v
        · exact Or.inl (by rw [← f3]; exact (hreg1 v q1).2 hh)
        · rw [ga8, hst1 v q1 hh] at q2
          exact Or.inr ⟨q1, q2⟩
    · rintro (q | ⟨q1, q2⟩)
      · exact Or.inl q
      · by_cases hh : m.has v
        · exact Or.inl (by rw [← f3]; exact (hreg1 v q1).2 hh)
        · refine Or.inr ⟨q1, by rw [ga8, hst1 v q1 hh]; exact q2, (hmem v q1).2 (Or.inl fun k => hh ((hreg1 v q1).1 k))⟩
  have hg2 : ∀ v, v ∈ missing → m.view v ≠ ∅ → t2.g v = m.view v := by
    intro v hv hne
    by_cases hh : m.has v
    · rw [l7 v (Or.inl (by rw [ga3]; exact (hreg1 v hv).2 hh)), ga4, hg1 v hv hh]
    · have hn : v ∉ t1.reg := fun k => hh ((hreg1 v hv).1 k)
      rw [l8 v hv (by rw [ga3]; exact hn) (by rw [ga8, hst1 v hv hh]; exact hne), ga8, hst1 v hv hh]
  have hg2' : ∀ v, ¬ (v ∈ missing ∧ m.view v ≠ ∅) → t2.g v = s.t.g v := by
    intro v hv
    by_cases hvm : v ∈ missing
    · have hne : m.view v = ∅ := Classical.not_not.1 fun k => hv ⟨hvm, k⟩
      have hh : ¬ m.has v := fun k => h.full v k hne
      rw [l9 v hvm (by rw [ga3]; exact fun k => hh ((hreg1 v hvm).1 k)) (by rw [ga8, hst1 v hvm hh]; exact hne), ga4, f4]
    · rw [l7 v (Or.inr hvm), ga4, f4]
  have heng : t2.engine.deleted = [] ∧ ∀ v, v ∈ t2.engine.added ∨ v ∈ t2.engine.updated → v ∈ missing ∧ m.view v ≠ ∅ := by
    rcases l11 with q | ⟨q1, q2⟩
    · rw [q, ga7, f7]; exact ⟨rfl, by simp [Buf.empty]⟩
    · refine ⟨q1, fun v hv => ⟨(q2 v hv).1, ?_⟩⟩
      rcases (hreg2 v).1 (q2 v hv).2 with k | k
      · exact h.full v ((hreg1 v (q2 v hv).1).1 (by rw [f3]; exact k))
      · exact k.2
  have hcont : ∀ v, v ∈ missing → m.view v ≠ ∅ → t2.content v = m.view v := by
    intro v h1 h2
    unfold St.content
    rw [if_pos ((hreg2 v).2 (Or.inr ⟨h1, h2⟩))]
    exact hg2 v h1 h2
  -- the client
  obtain ⟨c1, hc1⟩ : ∃ c1 : St, c1 = { s.c with engine := .empty, ctx := .engine } := ⟨_, rfl⟩
  rw [← hc1]
  obtain ⟨c2, e, k⟩ := applyMsg_spec (C := t2.content) (A := t2.engine.added) (U := t2.engine.updated) (D := t2.engine.deleted) (E := t2.expired) (R := rs) (s := c1)
    (by rw [heng.1]; exact List.nodup_nil) (by rw [heng.1]; simp) (by rw [heng.1]; simp) (by
    rw [hc1]; exact ⟨disj_empty, by simp [St.buf, Buf.empty], by simp [St.buf, Buf.empty]⟩) (by
    intro u hu hr
    have hur : u ∉ s.c.reg := by rw [hc1] at hr; exact hr
    have : c1.g u = ∅ := by rw [hc1]; exact h.unreg u (fun q => hur ((h.has u).2 q))
    rw [this]; exact Finset.empty_subset _)
  rw [heng.1] at k
  have hin : ∀ v, (v ∈ t2.engine.added ∨ v ∈ t2.engine.updated ++ objs rs) ↔ v ∈ missing ∧ m.view v ≠ ∅ := by
    intro v
    rw [List.mem_append]
    constructor
    · rintro (q | q | q)
      · exact heng.2 v (Or.inl q)
      · exact heng.2 v (Or.inr q)
      · exact (hor v).1 q
    · exact fun q => Or.inr (Or.inr ((hor v).2 q))
  have hsv : serve (fetch P missing) ⟨none, E, []⟩ s.t =
      (some ⟨some ⟨docs t2.content t2.engine.added, docs t2.content t2.engine.updated, docs t2.content t2.engine.deleted⟩, t2.expired, optDocs t2.content rs⟩, { t2 with engine := .empty }) := by
    have hde : deserialize .user ⟨none, E, []⟩ s.t = (.ok [], t1) := by rw [ht1]; rfl
    unfold serve
    rw [hde]
    dsimp only
    have hl : fetch P missing t1 = (.ok rs, t2) := by
      unfold fetch St.load
      rw [if_neg (by rw [f6, h.troot]; simp)]
      dsimp only
      rw [← hex0, ← hms, ← hta]
      exact l1
    rw [hl]
    dsimp only
    unfold respond
    rw [result_docs (fun u hu => by rw [hcont u ((hor u).1 hu).1 ((hor u).1 hu).2]; exact ((hor u).1 hu).2), serialize_engine (by
      intro v hv
      rw [mem_uids, heng.1] at hv
      have : v ∈ missing ∧ m.view v ≠ ∅ := by
        rcases hv with q | q | q
        · exact heng.2 v (Or.inl q)
        · exact heng.2 v (Or.inr q)
        · exact (nomatch q)
      rw [hcont v this.1 this.2]; exact this.2)]
  have hr : request .fine ⟨none, E, []⟩ (fetch P missing) c1 s.t = ⟨.ok rs, c2, { t2 with engine := .empty }⟩ := by
    unfold request
    rw [if_neg (by decide), hsv]
    dsimp only
    rw [if_neg (by decide)]
    unfold deserialize St.inEngine
    dsimp only
    have hx : c1.ctx = .engine := by rw [hc1]
    have hx2 : ({ c1 with ctx := .engine } : St) = c1 := by rw [hc1]
    rw [if_neg (by rw [hx]; simp), hx2, e, hx]
    have hx3 : ({ c2 with ctx := .engine } : St) = c2 := by
      have := k.frame.ctx
      rw [hx] at this
      rw [← this]
    dsimp only
    rw [hx3]
  refine ⟨c2, { t2 with engine := .empty }, by rw [hr, hrs], ?_, rfl⟩
  have hcreg : ∀ v, v ∈ c2.reg ↔ v ∈ s.c.reg ∨ (v ∈ missing ∧ m.view v ≠ ∅) := by
    intro v
    rw [k.reg, hin, hc1]
    simp
  have hcg : ∀ v, v ∈ missing → m.view v ≠ ∅ → c2.g v = m.view v := by
    intro v h1 h2
    have ho := (hin v).2 ⟨h1, h2⟩
    rw [k.gIn v (ho.imp id Or.inl), hcont v h1 h2]
  have hcg' : ∀ v, ¬ (v ∈ missing ∧ m.view v ≠ ∅) → c2.g v = s.c.g v := by
    intro v hv
    rw [k.gOut v (by
      rintro (q | q | q)
      · exact hv ((hin v).1 (Or.inl q))
      · exact hv ((hin v).1 (Or.inr q))
      · exact (nomatch q)), hc1]
  have hG := h.loadedSet (fun v => (v ∈ missing ∧ m.view v ≠ ∅) ∧ ¬ m.has v) (by
    rintro u ⟨⟨q1, q2⟩, q3⟩
    exact ⟨(hm u q1).1, (hm u q1).2.1, q3, q2⟩) (c' := { c2 with ctx := .user }) (t' := { t2 with engine := .empty }) rfl l2 ((k.frame.user (by rw [hc1])).trans (by rw [hc1])) (l3.trans (ga2.trans f2))
    ((k.frame.root (by rw [hc1]; show s.c.root ≠ none; rw [h.croot]; simp)).trans (by rw [hc1])) (l4.trans (ga6.trans f6)) (l5.trans (ga5.trans f5)) (by
      intro v hv
      refine ⟨?_, ?_, ?_⟩
      · show v ∈ c2.reg ↔ _
        rw [hcreg, h.has]
        exact ⟨fun q => q.elim id fun q => Classical.not_not.1 fun k => hv ⟨q, k⟩, Or.inl⟩
      · show c2.g v = _
        by_cases q : v ∈ missing ∧ m.view v ≠ ∅
        · rw [hcg v q.1 q.2, h.view v (Classical.not_not.1 fun k => hv ⟨q, k⟩)]
        · exact hcg' v q
      · show c2.det v = _
        rw [k.detOut v (by simp), hc1]) (by
      intro v hv
      refine ⟨?_, ?_⟩
      · show v ∈ t2.reg ↔ _
        rw [hreg2]
        refine ⟨fun q => q.elim id fun q => ?_, Or.inl⟩
        exact (h.inT (Classical.not_not.1 fun k => hv ⟨q, k⟩) (hm v q.1).2.2).1
      · show t2.g v = _
        by_cases q : v ∈ missing ∧ m.view v ≠ ∅
        · rw [hg2 v q.1 q.2, (h.inT (Classical.not_not.1 fun k => hv ⟨q, k⟩) (hm v q.1).2.2).2]
        · exact hg2' v q) (fun u n => ⟨(hcreg u).2 (Or.inr n.1), hcg u n.1.1 n.1.2⟩) (fun u n => ⟨(hreg2 u).2 (Or.inr n.1), hg2 u n.1.1 n.1.2⟩) (by
      intro v hv
      have := (k.exp v).1 hv
      rw [hc1] at this
      obtain ⟨q1, q2, q3⟩ := this
      exact ⟨(hcreg v).2 (Or.inl q1), fun q => q2.elim id fun q' => absurd q q'.2⟩) (by
      intro v hv q
      rcases l10 v hv with k | k
      · exact absurd q (fx v (ga9 v k)).2
      · exact absurd q (by rw [ga2, f2] at k; exact k))
  have hv : ({ m with has := fun v => ((v ∈ missing ∧ m.view v ≠ ∅) ∧ ¬ m.has v) ∨ m.has v } : View) = m.adding missing := by
    have : (fun v => ((v ∈ missing ∧ m.view v ≠ ∅) ∧ ¬ m.has v) ∨ m.has v) = fun v => (v ∈ missing ∧ m.view v ≠ ∅) ∨ m.has v := by
      funext v
      apply propext
      constructor
      · rintro (q | q)
        · exact Or.inl q.1
        · exact Or.inr q
      · intro q
        by_cases hh : m.has v
        · exact Or.inr hh
        · exact Or.inl ⟨q.resolve_right hh, hh⟩
    show ({ m with has := _ } : View) = { m with has := _ }
    rw [this]
  rw [← hv]
  exact hG

/-! ### the loop of the client -/

theorem after_found {us : List Uid} {old : Option Content} {u : Uid} {c : St} (h : m.found u = none → u ∉ c.reg) :
    ∃ ex, after P us old u (m.found u) c = (.ok (m.found u), { c with expired := ex }) ∧ ∀ v ∈ ex, v ∈ c.expired ∨ (v ∈ c.reg ∧ v ∉ c.user.uids) := by
  unfold after
  cases old with
  | none => exact ⟨c.expired, rfl, fun _ h => Or.inl h⟩
  | some o =>
    dsimp only
    rw [if_neg (by
      rintro ⟨q1, q2⟩
      exact h q1 q2)]
    refine ⟨_, rfl, fun v hv => ?_⟩
    obtain ⟨q1, q2⟩ := (mem_expire c _ v).1 hv
    exact q1.imp id fun q => ⟨q2, q.2⟩

theorem found_reg (h : Good r m s) {u : Uid} (q : m.found u = none) : u ∉ s.c.reg := by
  intro k
  have := h.full u ((h.has u).1 k)
  unfold View.found at q
  rw [if_neg this] at q
  exact (nomatch q)

theorem found_has (h : Good r m s) {u : Uid} (q : m.has u) : m.found u = some u := by
  unfold View.found
  rw [if_neg (h.full u q)]

/-- After the request. -/
theorem loop_rest {us missing expired : List Uid} : ∀ (rest : List Uid) (s : RSt), Good r m s → (∀ u ∈ rest, u ∉ missing → m.has u) →
    ∃ s', manyLoop P us missing expired rest (some ((rest.filter (· ∈ missing)).map m.found)) s = (.ok (rest.map m.found), s') ∧ Good r m s' ∧ s'.t = s.t
  | [], s, h, _ => ⟨s, rfl, h, rfl⟩
  | u :: rest, s, h, hh => by
    have hc := h.sync.cctx
    unfold manyLoop
    dsimp only
    rw [hc]
    simp only [ne_eq, reduceCtorEq, not_false_eq_true, if_true]
    by_cases hu : u ∈ missing
    · rw [if_neg (by simpa using hu), List.filter_cons_of_pos (by simpa using hu)]
      simp only [getMissing, List.map_cons, List.headD_cons, List.tail_cons]
      obtain ⟨ex, a1, a2⟩ := after_found (P := P) (us := us) (old := if u ∈ s.c.reg then some (s.c.g u) else none) (m := m) (u := u) (c := { s.c with engine := .empty, ctx := .engine }) (found_reg h)
      rw [a1]
      dsimp only
      have g := h.setExp (ex := ex) .empty fun v hv => (a2 v hv).elim (h.cexp v) fun q => ⟨(h.has v).1 q.1, q.2⟩
      obtain ⟨s', b1, b2, b3⟩ := loop_rest rest _ g fun v hv => hh v (List.mem_cons_of_mem _ hv)
      have e : ({ s.c with engine := .empty, expired := ex } : St) = { s.c with engine := .empty, expired := ex, ctx := .user } := by rw [← hc]
      rw [e] at b1
      rw [b1]
      exact ⟨s', rfl, b2, b3⟩
    · have hhu := hh u List.mem_cons_self hu
      rw [if_pos hu, if_neg (by simpa using (h.has u).2 hhu), List.filter_cons_of_neg (by simpa using hu)]
      have g := h.setExp (ex := s.c.expired) .empty h.cexp
      obtain ⟨s', b1, b2, b3⟩ := loop_rest rest _ g fun v hv => hh v (List.mem_cons_of_mem _ hv)
      have e : ({ s.c with engine := .empty, expired := s.c.expired } : St) = { s.c with engine := .empty, ctx := .user } := by rw [← hc]
      rw [e] at b1
      rw [b1]
      exact ⟨s', by rw [List.map_cons, found_has h hhu], b2, b3⟩

theorem View.adding_nil : m.adding [] = m := by
  have : (fun v => (v ∈ ([] : List Uid) ∧ m.view v ≠ ∅) ∨ m.has v) = m.has := by
    funext v; simp
  show ({ m with has := _ } : View) = m
  rw [this]

/-- The whole loop. -/
theorem loop_all {us missing expired : List Uid} (hm : ∀ u ∈ missing, u ≠ 0 ∧ ¬ m.dead u) : ∀ (rest : List Uid) (s : RSt), Good r m s → s.t.engine = .empty → (∀ u ∈ missing, u ∉ s.c.user.uids) →
    (∀ u ∈ rest, u ∉ missing → m.has u) → rest.filter (· ∈ missing) = missing →
    ∃ s', manyLoop P us missing expired rest none s = (.ok (rest.map m.found), s') ∧ Good r (m.adding missing) s' ∧ s'.t.engine = .empty
  | [], s, h, he, _, _, hf => by
    obtain rfl : missing = [] := by rw [← hf]; rfl
    exact ⟨s, rfl, by rw [View.adding_nil]; exact h, he⟩
  | u :: rest, s, h, he, hn, hh, hf => by
    have hc := h.sync.cctx
    unfold manyLoop
    dsimp only
    rw [hc]
    simp only [ne_eq, reduceCtorEq, not_false_eq_true, if_true]
    by_cases hu : u ∈ missing
    · rw [if_neg (by simpa using hu)]
      rw [List.filter_cons_of_pos (by simpa using hu)] at hf
      dsimp only [getMissing]
      obtain ⟨c2, t2, a1, a2, a3⟩ := request_many (P := P) h he (if expired = [] then s.c.expired else expired) missing fun v hv => ⟨(hm v hv).1, (hm v hv).2, hn v hv⟩
      rw [a1]
      dsimp only
      have e0 : missing.map m.found = m.found u :: (rest.filter (· ∈ missing)).map m.found := by
        conv_lhs => rw [← hf]
        rfl
      rw [e0]
      dsimp only [List.headD_cons, List.tail_cons]
      obtain ⟨ex, b1, b2⟩ := after_found (P := P) (us := us) (old := if u ∈ s.c.reg then some (s.c.g u) else none) (m := m) (u := u) (c := c2) (fun q => found_reg a2 q)
      rw [b1]
      dsimp only
      have g := a2.setExp (ex := ex) c2.engine fun v hv => (b2 v hv).elim (a2.cexp v) fun q => ⟨(a2.has v).1 q.1, q.2⟩
      obtain ⟨s', d1, d2, d3⟩ := loop_rest (P := P) (us := us) (missing := missing) (expired := expired) rest _ g fun v hv hv' => Or.inr (hh v (List.mem_cons_of_mem _ hv) hv')
      have d1' : manyLoop P us missing expired rest (some ((rest.filter (· ∈ missing)).map m.found)) ⟨{ c2 with expired := ex, ctx := .user }, t2⟩ = (.ok (rest.map m.found), s') := d1
      rw [d1']
      exact ⟨s', rfl, d2, by rw [d3]; exact a3⟩
    · have hhu := hh u List.mem_cons_self hu
      rw [if_pos hu, if_neg (by simpa using (h.has u).2 hhu)]
      rw [List.filter_cons_of_neg (by simpa using hu)] at hf
      have g := h.setExp (ex := s.c.expired) .empty h.cexp
      obtain ⟨s', b1, b2, b3⟩ := loop_all hm rest _ g he hn (fun v hv => hh v (List.mem_cons_of_mem _ hv)) hf
      have e : ({ s.c with engine := .empty, expired := s.c.expired } : St) = { s.c with engine := .empty, ctx := .user } := by rw [← hc]
      rw [e] at b1
      rw [b1]
      exact ⟨s', by rw [List.map_cons, found_has h hhu], b2, b3⟩

/-- Loading several objects in normal use. -/
theorem Good.loadMany (h : Good r m s) (he : s.t.engine = .empty) {us : List Uid} (hs : ∀ u ∈ us, u ≠ 0 ∧ ¬ m.dead u) :
    (Remote.loadMany P s us).1 = .ok (us.map m.found) ∧ Good r (m.adding us) (Remote.loadMany P s us).2 ∧ (Remote.loadMany P s us).2.t.engine = .empty := by
  obtain ⟨ex, hex⟩ : ∃ ex, ex = us.filter (· ∈ s.c.expired) := ⟨_, rfl⟩
  obtain ⟨ms, hms⟩ : ∃ ms, ms = us.filter (fun u => u ∉ s.c.reg ∨ u ∈ ex) := ⟨_, rfl⟩
  have hmem : ∀ u, u ∈ ms ↔ u ∈ us ∧ (u ∉ s.c.reg ∨ u ∈ s.c.expired) := by
    intro u
    rw [hms, List.mem_filter, hex]
    simp only [List.mem_filter, decide_eq_true_eq]
    tauto
  have g := h.setExp (ex := s.c.expired.filter (· ∉ ex)) s.c.engine fun v hv => h.cexp v (List.mem_filter.1 hv).1
  have hhas : ∀ u ∈ us, u ∉ ms → m.has u := by
    intro u hu hn
    rw [hmem] at hn
    exact (h.has u).1 (Classical.not_not.1 fun k => hn ⟨hu, Or.inl k⟩)
  obtain ⟨s', a1, a2, a3⟩ := loop_all (P := P) (us := us) (missing := ms) (expired := ex) (fun u hu => hs u ((hmem u).1 hu).1) us _ g he (by
    intro u hu
    obtain ⟨q1, q2⟩ := (hmem u).1 hu
    show u ∉ s.c.user.uids
    rcases q2 with q2 | q2
    · intro k
      rw [mem_uids] at k
      rcases k with k | k | k
      · exact q2 (h.sync.cbuf.live u (Or.inl k))
      · exact q2 (h.sync.cbuf.live u (Or.inr k))
      · exact (hs u q1).2 (h.dead1 u (Or.inl k))
    · exact (h.cexp u q2).2) hhas (by
    rw [hms]
    apply List.filter_congr
    intro u hu
    rw [decide_eq_decide, List.mem_filter]
    simp [hu])
  have hr : Remote.loadMany P s us = (.ok (us.map m.found), s') := by
    unfold Remote.loadMany
    rw [if_neg (by rw [h.croot]; simp)]
    dsimp only
    rw [← hex, ← hms]
    exact a1
  have hv : m.adding ms = m.adding us := by
    have : (fun v => (v ∈ ms ∧ m.view v ≠ ∅) ∨ m.has v) = fun v => (v ∈ us ∧ m.view v ≠ ∅) ∨ m.has v := by
      funext v
      apply propext
      constructor
      · rintro (q | q)
        · exact Or.inl ⟨((hmem v).1 q.1).1, q.2⟩
        · exact Or.inr q
      · rintro (q | q)
        · by_cases k : v ∈ ms
          · exact Or.inl ⟨k, q.2⟩
          · exact Or.inr (hhas v q.1 k)
        · exact Or.inr q
    show ({ m with has := _ } : View) = { m with has := _ }
    rw [this]
  rw [hr, ← hv]
  exact ⟨rfl, a2, a3⟩

/-- Refreshing. -/
theorem Good.refresh (h : Good r m s) (he : s.t.engine = .empty) (us : List Uid) :
    (Remote.refresh P s us).1 = .ok [] ∧ Good r m (Remote.refresh P s us).2 ∧ (Remote.refresh P s us).2.t.engine = .empty := by
  unfold Remote.refresh
  by_cases hu : us = []
  · rw [if_pos hu]; exact ⟨rfl, h, he⟩
  · rw [if_neg hu]
    have g := h.expire us
    have hes : ∀ u ∈ (s.c.expire us).1, m.has u := fun u hu => (h.has u).1 ((mem_expire_fst s.c us u).1 hu).2.2
    unfold Remote.expire at g
    revert g hes
    generalize s.c.expire us = y
    obtain ⟨es, c⟩ := y
    intro g hes
    dsimp only at g hes ⊢
    obtain ⟨a1, a2, a3⟩ := g.loadMany (P := P) he (us := es) fun u hu => ⟨has_nonzero h (hes u hu), fun q => (h.dead2 u q).1 (hes u hu)⟩
    have hv : m.adding es = m := by
      have : (fun v => (v ∈ es ∧ m.view v ≠ ∅) ∨ m.has v) = m.has := by
        funext v
        apply propext
        exact ⟨fun q => q.elim (fun q => hes v q.1) id, Or.inr⟩
      show ({ m with has := _ } : View) = m
      rw [this]
    rw [hv] at a2
    refine ⟨?_, a2, a3⟩
    show Except.map _ (Remote.loadMany P _ es).1 = _
    rw [a1]
    rfl

/-- Loading one object is the special case. -/
theorem loadMany_one (s : RSt) (u : Uid) (hc : s.c.ctx = .user) : loadMany P s [u] = load P s u := by
  obtain ⟨c, t⟩ := s
  dsimp only at hc
  unfold loadMany load load1
  by_cases hr : c.root = none
  · rw [if_pos hr, if_pos hr]
  rw [if_neg hr, if_neg hr]
  dsimp only
  unfold manyLoop
  dsimp only
  have e0 : (if c.ctx ≠ .engine then Buf.empty else c.engine) = .empty := if_pos (by rw [hc]; simp)
  rw [e0]
  by_cases hx : u ∈ c.expired
  · have e1 : [u].filter (· ∈ c.expired) = [u] := by simp [hx]
    have e2 : [u].filter (fun v => v ∉ c.reg ∨ v ∈ [u]) = [u] := by simp
    have e3 : c.expired.filter (· ∉ [u]) = del c.expired u := by
      unfold del
      apply List.filter_congr
      intro v _
      simp
    rw [e1, e2, e3, if_neg (c := u ∉ [u]) (by simp), if_neg (c := u ∈ c.reg ∧ u ∉ c.expired) (fun k => k.2 hx), if_pos hx]
    unfold getMissing
    dsimp only
    rw [if_neg (by simp)]
    generalize request .fine _ _ _ t = o
    obtain ⟨res, oc, ot⟩ := o
    cases res with
    | error e => rfl
    | ok rs =>
      dsimp only
      unfold after
      by_cases hreg : u ∈ c.reg
      · rw [if_pos hreg]
        dsimp only
        have e4 : (P.diff (c.g u) (if (rs.headD none).isSome then oc.g u else ∅)).filter (· ∉ [u]) = (P.diff (c.g u) (if (rs.headD none).isSome then oc.g u else ∅)).filter (· ≠ u) := by
          apply List.filter_congr
          intro v _
          simp
        rw [e4]
        by_cases hd : rs.headD none = none ∧ u ∈ oc.reg
        · have hd' : rs.headD none = none ∧ u ∈ (oc.expire ((P.diff (c.g u) (if (rs.headD none).isSome then oc.g u else ∅)).filter (· ≠ u))).2.reg := hd
          have hd2 : (some (c.g u)).isSome = true ∧ _ := ⟨rfl, hd'⟩
          rw [if_pos hd', if_pos hd2]
          generalize St.deleteTriples P _ u = y
          obtain ⟨y1, y2⟩ := y
          cases y1 <;> rfl
        · have hd' : ¬ (rs.headD none = none ∧ u ∈ (oc.expire ((P.diff (c.g u) (if (rs.headD none).isSome then oc.g u else ∅)).filter (· ≠ u))).2.reg) := hd
          have hd2 : ¬ ((some (c.g u)).isSome = true ∧ (rs.headD none = none ∧ u ∈ (oc.expire ((P.diff (c.g u) (if (rs.headD none).isSome then oc.g u else ∅)).filter (· ≠ u))).2.reg)) := fun k => hd k.2
          rw [if_neg hd', if_neg hd2]
          rfl
      · rw [if_neg hreg]
        dsimp only
        rw [if_neg (by simp)]
        rfl
  · have e1 : [u].filter (· ∈ c.expired) = [] := by simp [hx]
    have e3 : c.expired.filter (· ∉ ([] : List Uid)) = c.expired := by simp
    have e4 : del c.expired u = c.expired := by
      unfold del
      rw [List.filter_eq_self]
      intro v hv
      have : v ≠ u := by rintro rfl; exact hx hv
      simpa using this
    rw [e1, e3, e4, if_neg hx]
    by_cases hreg : u ∈ c.reg
    · have e2 : [u].filter (fun v => v ∉ c.reg ∨ v ∈ ([] : List Uid)) = [] := by simp [hreg]
      rw [e2, if_pos (by simp), if_neg (by simpa using hreg), if_pos ⟨hreg, hx⟩]
      rfl
    · have e2 : [u].filter (fun v => v ∉ c.reg ∨ v ∈ ([] : List Uid)) = [u] := by simp [hreg]
      rw [e2, if_neg (c := u ∉ [u]) (by simp), if_neg (c := u ∈ c.reg ∧ u ∉ c.expired) (fun k => hreg k.1)]
      unfold getMissing
      dsimp only
      rw [if_pos rfl]
      generalize request .fine _ _ _ t = o
      obtain ⟨res, oc, ot⟩ := o
      cases res with
      | error e => rfl
      | ok rs =>
        dsimp only
        unfold after
        rw [if_neg hreg]
        dsimp only
        rw [if_neg (by simp)]
        rfl

end Osp.Remote
