import Verif.Remote.Many
/-!
# Queries by class through a client (C92)

`load_by_oclass`, db_wrapper_session.py:31-47, called on a `TransportSessionClient`: transport_session_client.py (client:), transport_session_server.py (server:),
transport_utils.py (tu:). The method does not consume the buffers, so they are not sent. Its result is read while the response is written: after the engine buffers and the expired
uids were written, tu:49-60.
-/
namespace Osp.Remote
open Osp.Sess Osp.Sync

/-- The server's part, `_run_command`, server:116-141, with `serialize_buffers`, tu:29-68: the engine buffers and the expired uids are written first (tu:49-60), then the result is
read, which loads the objects (tu:62-65), and the engine buffers are reset (tu:66-67). `us` are the uids the backend finds. `none`: an error message, server:110-112. -/
def queryServe (us : List Uid) (m : Msg) (t : St) : Option Msg × St :=
  match deserialize .user m t with
  | (.error _, t) => (none, t)
  | (.ok _, t) =>
    let head := (serialize t (some .engine)).1
    match t.loadByOclass us with
    | (.error _, t) => (none, t)
    | (.ok rs, t) => (some { head with result := rs.map (fun o => o.bind (doc t)) }, { t with engine := .empty })

/-- `load_by_oclass` on the client: `__getattr__` and `_send` without buffers, client:113-132 and client:179-202, with `_receive`, client:134-158. -/
def query (s : RSt) (us : List Uid) : Except PyErr (List (Option Uid)) × RSt :=
  let (m, c) := serialize s.c none
  match queryServe us m s.t with
  | (none, t) => (.error .runtimeError, ⟨c, t⟩)
  | (some m, t) => let (r, c) := deserialize .engine m c; (r, ⟨c, t⟩)

/-- What the user does, with queries by class, loading several objects and refreshing. Modelling device: histories of calls. -/
inductive QOp where
  | base (o : ROp)
  | query (us : List Uid)
  | loads (us : List Uid)
  | refresh (us : List Uid)

/-- One operation. Modelling device: histories of calls. -/
def qstep (P : Params) (s : RSt) : QOp → Except PyErr (List (Option Uid)) × RSt
  | .base o => step P s o
  | .query us => query s us
  | .loads us => loadMany P s us
  | .refresh us => refresh P s us

/-- A history; the user goes on after exceptions. Modelling device: histories of calls. -/
def qrun (P : Params) (s : RSt) (ops : List QOp) : RSt := ops.foldl (fun s o => (qstep P s o).2) s

/-- Specification: a query or loading adds the objects found to the session and changes nothing else; refreshing changes nothing. -/
def View.qstep (m : View) : QOp → View
  | .base o => m.step o
  | .query us => { m with has := fun v => (v ∈ us ∧ m.view v ≠ ∅) ∨ m.has v }
  | .loads us => { m with has := fun v => (v ∈ us ∧ m.view v ≠ ∅) ∨ m.has v }
  | .refresh _ => m

/-- Specification: the result of a query are the objects found, in the order found; of loading the objects asked for, in the order of the arguments, `None` for those that do not exist. -/
def View.qresult (m : View) : QOp → Except PyErr (List (Option Uid))
  | .base o => m.result o
  | .query us => .ok (us.map fun u => if m.view u = ∅ then none else some u)
  | .loads us => .ok (us.map fun u => if m.view u = ∅ then none else some u)
  | .refresh _ => .ok []

/-- Specification. Normal use of a query: nothing that was changed or deleted and not committed is among the objects found. A deleted object is not loaded before the next commit. Refreshing is always
normal use. -/
def QSafe (r : Uid) (m : View) (s : RSt) : QOp → Prop
  | .base o => Safe r m s o
  | .query us => ∀ u ∈ us, u ≠ 0 ∧ ¬ m.dead u ∧ u ∉ s.c.user.uids ∧ u ∉ s.t.user.uids
  | .loads us => ∀ u ∈ us, u ≠ 0 ∧ ¬ m.dead u
  | .refresh _ => True

/-- Specification: every operation of the history is normal use. -/
def QAlong (P : Params) (r : Uid) : View → RSt → List QOp → Prop
  | _, _, [] => True
  | m, s, o :: os => QSafe r m s o ∧ QAlong P r (m.qstep o) (qstep P s o).2 os

/-- The specification of a history. -/
def View.qrun (m : View) (ops : List QOp) : View := ops.foldl View.qstep m

variable {r : Uid} {m : View} {s : RSt} {P : Params}

/-! ### the server -/

/-- The objects found are loaded. -/
theorem found_exact : ∀ (us : List Uid) (t : St), t.ctx = .user → t.root ≠ none → (∀ u ∈ us, u ∉ t.reg → t.stored u ≠ ∅ → t.g u = ∅) →
    ∃ t', t.loadFound us = (.ok (us.map fun u => if t.stored u = ∅ then none else some u), t') ∧ t'.ctx = .user ∧ t'.user = t.user ∧ t'.root = t.root ∧ t'.db = t.db ∧
      (∀ v, v ∈ t'.reg ↔ v ∈ t.reg ∨ (v ∈ us ∧ t.stored v ≠ ∅)) ∧ (∀ v, v ∈ us → t.stored v ≠ ∅ → t'.g v = t.stored v) ∧ (∀ v, ¬ (v ∈ us ∧ t.stored v ≠ ∅) → t'.g v = t.g v) ∧
      ∀ v ∈ t'.expired, v ∈ t.expired
  | [], t, hc, _, _ => ⟨t, rfl, hc, rfl, rfl, rfl, by simp, by simp, by simp, fun _ h => h⟩
  | u :: us, t, hc, hr, hg => by
    have h1 : ∃ t1, t.inEngine (fun s => s.loadByIri u) = (.ok (if t.stored u = ∅ then none else some u), t1) ∧ t1.ctx = .user ∧ t1.user = t.user ∧ t1.root = t.root ∧ t1.db = t.db ∧
        (∀ v, v ∈ t1.reg ↔ v ∈ t.reg ∨ (v = u ∧ t.stored v ≠ ∅)) ∧ (t.stored u ≠ ∅ → t1.g u = t.stored u) ∧ (∀ v, ¬ (v = u ∧ t.stored v ≠ ∅) → t1.g v = t.g v) ∧
        ∀ v ∈ t1.expired, v ∈ t.expired := by
      unfold St.inEngine
      simp only [hc, ne_eq, reduceCtorEq, not_false_eq_true, if_true]
      by_cases hst : t.stored u = ∅
      · have e : St.loadByIri { t with engine := .empty, ctx := .engine } u = (.ok none, { t with engine := .empty, ctx := .engine }) := by
          unfold St.loadByIri
          dsimp only
          rw [if_pos (by exact hst)]
        rw [e, if_pos hst]
        refine ⟨_, rfl, rfl, rfl, rfl, rfl, fun v => ⟨Or.inl, ?_⟩, fun h => absurd hst h, fun _ _ => rfl, fun _ h => h⟩
        rintro (q | ⟨rfl, q⟩)
        · exact q
        · exact absurd hst q
      · rcases loadByIri_spec (s := { t with engine := .empty, ctx := .engine }) hr rfl (u := u) (fun q => hg u List.mem_cons_self q hst) (by simp [Buf.empty]) with ⟨a, _⟩ | ⟨_, e, _, b⟩
        · exact absurd a hst
        · rw [b, if_neg hst]
          refine ⟨_, rfl, rfl, rfl, rfl, rfl, fun v => ?_, fun _ => Function.update_self .., fun v hv => ?_, fun v hv => ((mem_del ..).1 hv).1⟩
          · show v ∈ ins t.reg u ↔ _
            rw [mem_ins]
            constructor
            · rintro (q | rfl)
              · exact Or.inl q
              · exact Or.inr ⟨rfl, hst⟩
            · rintro (q | ⟨rfl, _⟩)
              · exact Or.inl q
              · exact Or.inr rfl
          · have hvu : v ≠ u := by rintro rfl; exact hv ⟨rfl, hst⟩
            exact Function.update_of_ne hvu _ _
    obtain ⟨t1, a1, a2, a3, a4, a5, a6, a7, a8, a9⟩ := h1
    have hst : ∀ v, t1.stored v = t.stored v := fun v => stored_eq a4 a5 v
    obtain ⟨t', b1, b2, b3, b4, b5, b6, b7, b8, b9⟩ := found_exact us t1 a2 (by rw [a4]; exact hr) (by
      intro v hv hn hs
      rw [hst] at hs
      rw [a6, not_or] at hn
      rw [a8 v hn.2]
      exact hg v (List.mem_cons_of_mem _ hv) hn.1 hs)
    simp only [hst] at b1 b6 b7 b8
    refine ⟨t', ?_, b2, b3.trans a3, b4.trans a4, b5.trans a5, fun v => ?_, fun v hv hs => ?_, fun v hv => ?_, fun v hv => a9 v (b9 v hv)⟩
    · unfold St.loadFound
      rw [a1]
      dsimp only
      rw [b1]
      rfl
    · rw [b6, a6, List.mem_cons]; tauto
    · by_cases hvs : v ∈ us
      · exact b7 v hvs hs
      · rw [b8 v (fun q => hvs q.1)]
        have : v = u := (List.mem_cons.1 hv).resolve_right hvs
        subst this
        exact a7 hs
    · rw [List.mem_cons] at hv
      rw [b8 v (fun q => hv ⟨Or.inr q.1, q.2⟩), a8 v (fun q => hv ⟨Or.inl q.1, q.2⟩)]

set_option maxHeartbeats 1000000 in
/-- A query in normal use. -/
theorem Good.query (h : Good r m s) (he : s.t.engine = .empty) {us : List Uid} (hs : QSafe r m s (.query us)) :
    (Remote.query s us).1 = m.qresult (.query us) ∧ Good r (m.qstep (.query us)) (Remote.query s us).2 ∧ (Remote.query s us).2.t.engine = .empty := by
  have hy := h.sync
  obtain ⟨t1, ht1⟩ : ∃ t1, t1 = (s.t.expire s.c.expired).2 := ⟨_, rfl⟩
  have f1 : t1.ctx = s.t.ctx ∧ t1.user = s.t.user ∧ t1.reg = s.t.reg ∧ t1.g = s.t.g ∧ t1.db = s.t.db ∧ t1.root = s.t.root ∧ t1.engine = .empty := by
    rw [ht1]; exact ⟨rfl, rfl, rfl, rfl, rfl, rfl, he⟩
  obtain ⟨f1, f2, f3, f4, f5, f6, f7⟩ := f1
  have fx : ∀ v ∈ t1.expired, v ∈ s.t.user.uids → v ∈ s.t.expired := by
    intro v hv
    rw [ht1, (expire_exact s.t s.c.expired v).1] at hv
    rw [mem_uids]
    tauto
  have hstored : ∀ u, u ≠ 0 → t1.stored u = m.stored u := fun u h0 => (stored_eq f6 f5 u).trans (h.db u h0)
  -- the objects found are as stored
  have hvs : ∀ u ∈ us, t1.stored u = m.view u := by
    intro u hu
    obtain ⟨u0, ud, uc, ut⟩ := hs u hu
    rw [hstored u u0]
    by_cases hh : m.has u
    · obtain ⟨q1, q2⟩ := h.inT hh uc
      rw [← q2, h.clean u q1 ut]
    · exact (h.out u u0 hh ud).symm
  obtain ⟨t2, l1, l2, l3, l4, l5, l6, l7, l8, l9⟩ := found_exact us t1 (f1.trans hy.tctx) (by rw [f6, h.troot]; simp) (by
    intro u hu hn hne
    obtain ⟨u0, ud, uc, ut⟩ := hs u hu
    rw [f3] at hn
    rw [f4]
    exact h.left u u0 hn ud (by rw [← hstored u u0]; exact hne))
  obtain ⟨rs, hrs⟩ : ∃ rs, rs = us.map fun u => if t1.stored u = ∅ then none else some u := ⟨_, rfl⟩
  have hrs' : rs = us.map fun u => if m.view u = ∅ then none else some u := by
    rw [hrs]
    apply List.map_congr_left
    intro u hu
    rw [hvs u hu]
  rw [← hrs] at l1
  have hor : ∀ v, v ∈ objs rs ↔ v ∈ us ∧ m.view v ≠ ∅ := by
    intro v
    rw [mem_objs, hrs', List.mem_map]
    constructor
    · rintro ⟨u, hu, q⟩
      by_cases hv : m.view u = ∅
      · rw [if_pos hv] at q; exact (nomatch q)
      · rw [if_neg hv] at q
        obtain rfl := Option.some.inj q
        exact ⟨hu, hv⟩
    · rintro ⟨hu, hv⟩
      exact ⟨v, hu, by rw [if_neg hv]⟩
  have hreg2 : ∀ v, v ∈ t2.reg ↔ v ∈ s.t.reg ∨ (v ∈ us ∧ m.view v ≠ ∅) := by
    intro v
    rw [l6, f3]
    by_cases hv : v ∈ us
    · rw [hvs v hv]
    · tauto
  have hg2 : ∀ v, v ∈ us → m.view v ≠ ∅ → t2.g v = m.view v := by
    intro v hv hne
    rw [l7 v hv (by rw [hvs v hv]; exact hne), hvs v hv]
  have hg2' : ∀ v, ¬ (v ∈ us ∧ m.view v ≠ ∅) → t2.g v = s.t.g v := by
    intro v hv
    rw [l8 v (by
      rintro ⟨q1, q2⟩
      exact hv ⟨q1, by rw [← hvs v q1]; exact q2⟩), f4]
  have hcont : ∀ v ∈ objs rs, t2.content v = m.view v := by
    intro v hv
    rw [hor] at hv
    unfold St.content
    rw [if_pos ((hreg2 v).2 (Or.inr hv))]
    exact hg2 v hv.1 hv.2
  -- the client
  obtain ⟨c1, hc1⟩ : ∃ c1 : St, c1 = { s.c with engine := .empty, ctx := .engine } := ⟨_, rfl⟩
  obtain ⟨c2, e, k⟩ := applyMsg_spec (C := t2.content) (A := []) (U := []) (D := []) (E := t1.expired) (R := rs) (s := c1) List.nodup_nil (by simp) (by simp) (by
    rw [hc1]; exact ⟨disj_empty, by simp [St.buf, Buf.empty], by simp [St.buf, Buf.empty]⟩) (by
    intro u hu hr
    have hur : u ∉ s.c.reg := by rw [hc1] at hr; exact hr
    have : c1.g u = ∅ := by rw [hc1]; exact h.unreg u (fun q => hur ((h.has u).2 q))
    rw [this]; exact Finset.empty_subset _)
  have hsv : queryServe us ⟨none, s.c.expired, []⟩ s.t = (some ⟨some ⟨docs t2.content [], docs t2.content [], docs t2.content []⟩, t1.expired, optDocs t2.content rs⟩, { t2 with engine := .empty }) := by
    have hde : deserialize .user ⟨none, s.c.expired, []⟩ s.t = (.ok [], t1) := by rw [ht1]; rfl
    unfold queryServe
    rw [hde]
    dsimp only
    have hl : t1.loadByOclass us = (.ok rs, t2) := by
      unfold St.loadByOclass
      rw [if_neg (by rw [f6, h.troot]; simp)]
      exact l1
    rw [hl]
    dsimp only
    rw [result_docs (fun u hu => by rw [hcont u hu]; exact ((hor u).1 hu).2)]
    unfold serialize
    rw [f7]
    rfl
  have hr : Remote.query s us = (.ok rs, ⟨{ c2 with ctx := s.c.ctx }, { t2 with engine := .empty }⟩) := by
    unfold Remote.query
    have hm : serialize s.c none = (⟨none, s.c.expired, []⟩, s.c) := rfl
    rw [hm]
    dsimp only
    rw [hsv]
    dsimp only
    unfold deserialize St.inEngine
    dsimp only
    rw [if_pos (by rw [hy.cctx]; decide), ← hc1, e]
  rw [hr]
  have hin : ∀ v, v ∈ [] ++ objs rs ↔ v ∈ us ∧ m.view v ≠ ∅ := fun v => by rw [List.nil_append]; exact hor v
  have hcreg : ∀ v, v ∈ c2.reg ↔ v ∈ s.c.reg ∨ (v ∈ us ∧ m.view v ≠ ∅) := by
    intro v
    rw [k.reg, hin, hc1]
    simp
  have hcg : ∀ v, v ∈ us → m.view v ≠ ∅ → c2.g v = m.view v := by
    intro v h1 h2
    have ho := (hor v).2 ⟨h1, h2⟩
    rw [k.gIn v (Or.inr (Or.inl (by rw [List.nil_append]; exact ho))), hcont v ho]
  have hcg' : ∀ v, ¬ (v ∈ us ∧ m.view v ≠ ∅) → c2.g v = s.c.g v := by
    intro v hv
    rw [k.gOut v (by
      rintro (q | q | q)
      · exact (nomatch q)
      · exact hv ((hin v).1 q)
      · exact (nomatch q)), hc1]
  refine ⟨by show Except.ok rs = _; rw [hrs']; rfl, ?_, rfl⟩
  have hG := h.loadedSet (fun v => (v ∈ us ∧ m.view v ≠ ∅) ∧ ¬ m.has v) (by
    rintro u ⟨⟨q1, q2⟩, q3⟩
    exact ⟨(hs u q1).1, (hs u q1).2.1, q3, q2⟩) (c' := { c2 with ctx := s.c.ctx }) (t' := { t2 with engine := .empty }) hy.cctx l2 ((k.frame.user (by rw [hc1])).trans (by rw [hc1])) (l3.trans f2)
    ((k.frame.root (by rw [hc1]; show s.c.root ≠ none; rw [h.croot]; simp)).trans (by rw [hc1])) (l4.trans f6) (l5.trans f5) (by
      intro v hv
      refine ⟨?_, ?_, ?_⟩
      · show v ∈ c2.reg ↔ _
        rw [hcreg, h.has]
        exact ⟨fun q => q.elim id fun q => Classical.not_not.1 fun k => hv ⟨q, k⟩, Or.inl⟩
      · show c2.g v = _
        by_cases q : v ∈ us ∧ m.view v ≠ ∅
        · rw [hcg v q.1 q.2, h.view v (Classical.not_not.1 fun k => hv ⟨q, k⟩)]
        · exact hcg' v q
      · show c2.det v = _
        rw [k.detOut v (by simp), hc1]) (by
      intro v hv
      refine ⟨?_, ?_⟩
      · show v ∈ t2.reg ↔ _
        rw [hreg2]
        refine ⟨fun q => q.elim id fun q => ?_, Or.inl⟩
        exact (h.inT (Classical.not_not.1 fun k => hv ⟨q, k⟩) (hs v q.1).2.2.1).1
      · show t2.g v = _
        by_cases q : v ∈ us ∧ m.view v ≠ ∅
        · rw [hg2 v q.1 q.2, (h.inT (Classical.not_not.1 fun k => hv ⟨q, k⟩) (hs v q.1).2.2.1).2]
        · exact hg2' v q) (fun u n => ⟨(hcreg u).2 (Or.inr n.1), hcg u n.1.1 n.1.2⟩) (fun u n => ⟨(hreg2 u).2 (Or.inr n.1), hg2 u n.1.1 n.1.2⟩) (by
      intro v hv
      have := (k.exp v).1 hv
      rw [hc1] at this
      obtain ⟨q1, q2, q3⟩ := this
      exact ⟨(hcreg v).2 (Or.inl q1), fun q => q2.elim id fun q' => absurd q q'.2⟩) (by
      intro v hv q
      exact fx v (l9 v hv) q)
  have hm : ({ m with has := fun v => ((v ∈ us ∧ m.view v ≠ ∅) ∧ ¬ m.has v) ∨ m.has v } : View) = m.qstep (.query us) := by
    have : (fun v => ((v ∈ us ∧ m.view v ≠ ∅) ∧ ¬ m.has v) ∨ m.has v) = fun v => (v ∈ us ∧ m.view v ≠ ∅) ∨ m.has v := by
      funext v
      apply propext
      constructor
      · rintro (q | q)
        · exact Or.inl q.1
        · exact Or.inr q
      · intro q
        by_cases hh : m.has v
        · exact Or.inr hh
        · exact Or.inl ⟨q.resolve_right hh, hh⟩
    show ({ m with has := _ } : View) = { m with has := _ }
    rw [this]
  rw [← hm]
  exact hG

/-! ### between requests the server has nothing to report -/

theorem serve_some {cmd : St → Res (List (Option Uid))} {msg : Msg} {t : St} (h : (serve cmd msg t).1 ≠ none) : (serve cmd msg t).2.engine = .empty := by
  unfold serve at h ⊢
  split
  · next q => rw [q] at h; exact absurd rfl h
  · next q =>
    rw [q] at h
    dsimp only at h ⊢
    split
    · next q' => rw [q'] at h; exact absurd rfl h
    · rfl

theorem request_ok {msg : Msg} {cmd : St → Res (List (Option Uid))} {c t : St} {rs : List (Option Uid)} (h : (request .fine msg cmd c t).res = .ok rs) :
    (request .fine msg cmd c t).server.engine = .empty := by
  unfold request at h ⊢
  rw [if_neg (by decide)] at h ⊢
  dsimp only at h ⊢
  rw [if_neg (by decide)] at h ⊢
  have k := @serve_some cmd msg t
  revert h k
  generalize serve cmd msg t = x
  obtain ⟨x1, x2⟩ := x
  cases x1 with
  | none => intro h; exact (nomatch h)
  | some y => intro _ k; exact k (by simp)

theorem load1_ok {fetch : List Uid → St → Res (List (Option Uid))} {u : Uid} {c t : St} {rs : List (Option Uid)} (he : t.engine = .empty)
    (h : (load1 P .fine fetch u c t).res = .ok rs) : (load1 P .fine fetch u c t).server.engine = .empty := by
  unfold load1 at h ⊢
  split
  · exact he
  · next h1 =>
    rw [if_neg h1] at h
    dsimp only at h ⊢
    split
    · exact he
    · next h2 =>
      rw [if_neg h2] at h
      revert h
      generalize hq : request .fine _ (fetch [u]) _ t = o
      have ho : ∀ rs, o.res = .ok rs → o.server.engine = .empty := fun rs h => by subst hq; exact request_ok h
      cases hr : o.res with
      | error e => intro h; exact (nomatch h)
      | ok rs' =>
        intro _
        have := ho rs' hr
        repeat' split
        all_goals exact this

theorem read_ok {s' : RSt} {u : Uid} {x : Unit} (he : s.t.engine = .empty) (h : Remote.read P s u = (.ok x, s')) : s'.t.engine = .empty := by
  unfold Remote.read Sync.read at h
  split at h
  · dsimp only at h
    revert h
    generalize s.c.expire [u] = y
    obtain ⟨es, c⟩ := y
    cases es with
    | nil => intro h; obtain ⟨-, rfl⟩ := Prod.mk.inj h; exact he
    | cons a as =>
      dsimp only
      intro h
      obtain ⟨h1, rfl⟩ := Prod.mk.inj h
      cases hr : (load1 P .fine (fetch P) u c s.t).res with
      | error e => rw [hr] at h1; exact (nomatch h1)
      | ok rs => exact load1_ok he hr
  · obtain ⟨-, rfl⟩ := Prod.mk.inj h; exact he

theorem arrived_engine (h : Good r m s) (he : s.t.engine = .empty) : (arrived s).engine = .empty := by
  have hs := h.sync
  have hd : ∀ u ∈ s.c.user.deleted, u ∉ s.c.user.added ∧ u ∉ s.c.user.updated := fun u hu => ⟨fun k => (hs.cbuf.disj u).2.1 ⟨k, hu⟩, fun k => (hs.cbuf.disj u).2.2 ⟨k, hu⟩⟩
  obtain ⟨t', e, k⟩ := applyMsg_spec (C := s.c.content) (E := s.c.expired) (R := []) hs.nodup hd (by simp [objs]) (s := s.t) (by rw [buf_user hs.tctx]; exact hs.tbuf) (by
    intro u hu hr
    rcases hu with hu | hu | hu | hu
    · rw [(hs.fresh u hu).2]; exact Finset.empty_subset _
    · exact absurd (hs.known u (Or.inl hu)) hr
    · exact absurd hu (by simp [objs])
    · exact absurd (hs.known u (Or.inr hu)) hr)
  have hde : deserialize .user (serialize s.c (some .user)).1 s.t = (.ok [], t') := by
    rw [serialize_user hs.has]; exact e
  unfold arrived
  rw [hde]
  exact (k.frame.engine hs.tctx).trans he

theorem step_engine (hT : HasType P) (h : Good r m s) (he : s.t.engine = .empty) {o : ROp} (hs : Safe r m s o) : (step P s o).2.t.engine = .empty := by
  cases o with
  | create u x =>
    show (Remote.create s u x).2.t.engine = .empty
    unfold Remote.create
    split <;> exact he
  | modify u f =>
    have k := (h.modify hT hs.1 hs.2.1 hs.2.2).1
    show (Remote.modify P s u f).2.t.engine = .empty
    unfold Remote.modify at k ⊢
    revert k
    cases hr : Remote.read P s u with
    | mk a b =>
      cases a with
      | error e => intro k; exact (nomatch k)
      | ok x =>
        intro _
        have k' : b.t.engine = .empty := read_ok he hr
        exact k'
  | delete u =>
    have k := (h.delete hT hs.1 hs.2).1
    show (Remote.delete P s u).2.t.engine = .empty
    unfold Remote.delete at k ⊢
    revert k
    cases hr : Remote.read P s u with
    | mk a b =>
      cases a with
      | error e => intro k; exact (nomatch k)
      | ok x =>
        intro _
        have k' : b.t.engine = .empty := read_ok he hr
        exact k'
  | read u =>
    have k := (h.read hT u).1
    show (Remote.read P s u).2.t.engine = .empty
    exact read_ok (x := ()) he (by rw [← k])
  | load u => exact load1_ok (c := s.c) (fetch := fetch P) (u := u) he (h.load hT hs.1 hs.2).1
  | expire us => exact he
  | commit net fail =>
    obtain ⟨e, k⟩ := h.arrive
    have hy := k.sync
    have hn : net ≠ .noRequest := by cases fail with
      | none => exact hs
      | some j => exact hs.1
    have hv : (serve (commitCmd fail) (serialize s.c (some .user)).1 s.t).2.engine = .empty := by
      unfold serve
      rw [e]
      dsimp only
      cases fail with
      | none =>
        rw [commitCmd_ok hy.tctx k.troot k.tr]
        rfl
      | some j =>
        obtain ⟨er, hf⟩ := commit_fail (s := arrived s) hy.tctx (k := j) hs.2
        unfold commitCmd
        rw [hf]
    show (Remote.commit s net fail).2.t.engine = .empty
    unfold Remote.commit call request
    rw [if_pos rfl]
    dsimp only
    rw [if_neg hn]
    revert hv
    generalize serve (commitCmd fail) (serialize s.c (some .user)).1 s.t = y
    obtain ⟨y1, y2⟩ := y
    intro hv
    dsimp only
    split
    · exact hv
    · cases y1 with
      | none => exact hv
      | some z => exact hv

/-! ### histories -/

theorem qstep_good (hT : HasType P) (h : Good r m s) (he : s.t.engine = .empty) {o : QOp} (hs : QSafe r m s o) :
    (qstep P s o).1 = m.qresult o ∧ Good r (m.qstep o) (qstep P s o).2 ∧ (qstep P s o).2.t.engine = .empty := by
  cases o with
  | base o => exact ⟨(step_good hT h hs).1, (step_good hT h hs).2, step_engine hT h he hs⟩
  | query us => exact h.query he hs
  | loads us => exact h.loadMany he hs
  | refresh us => exact h.refresh he us

theorem qrun_good (hT : HasType P) : ∀ (ops : List QOp) (m : View) (s : RSt), Good r m s → s.t.engine = .empty → QAlong P r m s ops →
    Good r (m.qrun ops) (qrun P s ops) ∧ (qrun P s ops).t.engine = .empty
  | [], _, _, h, he, _ => ⟨h, he⟩
  | _ :: os, _, _, h, he, ha => qrun_good hT os _ _ (qstep_good hT h he ha.1).2.1 (qstep_good hT h he ha.1).2.2 ha.2

theorem qalong_append : ∀ (a b : List QOp) (m : View) (s : RSt), QAlong P r m s (a ++ b) → QAlong P r m s a ∧ QAlong P r (m.qrun a) (qrun P s a) b
  | [], _, _, _, h => ⟨trivial, h⟩
  | _ :: os, b, _, _, h => ⟨⟨h.1, (qalong_append os b _ _ h.2).1⟩, (qalong_append os b _ _ h.2).2⟩

theorem connect_engine (P : Params) (db : Uid → Content) (hr : r ≠ 0) {x : Content} (hx : x ≠ ∅) : (connect P db r x).2.t.engine = .empty := by
  have k := (connect_good P db hr hx).1
  unfold connect at k ⊢
  rw [if_neg hr] at k ⊢
  revert k
  cases serverInit P db r x with
  | mk a t =>
    cases a with
    | error e => intro k; exact (nomatch k)
    | ok u =>
      dsimp only
      intro _
      have e : (serialize t (some .engine)).2.engine = .empty := rfl
      revert e
      generalize serialize t (some .engine) = y
      obtain ⟨y1, y2⟩ := y
      intro e
      dsimp only
      split <;> exact e

/-- **C92.** As `remote_refines_partial`, for histories that also contain queries by class, loading of several objects and refreshing: connecting succeeds, every operation returns or raises what the specification says - a query
the objects the backend found, in its order, each as it is stored; loading the objects asked for, in order, `None` for those that do not exist -, and afterwards the client's session has exactly the objects and triples of the specification and the database
exactly what it says is stored. Partial: `Safe` and `QSafe` list what is excluded; `query_discards_changes` and `query_revives` show that the property fails there. -/
theorem query_refines_partial (hT : HasType P) (db : Uid → Content) (hr : r ≠ 0) (x : Content) (hx : x ≠ ∅) (ops : List QOp)
    (h : QAlong P r (View.open P db r x) (connect P db r x).2 ops) :
    (connect P db r x).1 = .ok () ∧ Shows r ((View.open P db r x).qrun ops) (qrun P (connect P db r x).2 ops) ∧
      ∀ pre o post, ops = pre ++ o :: post → (qstep P (qrun P (connect P db r x).2 pre) o).1 = ((View.open P db r x).qrun pre).qresult o := by
  obtain ⟨e, g⟩ := connect_good P db hr hx
  have g' := connect_engine P db hr hx
  refine ⟨e, (qrun_good hT ops _ _ g g' h).1.shows, ?_⟩
  rintro pre o post rfl
  obtain ⟨h1, h2⟩ := qalong_append pre (o :: post) _ _ h
  have k := qrun_good hT pre _ _ g g' h1
  exact (qstep_good hT k.1 k.2 h2.1).1

/-- **C92.** What a query through a client returns is in the client's session with the triples that are stored; what was in the session before stays, and no object of the session changes; nothing is
changed in the database, and nothing is left to be committed that was not before. -/
theorem query_adds_partial (hT : HasType P) (db : Uid → Content) (hr : r ≠ 0) (x : Content) (hx : x ≠ ∅) (ops : List QOp) (us : List Uid)
    (h : QAlong P r (View.open P db r x) (connect P db r x).2 (ops ++ [.query us])) (s s' : RSt) (hs : s = qrun P (connect P db r x).2 ops) (hs' : s' = (query s us).2) :
    (query s us).1 = .ok (us.map fun u => if s.t.db (if u = r then 0 else u) = ∅ then none else some u) ∧
      (∀ u ∈ us, s.t.db (if u = r then 0 else u) ≠ ∅ → u ∈ s'.c.reg ∧ s'.c.g u = s.t.db (if u = r then 0 else u)) ∧
      (∀ u ∈ s.c.reg, u ∈ s'.c.reg ∧ s'.c.g u = s.c.g u) ∧ (∀ u, u ≠ 0 → s'.t.db (if u = r then 0 else u) = s.t.db (if u = r then 0 else u)) ∧
      ∀ u ∈ s'.c.reg, u ∈ s.c.reg ∨ u ∈ us := by
  obtain ⟨-, g⟩ := connect_good P db hr hx
  obtain ⟨h1, h2, -⟩ := qalong_append ops [.query us] _ _ h
  have k := qrun_good hT ops _ _ g (connect_engine P db hr hx) h1
  rw [← hs] at k h2
  obtain ⟨q1, q2, -⟩ := qstep_good hT k.1 k.2 h2
  have h2' : ∀ u ∈ us, u ≠ 0 ∧ ¬ ((View.open P db r x).qrun ops).dead u ∧ u ∉ s.c.user.uids ∧ u ∉ s.t.user.uids := h2
  generalize (View.open P db r x).qrun ops = m at *
  have q2' : Good r (m.qstep (.query us)) s' := by rw [hs']; exact q2
  have hst : ∀ u ∈ us, s.t.db (if u = r then 0 else u) = m.view u := by
    intro u hu
    obtain ⟨u0, ud, uc, ut⟩ := h2' u hu
    rw [k.1.shows.stored u u0]
    by_cases hh : m.has u
    · obtain ⟨a1, a2⟩ := k.1.inT hh uc
      rw [← a2, k.1.clean u a1 ut]
    · exact (k.1.out u u0 hh ud).symm
  refine ⟨?_, fun u hu hne => ?_, fun u hu => ?_, fun u hu => ?_, fun u hu => ?_⟩
  · rw [show (query s us).1 = _ from q1]
    show Except.ok _ = Except.ok _
    congr 1
    apply List.map_congr_left
    intro u hu
    rw [hst u hu]
  · rw [hst u hu] at hne ⊢
    have hr' := (q2'.has u).2 (Or.inl ⟨hu, hne⟩)
    exact ⟨hr', q2'.shows.view u hr'⟩
  · have hh := (k.1.has u).1 hu
    have hr' := (q2'.has u).2 (Or.inr hh)
    exact ⟨hr', by rw [q2'.shows.view u hr', k.1.shows.view u hu]; rfl⟩
  · rw [q2'.shows.stored u hu, k.1.shows.stored u hu]; rfl
  · rcases (q2'.has u).1 hu with q | q
    · exact Or.inr q.1
    · exact Or.inl ((k.1.has u).2 q)

/-! ### the same history without client and server -/

/-- Specification: the operation on a session without a transport. -/
def QOp.locally : QOp → Op
  | .base o => o.locally
  | .query us => .loadByOclass us
  | .loads us => .load us
  | .refresh us => .refresh us

theorem view_qrun_local : ∀ (ops : List QOp) (m : View), ((m.qrun ops).view, (m.qrun ops).stored) = specRun m.view m.stored (ops.map QOp.locally)
  | [], _ => rfl
  | o :: os, m => by
    have := view_qrun_local os (m.qstep o)
    have e : (m.qstep o).view = specView m.view o.locally ∧ (m.qstep o).stored = specStored m.view m.stored o.locally := by
      cases o with
      | base o => exact view_step_local m o
      | _ => exact ⟨rfl, rfl⟩
    rw [e.1, e.2] at this
    exact this

/-- **C92.** As `remote_like_local_partial`, for histories that also contain queries by class, loading of several objects and refreshing: the same history with a client and without one, on
the same database, shows the same triples of the same objects and stores the same. -/
theorem query_like_local_partial (hT : HasType P) (db : Uid → Content) (hr : r ≠ 0) (x : Content) (hx : x ≠ ∅) (hdb : db 0 = ∅ ∨ x ⊆ db 0) (ops : List QOp)
    (h : QAlong P r (View.open P db r x) (connect P db r x).2 ops) (hl : SafeSession P db r x (ops.map QOp.locally)) :
    (∀ u ∈ (qrun P (connect P db r x).2 ops).c.reg, (qrun P (connect P db r x).2 ops).c.g u = (session P db r x (ops.map QOp.locally)).L u ∧
      (u ∈ (session P db r x (ops.map QOp.locally)).reg → (session P db r x (ops.map QOp.locally)).g u = (qrun P (connect P db r x).2 ops).c.g u)) ∧
      ∀ u, u ≠ 0 → (qrun P (connect P db r x).2 ops).t.db (if u = r then 0 else u) = (session P db r x (ops.map QOp.locally)).stored u := by
  obtain ⟨-, g⟩ := connect_good P db hr hx
  have k := (qrun_good hT ops _ _ g (connect_engine P db hr hx) h).1
  have e := view_qrun_local ops (View.open P db r x)
  have e1 : (View.open P db r x).view = specOpen db r x := by
    funext u
    show (if u = r then db 0 ∪ x else db u) = if u = r then (if db 0 = ∅ then x else db 0) else db u
    by_cases hu : u = r
    · rw [if_pos hu, if_pos hu]
      by_cases hz : db 0 = ∅
      · rw [if_pos hz, hz, empty_union']
      · rw [if_neg hz]
        exact Finset.union_eq_left.2 (hdb.resolve_left hz)
    · rw [if_neg hu, if_neg hu]
  have e2 : (View.open P db r x).stored = specOpenStored db r := rfl
  rw [e1, e2] at e
  have hc : ∀ o ∈ ops.map QOp.locally, Closed o := by
    intro o ho
    obtain ⟨o', -, rfl⟩ := List.mem_map.1 ho
    cases o' with
    | base o => cases o <;> trivial
    | _ => trivial
  have hw := session_refines_partial P db r x _ hl hc
  refine ⟨fun u hu => ?_, fun u hu => ?_⟩
  · have hu0 := has_nonzero k ((k.has u).1 hu)
    obtain ⟨w1, -, w3⟩ := hw u hu0
    have hv := k.shows.view u hu
    rw [show ((View.open P db r x).qrun ops).view = _ from congrArg Prod.fst e] at hv
    exact ⟨hv.trans w1.symm, fun q => (w3 q).trans hv.symm⟩
  · obtain ⟨-, w2, -⟩ := hw u hu
    have hv := k.shows.stored u hu
    rw [show ((View.open P db r x).qrun ops).stored = _ from congrArg Prod.snd e] at hv
    exact hv.trans w2.symm

/-- An error message of the server raises a RuntimeError in the client, whatever the error was. -/
theorem query_error (s : RSt) (us : List Uid) (h : (queryServe us (serialize s.c none).1 s.t).1 = none) : (query s us).1 = .error .runtimeError := by
  unfold query
  generalize serialize s.c none = q at *
  obtain ⟨m, c⟩ := q
  dsimp only at h ⊢
  generalize queryServe us m s.t = r at *
  obtain ⟨r1, r2⟩ := r
  dsimp only at h
  subst h
  rfl

/-- A query before the wrapper exists on the server is such an error. -/
theorem query_unopened (us : List Uid) (m : Msg) (t : St) (h : (deserialize .user m t).2.root = none) : (queryServe us m t).1 = none := by
  unfold queryServe
  generalize deserialize .user m t = r at *
  obtain ⟨r1, r2⟩ := r
  cases r1 with
  | error e => rfl
  | ok x =>
    dsimp only at h ⊢
    unfold St.loadByOclass
    rw [if_pos h]

end Osp.Remote
