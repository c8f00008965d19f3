import Verif.Sync.Apply
/-!
# Client and server agree after synchronisation (C58)
-/
namespace Osp.Sync
open Osp.Sess

/-- The situation between two requests: the client knows the objects the server knows, with the same triples, except those in its user buffers. -/
structure Synced (c t : St) : Prop where
  cctx : c.ctx = .user
  tctx : t.ctx = .user
  cbuf : GoodBuf c.user c.reg
  nodup : c.user.deleted.Nodup
  tbuf : GoodBuf t.user t.reg
  /-- every object has triples (its type), also one that was deleted -/
  has : ∀ u ∈ c.user.uids, c.content u ≠ ∅
  /-- objects the client added have uids that are new to the server -/
  fresh : ∀ u ∈ c.user.added, u ∉ t.reg ∧ t.g u = ∅
  known : ∀ u, u ∈ c.user.updated ∨ u ∈ c.user.deleted → u ∈ t.reg
  same : ∀ u, u ∉ c.user.uids → (u ∈ c.reg ↔ u ∈ t.reg) ∧ (u ∈ c.reg → c.g u = t.g u)

/-- The client and the server have the same objects with the same triples. -/
def Agree (c t : St) : Prop := (∀ u, u ∈ c.reg ↔ u ∈ t.reg) ∧ ∀ u ∈ c.reg, c.g u = t.g u

/-- The command told the truth about what it did: every change from `t` to `t'` is reported in the engine buffers. Its result `rs` consists of objects of the session. -/
structure Recorded (t : St) (rs : List (Option Uid)) (t' : St) : Prop where
  ctx : t'.ctx = .user
  ubuf : GoodBuf t'.user t'.reg
  ebuf : GoodBuf t'.engine t'.reg
  nodup : t'.engine.deleted.Nodup
  has : ∀ u ∈ t'.engine.uids, t'.content u ≠ ∅
  new : ∀ u ∈ t'.engine.added, u ∉ t.reg
  known : ∀ u, u ∈ t'.engine.updated ∨ u ∈ t'.engine.deleted → u ∈ t.reg
  same : ∀ u, u ∉ t'.engine.uids → (u ∈ t'.reg ↔ u ∈ t.reg) ∧ (u ∈ t'.reg → t'.g u = t.g u)
  result : ∀ u, some u ∈ rs → u ∈ t'.reg ∧ t'.g u ≠ ∅

/-- What the server has after it processed the client's buffers. -/
structure Received (c t t' : St) : Prop where
  reg : ∀ u, u ∈ t'.reg ↔ (u ∈ t.reg ∨ u ∈ c.user.added ∨ u ∈ c.user.updated) ∧ u ∉ c.user.deleted
  gIn : ∀ u, u ∈ c.user.added ∨ u ∈ c.user.updated → t'.g u = c.g u
  gOut : ∀ u, u ∉ c.user.uids → t'.g u = t.g u
  ctx : t'.ctx = .user
  ubuf : GoodBuf t'.user t'.reg
  db : t'.db = t.db
  expired : ∀ u, u ∈ t'.expired ↔ u ∈ t.reg ∧ (u ∈ t.expired ∨ (u ∈ c.expired ∧ u ∉ t.user.uids)) ∧ u ∉ c.user.uids

/-- **C58.** The server's part of a request: processing the client's buffers succeeds; every object in the client's added and updated buffers is then registered on the server
with exactly the client's triples, every object in the deleted buffer is not registered, and nothing else changes. The client's buffers are empty. If the server's user buffers
were empty, they are now what the client's were. -/
theorem server_receives {c t : St} (h : Synced c t) :
    ∃ t', deserialize .user (serialize c (some .user)).1 t = (.ok [], t') ∧ Received c t t' ∧
      (serialize c (some .user)).2 = { c with user := .empty } ∧
      (t.user = .empty → ∀ u, (u ∈ t'.user.added ↔ u ∈ c.user.added) ∧ (u ∈ t'.user.updated ↔ u ∈ c.user.updated) ∧ (u ∈ t'.user.deleted ↔ u ∈ c.user.deleted)) := by
  rw [serialize_user h.has]
  have hd : ∀ u ∈ c.user.deleted, u ∉ c.user.added ∧ u ∉ c.user.updated := fun u hu => ⟨fun k => (h.cbuf.disj u).2.1 ⟨k, hu⟩, fun k => (h.cbuf.disj u).2.2 ⟨k, hu⟩⟩
  have hbt : t.buf = t.user := buf_user h.tctx
  obtain ⟨t', e, k⟩ := applyMsg_spec (C := c.content) (E := c.expired) (R := []) h.nodup hd (by simp [objs]) (s := t) (by rw [hbt]; exact h.tbuf) (by
    intro u hu hr
    rcases hu with hu | hu | hu | hu
    · rw [(h.fresh u hu).2]; exact Finset.empty_subset _
    · exact absurd (h.known u (Or.inl hu)) hr
    · exact absurd hu (by simp [objs])
    · exact absurd (h.known u (Or.inr hu)) hr)
  rw [show c.user.updated ++ objs [] = c.user.updated from List.append_nil _] at k
  have hc' : t'.ctx = .user := k.frame.ctx.trans h.tctx
  have hbt' : t'.buf = t'.user := buf_user hc'
  refine ⟨t', e, ⟨k.reg, ?_, ?_, hc', ?_, k.frame.db, ?_⟩, rfl, ?_⟩
  · intro u hu
    rw [k.gIn u (by tauto)]
    unfold St.content
    rw [if_pos (h.cbuf.live u hu)]
  · intro u hu
    rw [mem_uids] at hu
    exact k.gOut u hu
  · have := k.good hd (by rw [hbt]; exact h.tbuf)
    rw [hbt'] at this
    exact this
  · intro u
    rw [k.exp, mem_uids c.user]
  · intro he u
    have h1 := k.added u
    have h2 := k.updated u
    have h3 := k.deleted u
    rw [hbt', hbt, he] at h1 h2 h3
    simp only [Buf.empty, List.not_mem_nil, false_or, not_false_eq_true, true_and, false_and, and_true] at h1 h2 h3
    rw [h1, h2, h3]
    have f1 := h.fresh u
    have f2 := h.known u
    have f3 := hd u
    tauto

/-- After the request arrived, client and server have the same objects with the same triples. -/
theorem agree_received {c t t' : St} (h : Synced c t) (k : Received c t t') : Agree c t' := by
  have key : ∀ u, u ∈ c.reg ↔ u ∈ t'.reg := by
    intro u
    rw [k.reg]
    by_cases hu : u ∈ c.user.uids
    · rw [mem_uids] at hu
      have h1 := h.cbuf.live u
      have h2 := h.cbuf.dead u
      have h3 := h.cbuf.disj u
      tauto
    · have hs := (h.same u hu).1
      rw [mem_uids] at hu
      tauto
  refine ⟨key, ?_⟩
  intro u hu
  by_cases hc : u ∈ c.user.uids
  · rw [mem_uids] at hc
    have h2 := h.cbuf.dead u
    rw [k.gIn u (by tauto)]
  · rw [k.gOut u hc]
    exact (h.same u hc).2 hu

/-- Client and server that agree, with empty client buffers, are synced. -/
theorem synced_of_agree {c t : St} (h : Agree c t) (h1 : c.ctx = .user) (h2 : t.ctx = .user) (h3 : c.user = .empty) (h4 : GoodBuf t.user t.reg) : Synced c t := by
  have hu : ∀ u, u ∉ c.user.uids := by rw [h3]; simp [Buf.uids, Buf.empty]
  refine ⟨h1, h2, ?_, by rw [h3]; simp [Buf.empty], h4, fun u hx => absurd hx (hu u), ?_, ?_, fun u _ => ⟨h.1 u, h.2 u⟩⟩
  · rw [h3]; exact ⟨disj_empty, by simp [Buf.empty], by simp [Buf.empty]⟩
  · rw [h3]; simp [Buf.empty]
  · rw [h3]; simp [Buf.empty]

/-- Client and server have the same objects with the same triples, except for those with changes of the client that were not sent yet. -/
def Same (c t : St) : Prop := ∀ u, u ∉ c.user.uids → (u ∈ c.reg ↔ u ∈ t.reg) ∧ (u ∈ c.reg → c.g u = t.g u)

theorem Agree.same {c t : St} (h : Agree c t) : Same c t := fun u _ => ⟨h.1 u, h.2 u⟩

set_option maxHeartbeats 1000000 in
/-- The response: the client gets the changes and the result of the command. `c` may have changes of its own which were not sent, to other objects than those the command
changed. -/
theorem response_same {c t1 t2 : St} {rs : List (Option Uid)} (he : c.ctx = .engine → c.engine = .empty) (ha : Same c t1) (h3 : Recorded t1 rs t2)
    (hx : ∀ u, u ∈ t2.engine.uids ∨ some u ∈ rs → u ∉ c.user.uids) (h4 : ∀ u ∈ t2.engine.added, c.g u ⊆ t2.g u) :
    ∃ c', deserialize .engine (respond rs t2).1 c = (.ok rs, c') ∧ Same c' t2 ∧ c'.ctx = c.ctx ∧ c'.user = c.user ∧ (c.root ≠ none → c'.root = c.root) ∧
      (∀ u, ¬ (u ∈ t2.engine.uids ∨ some u ∈ rs) → (u ∈ c'.reg ↔ u ∈ c.reg) ∧ c'.g u = c.g u ∧ c'.det u = c.det u) ∧
      ∀ u, u ∈ c'.expired ↔ u ∈ c.reg ∧ (u ∈ c.expired ∨ (u ∈ t2.expired ∧ u ∉ c.user.uids)) ∧ u ∉ t2.engine.uids ∧ some u ∉ rs := by
  have hd : ∀ u ∈ t2.engine.deleted, u ∉ t2.engine.added ∧ u ∉ t2.engine.updated := fun u hu => ⟨fun k => (h3.ebuf.disj u).2.1 ⟨k, hu⟩, fun k => (h3.ebuf.disj u).2.2 ⟨k, hu⟩⟩
  have hrd : ∀ u ∈ t2.engine.deleted, u ∉ objs rs := fun u hu hr => h3.ebuf.dead u hu (h3.result u (mem_objs.1 hr)).1
  obtain ⟨c1, hc1⟩ : ∃ c1 : St, c1 = { c with engine := .empty, ctx := .engine } := ⟨_, rfl⟩
  have hb1 : c1.buf = .empty := by rw [hc1]; rfl
  have hr1 : c1.reg = c.reg := by rw [hc1]
  have hg1 : c1.g = c.g := by rw [hc1]
  obtain ⟨c2, e, k⟩ := applyMsg_spec (C := t2.content) (E := t2.expired) (R := rs) h3.nodup hd hrd (s := c1) (by
    rw [hb1]; exact ⟨disj_empty, by simp [Buf.empty], by simp [Buf.empty]⟩) (by
    intro u hu hr
    rw [hr1] at hr
    rw [hg1]
    have hux : u ∉ c.user.uids := hx u (by rw [mem_uids, ← mem_objs]; tauto)
    rw [(ha u hux).1] at hr
    by_cases h1 : u ∈ t2.engine.added
    · unfold St.content
      rw [if_pos (h3.ebuf.live u (Or.inl h1))]
      exact h4 u h1
    · by_cases h2 : u ∈ t2.engine.updated ∨ u ∈ t2.engine.deleted
      · exact absurd (h3.known u h2) hr
      · have h5 : some u ∈ rs := mem_objs.1 (by tauto)
        have h6 := (h3.result u h5).1
        rw [(h3.same u (by rw [mem_uids]; tauto)).1] at h6
        exact absurd h6 hr)
  have hres : (respond rs t2).1 = ⟨some ⟨docs t2.content t2.engine.added, docs t2.content t2.engine.updated, docs t2.content t2.engine.deleted⟩, t2.expired, optDocs t2.content rs⟩ := by
    unfold respond
    rw [serialize_engine h3.has, result_docs (fun u hu => by
      have := h3.result u (mem_objs.1 hu)
      unfold St.content
      rw [if_pos this.1]; exact this.2)]
  have hde : deserialize .engine (respond rs t2).1 c = (.ok rs, { c2 with ctx := c.ctx }) := by
    rw [hres]
    unfold deserialize St.inEngine
    dsimp only
    have hcc : ({ (if c.ctx ≠ .engine then { c with engine := .empty } else c) with ctx := .engine } : St) = c1 := by
      rw [hc1]
      by_cases hce : c.ctx = .engine
      · rw [if_neg (by simp [hce])]
        have := he hce
        cases c
        dsimp only at *
        rw [this]
      · rw [if_pos hce]
    rw [hcc, e]
  have hm : ∀ u, (u ∈ t2.engine.added ∨ u ∈ t2.engine.updated ++ objs rs ∨ u ∈ t2.engine.deleted) ↔ u ∈ t2.engine.uids ∨ some u ∈ rs := by
    intro u; rw [mem_uids, List.mem_append, mem_objs]; tauto
  have hus : c2.user = c.user := by
    rw [k.frame.user (by rw [hc1]), hc1]
  have huc : c1.user = c.user := by rw [hc1]
  refine ⟨_, hde, ?_, rfl, hus, fun h => ?_, ?_, ?_⟩
  · intro u hu
    have hu' : u ∉ c.user.uids := by rw [← hus]; exact hu
    have hreg : u ∈ c2.reg ↔ u ∈ t2.reg := by
      rw [k.reg, hr1, (ha u hu').1]
      by_cases hu : u ∈ t2.engine.uids
      · rw [mem_uids] at hu
        rw [List.mem_append, mem_objs]
        have h1 := h3.ebuf.live u
        have h2 := h3.ebuf.dead u
        have h3 := h3.ebuf.disj u
        tauto
      · have hs := (h3.same u hu).1
        have hr := h3.result u
        rw [mem_uids] at hu
        rw [List.mem_append, mem_objs]
        tauto
    refine ⟨hreg, fun hr => ?_⟩
    show c2.g u = t2.g u
    have hr2 := hreg.1 hr
    by_cases hux : u ∈ t2.engine.uids ∨ some u ∈ rs
    · rw [k.gIn u ((hm u).2 hux)]
      unfold St.content
      rw [if_pos hr2]
    · rw [k.gOut u (fun h => hux ((hm u).1 h)), hg1]
      have hs := h3.same u (fun h => hux (Or.inl h))
      rw [hs.2 hr2]
      exact (ha u hu').2 ((ha u hu').1.2 (hs.1.1 hr2))
  · show c2.root = c.root
    rw [k.frame.root (by rw [hc1]; exact h), hc1]
  · intro u hu
    have hu' : ¬ (u ∈ t2.engine.added ∨ u ∈ t2.engine.updated ++ objs rs ∨ u ∈ t2.engine.deleted) := fun h => hu ((hm u).1 h)
    rw [not_or, not_or] at hu'
    refine ⟨?_, ?_, ?_⟩
    · show u ∈ c2.reg ↔ _
      rw [k.reg, hr1]; tauto
    · show c2.g u = _
      rw [k.gOut u (by tauto), hg1]
    · show c2.det u = _
      rw [k.detOut u hu'.2.2, hc1]
  · intro u
    have hx1 : c1.expired = c.expired := by rw [hc1]
    have hk := k.exp u
    rw [hm u, not_or, hr1, huc, hx1] at hk
    exact hk

/-- **C58.** A whole request: if the command succeeds on the state the server has after processing the client's buffers and reports its changes, then the call on the client
returns the command's result, the client's buffers are empty, and client and server have the same objects with the same triples, whatever the command did. -/
theorem call_agrees {c t t1 t2 : St} {rs : List (Option Uid)} {cmd : St → Res (List (Option Uid))} (h : Synced c t)
    (h1 : deserialize .user (serialize c (some .user)).1 t = (.ok [], t1)) (h2 : cmd t1 = (.ok rs, t2)) (h3 : Recorded t1 rs t2) (h4 : ∀ u ∈ t2.engine.added, c.g u ⊆ t2.g u) :
    ∃ c' t', call .fine true cmd c t = ⟨.ok rs, c', t'⟩ ∧ t' = { t2 with engine := .empty } ∧ Agree c' t' ∧ Synced c' t' ∧ c'.user = .empty ∧
      ∀ u, u ∈ c'.expired ↔ u ∈ c.reg ∧ (u ∈ c.expired ∨ u ∈ t2.expired) ∧ u ∉ t2.engine.uids ∧ some u ∉ rs := by
  obtain ⟨t1', e1, k1, k2, k3⟩ := server_receives h
  rw [h1] at e1
  obtain rfl : t1 = t1' := (Prod.mk.inj e1).2
  have ha := agree_received h k1
  have ha' : Same { c with user := .empty } t1 := Agree.same (c := { c with user := .empty }) ha
  have hno : ∀ u, u ∉ Buf.empty.uids := by simp [Buf.uids, Buf.empty]
  obtain ⟨c', e, s1, s2, s3, s4, s5, s6⟩ := response_same (c := { c with user := .empty }) (fun hx => absurd (h.cctx.symm.trans hx) (by decide)) ha' h3 (fun u _ => hno u) h4
  have hA : Agree c' { t2 with engine := .empty } := by
    have : ∀ u, u ∉ c'.user.uids := by rw [s3]; exact hno
    exact ⟨fun u => (s1 u (this u)).1, fun u => (s1 u (this u)).2⟩
  refine ⟨c', { t2 with engine := .empty }, ?_, rfl, hA, synced_of_agree hA (s2.trans h.cctx) h3.ctx s3 h3.ubuf, s3, ?_⟩
  · unfold call request
    dsimp only
    rw [if_neg (by decide), if_neg (by decide), if_pos rfl]
    unfold serve
    simp only [h1, h2, k2, e]
    rfl
  · intro u
    rw [s6]
    have := hno u
    dsimp only
    tauto

/-- A command that fails without changing the server's session: the call raises, the client's buffers are empty, but nothing is lost: client and server agree, and if the
server's user buffers were empty they now report what the client's did, so that the next successful commit applies the changes. -/
theorem failed_call_agrees {c t t1 : St} {cmd : St → Res (List (Option Uid))} {e : PyErr} (h : Synced c t) (h1 : deserialize .user (serialize c (some .user)).1 t = (.ok [], t1))
    (h2 : cmd t1 = (.error e, t1)) :
    ∃ c', call .fine true cmd c t = ⟨.error .runtimeError, c', t1⟩ ∧ Agree c' t1 ∧ Synced c' t1 ∧ c'.user = .empty ∧
      (t.user = .empty → ∀ u, (u ∈ t1.user.added ↔ u ∈ c.user.added) ∧ (u ∈ t1.user.updated ↔ u ∈ c.user.updated) ∧ (u ∈ t1.user.deleted ↔ u ∈ c.user.deleted)) := by
  obtain ⟨t1', e1, k1, k2, k3⟩ := server_receives h
  rw [h1] at e1
  obtain rfl : t1 = t1' := (Prod.mk.inj e1).2
  have ha := agree_received h k1
  have ha' : Agree { c with user := .empty } t1 := ha
  refine ⟨{ c with user := .empty }, ?_, ha', synced_of_agree ha' h.cctx k1.ctx rfl k1.ubuf, rfl, k3⟩
  unfold call request
  dsimp only
  rw [if_neg (by decide), if_neg (by decide), if_pos rfl]
  unfold serve
  simp only [h1, h2, k2]

end Osp.Sync
