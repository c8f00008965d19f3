import Verif.Sync.Lemmas
/-!
# Applying a message with buffers
-/
namespace Osp.Sync
open Osp.Sess

variable {C : Uid → Content}

/-- The documents of objects with contents `C`. -/
def docs (C : Uid → Content) (us : List Uid) : List Doc := optDocs C (us.map some)

theorem objs_some (us : List Uid) : objs (us.map some) = us := by
  unfold objs
  induction us with
  | nil => rfl
  | cons u us ih =>
    show u :: List.filterMap id (us.map some) = u :: us
    rw [ih]

/-- What may be assumed about the buffers of a session between two operations: no object is in two of them, objects reported as added or updated are registered, those
reported as deleted are not (C12). -/
structure GoodBuf (b : Buf) (reg : List Uid) : Prop where
  disj : Disj b
  live : ∀ u, u ∈ b.added ∨ u ∈ b.updated → u ∈ reg
  dead : ∀ u ∈ b.deleted, u ∉ reg

/-- `s'` is `s` after it received the objects `A`, `U` and `D` with contents `C`, of which `D` are to be deleted, and was told that the objects `E` have expired. -/
structure Applied (C : Uid → Content) (A U D E : List Uid) (s s' : St) : Prop where
  frame : Frame s s'
  reg : ∀ v, v ∈ s'.reg ↔ (v ∈ s.reg ∨ v ∈ A ∨ v ∈ U) ∧ v ∉ D
  gIn : ∀ v, v ∈ A ∨ v ∈ U ∨ v ∈ D → s'.g v = C v
  gOut : ∀ v, ¬ (v ∈ A ∨ v ∈ U ∨ v ∈ D) → s'.g v = s.g v
  detIn : ∀ v ∈ D, s'.det v = C v
  detOut : ∀ v, v ∉ D → s'.det v = s.det v
  exp : ∀ v, v ∈ s'.expired ↔ v ∈ s.reg ∧ (v ∈ s.expired ∨ (v ∈ E ∧ v ∉ s.user.uids)) ∧ ¬ (v ∈ A ∨ v ∈ U ∨ v ∈ D)
  added : ∀ v, v ∈ s'.buf.added ↔ (v ∈ s.buf.added ∨ (v ∉ s.reg ∧ (v ∈ A ∨ v ∈ U))) ∧ v ∉ D
  updated : ∀ v, v ∈ s'.buf.updated ↔ (v ∈ s.buf.updated ∨ (v ∈ s.reg ∧ v ∉ s.buf.added ∧ (v ∈ A ∨ v ∈ U))) ∧ v ∉ D
  deleted : ∀ v, v ∈ s'.buf.deleted ↔ (v ∈ s.buf.deleted ∧ ¬ (v ∈ A ∨ v ∈ U ∨ v ∈ D)) ∨ (v ∈ D ∧ v ∈ s.reg ∧ v ∉ s.buf.added)

theorem frame_expire (s : St) (us : List Uid) : Frame s (s.expire us).2 := ⟨rfl, rfl, fun _ => rfl, fun _ => rfl, fun _ => rfl⟩

theorem added_prop {a r A U D : Prop} : (a ∨ ((A ∨ U) ∨ D) ∧ ¬ r) ∧ ¬ D ↔ (a ∨ (¬ r ∧ (A ∨ U))) ∧ ¬ D := by grind
theorem updated_prop {a u d r A U D : Prop} (d1 : ¬ (a ∧ u) ∧ ¬ (a ∧ d) ∧ ¬ (u ∧ d)) (d2 : a ∨ u → r) (d4 : D → ¬ A ∧ ¬ U) :
    (u ∨ ((A ∨ U) ∨ D) ∧ r ∧ ¬ a) ∧ (¬ D ∨ a ∨ ((A ∨ U) ∨ D) ∧ ¬ r) ↔ (u ∨ (r ∧ ¬ a ∧ (A ∨ U))) ∧ ¬ D := by grind
theorem deleted_prop {a d r A U D : Prop} (d3 : d → ¬ r) : (d ∧ ¬ (((A ∨ U) ∨ D) ∧ ¬ r)) ∨ (D ∧ ¬ (a ∨ ((A ∨ U) ∨ D) ∧ ¬ r)) ↔ (d ∧ ¬ (A ∨ U ∨ D)) ∨ (D ∧ r ∧ ¬ a) := by grind

/-- With a result in the message, whose objects are not among the deleted ones: they count as updated. -/
theorem applyMsg_spec {A U D E : List Uid} {R : List (Option Uid)} {s : St} (hD : D.Nodup) (hAD : ∀ u ∈ D, u ∉ A ∧ u ∉ U) (hRD : ∀ u ∈ D, u ∉ objs R) (hb : GoodBuf s.buf s.reg)
    (hl : ∀ u, u ∈ A ∨ u ∈ U ∨ u ∈ objs R ∨ u ∈ D → u ∉ s.reg → s.g u ⊆ C u) :
    ∃ s', applyMsg ⟨some ⟨docs C A, docs C U, docs C D⟩, E, optDocs C R⟩ s = (.ok R, s') ∧ Applied C A (U ++ objs R) D E s s' := by
  unfold applyMsg
  dsimp only
  have e0 : (s.expire E).2.reg = s.reg ∧ (s.expire E).2.g = s.g ∧ (s.expire E).2.det = s.det ∧ (s.expire E).2.buf = s.buf := ⟨rfl, rfl, rfl, rfl⟩
  have ex : ∀ v, v ∈ (s.expire E).2.expired ↔ v ∈ s.reg ∧ (v ∈ s.expired ∨ (v ∈ E ∧ v ∉ s.user.uids)) := fun v => by
    rw [(expire_exact s E v).1, mem_uids]; tauto
  have f0 := frame_expire s E
  generalize (s.expire E).2 = s0 at *
  obtain ⟨e1, e2, e3, e4⟩ := e0
  have dead : ∀ u, u ∈ s0.reg → u ∉ s0.buf.deleted := by
    intro u h1 h2
    rw [e1] at h1; rw [e4] at h2
    exact hb.dead u h2 h1
  have deadR : ∀ {us : List Uid} {a b : St}, Recv C us a b → (∀ u, u ∈ a.reg → u ∉ a.buf.deleted) → ∀ u, u ∈ b.reg → u ∉ b.buf.deleted := by
    intro us a b k da u h x
    rw [k.deleted] at x
    rw [k.reg] at h
    rcases h with h | h
    · exact da u h x.1
    · exact x.2 ⟨h, fun r => da u r x.1⟩
  obtain ⟨s1, h1, k1⟩ := receiveAll_spec (C := C) (A.map some) s0 (fun u _ => dead u) (fun u hu h => by
    rw [objs_some] at hu; rw [e2]; rw [e1] at h; exact hl u (Or.inl hu) h)
  rw [objs_some] at k1
  have dead1 := deadR k1 dead
  obtain ⟨s2, h2, k2⟩ := receiveAll_spec (C := C) (U.map some) s1 (fun u _ => dead1 u) (fun u hu h => by
    rw [objs_some] at hu; rw [k1.reg, not_or] at h; rw [k1.gOut u h.2, e2]; rw [e1] at h; exact hl u (Or.inr (Or.inl hu)) h.1)
  rw [objs_some] at k2
  have dead2 := deadR k2 dead1
  have k12 := k1.trans k2
  obtain ⟨s3, h3, k3⟩ := receiveAll_spec (C := C) (D.map some) s2 (fun u _ => dead2 u) (fun u hu h => by
    rw [objs_some] at hu; rw [k12.reg, not_or] at h; rw [k12.gOut u h.2, e2]; rw [e1] at h; exact hl u (Or.inr (Or.inr (Or.inr hu))) h.1)
  rw [objs_some] at k3
  have dead3 := deadR k3 dead2
  have k123 := k12.trans k3
  obtain ⟨s3', h3', k3'⟩ := receiveAll_spec (C := C) R s3 (fun u _ => dead3 u) (fun u hu h => by
    rw [k123.reg, not_or] at h; rw [k123.gOut u h.2, e2]; rw [e1] at h; exact hl u (Or.inr (Or.inr (Or.inl hu))) h.1)
  have k := k123.trans k3'
  obtain ⟨s4, h4, k4⟩ := notifyAll_spec D s3' hD
  have hm : ∀ v, v ∈ A ++ U ++ D ++ objs R ↔ (v ∈ A ∨ v ∈ U ++ objs R) ∨ v ∈ D := by
    intro v; simp only [List.mem_append]; tauto
  simp only [docs, h1, h2, h3, h3', h4]
  refine ⟨_, rfl, ?_⟩
  have hAD' : ∀ u ∈ D, u ∉ A ∧ u ∉ U ++ objs R := fun u hu => ⟨(hAD u hu).1, by rw [List.mem_append, not_or]; exact ⟨(hAD u hu).2, hRD u hu⟩⟩
  have hf : Frame s (unregister (D.map some) s4) := by
    have := (f0.trans k.frame).trans k4.frame
    exact ⟨this.ctx, this.db, this.user, this.engine, this.root⟩
  have hbuf : (unregister (D.map some) s4).buf = s4.buf := rfl
  have hr : ∀ v, v ∈ (unregister (D.map some) s4).reg ↔ v ∈ s4.reg ∧ v ∉ D := by
    intro v; simp [unregister]
  refine ⟨hf, ?_, ?_, ?_, ?_, ?_, ?_, ?_, ?_, ?_⟩
  · intro v
    rw [hr, k4.reg, k.reg, e1]
    rw [hm]
    tauto
  · intro v hv
    show s4.g v = C v
    rw [k4.g, k.gIn v (by rw [hm]; tauto)]
  · intro v hv
    show s4.g v = s.g v
    rw [k4.g, k.gOut v (by rw [hm]; tauto), e2]
  · intro v hv
    simp only [unregister, List.mem_map, Option.some.injEq, exists_eq_right, hv, if_true]
    rw [k4.g, k.gIn v (by rw [hm]; tauto)]
  · intro v hv
    simp only [unregister, List.mem_map, Option.some.injEq, exists_eq_right, hv, if_false]
    rw [k4.det, k.det, e3]
  · intro v
    show v ∈ s4.expired ↔ _
    rw [k4.exp, k.exp, ex]
    rw [hm]
    tauto
  all_goals
    intro v
    rw [hbuf]
    have d1 := hb.disj v
    have d2 := hb.live v
    have d3 := hb.dead v
    have d4 := hAD' v
  · rw [k4.added, k.added, e1, e4]
    rw [hm]
    exact added_prop
  · rw [k4.updated, k.updated, k.added, e1, e4]
    rw [hm]
    exact updated_prop d1 d2 d4
  · rw [k4.deleted, k.deleted, k.added, e1, e4]
    rw [hm]
    exact deleted_prop d3

/-- The buffers stay good. -/
theorem Applied.good {A U D E : List Uid} {s s' : St} (h : Applied C A U D E s s') (hAD : ∀ u ∈ D, u ∉ A ∧ u ∉ U) (hb : GoodBuf s.buf s.reg) : GoodBuf s'.buf s'.reg := by
  refine ⟨?_, ?_, ?_⟩
  · intro v
    rw [h.added, h.updated, h.deleted]
    have d1 := hb.disj v
    have d2 := hb.live v
    have d3 := hb.dead v
    tauto
  · intro v
    rw [h.added, h.updated, h.reg]
    have d2 := hb.live v
    tauto
  · intro v
    rw [h.deleted, h.reg]
    have d3 := hb.dead v
    have d4 := hAD v
    tauto

/-- What is sent if no object is without triples. -/
theorem map_doc {s : St} {us : List Uid} (h : ∀ u ∈ us, s.content u ≠ ∅) : us.map (doc s) = docs s.content us := by
  unfold docs optDocs
  rw [List.map_map]
  apply List.map_congr_left
  intro u hu
  unfold doc
  rw [if_neg (h u hu)]
  rfl

theorem serialize_user {s : St} (h : ∀ u ∈ s.user.uids, s.content u ≠ ∅) :
    serialize s (some .user) = (⟨some ⟨docs s.content s.user.added, docs s.content s.user.updated, docs s.content s.user.deleted⟩, s.expired, []⟩, { s with user := .empty }) := by
  unfold serialize
  simp only [mem_uids] at h
  rw [map_doc (fun u hu => h u (Or.inl hu)), map_doc (fun u hu => h u (Or.inr (Or.inl hu))), map_doc (fun u hu => h u (Or.inr (Or.inr hu)))]

theorem serialize_engine {s : St} (h : ∀ u ∈ s.engine.uids, s.content u ≠ ∅) :
    serialize s (some .engine) = (⟨some ⟨docs s.content s.engine.added, docs s.content s.engine.updated, docs s.content s.engine.deleted⟩, s.expired, []⟩, { s with engine := .empty }) := by
  unfold serialize
  simp only [mem_uids] at h
  rw [map_doc (fun u hu => h u (Or.inl hu)), map_doc (fun u hu => h u (Or.inr (Or.inl hu))), map_doc (fun u hu => h u (Or.inr (Or.inr hu)))]

theorem mem_objs {rs : List (Option Uid)} {u : Uid} : u ∈ objs rs ↔ some u ∈ rs := by
  simp [objs]

theorem result_docs {s : St} {rs : List (Option Uid)} (h : ∀ u ∈ objs rs, s.content u ≠ ∅) : rs.map (fun o => o.bind (doc s)) = optDocs s.content rs := by
  unfold optDocs
  apply List.map_congr_left
  intro o ho
  cases o with
  | none => rfl
  | some u =>
    show doc s u = _
    unfold doc
    rw [if_neg (h u (mem_objs.2 ho))]
    rfl

end Osp.Sync
