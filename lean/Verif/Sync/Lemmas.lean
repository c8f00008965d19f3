import Verif.Sync.Model
import Verif.Sess.Buffers
/-!
# Effect of receiving a message
-/
namespace Osp.Sync
open Osp.Sess

variable {C : Uid → Content} {s s' a b c : St} {us ws : List Uid}

/-- The buffers of the other context and everything else receiving does not touch. -/
structure Frame (s s' : St) : Prop where
  ctx : s'.ctx = s.ctx
  db : s'.db = s.db
  user : s.ctx = .engine → s'.user = s.user
  engine : s.ctx = .user → s'.engine = s.engine
  root : s.root ≠ none → s'.root = s.root

theorem Frame.refl (s : St) : Frame s s := ⟨rfl, rfl, fun _ => rfl, fun _ => rfl, fun _ => rfl⟩

theorem Frame.trans (h : Frame a b) (k : Frame b c) : Frame a c :=
  ⟨k.ctx.trans h.ctx, k.db.trans h.db, fun x => (k.user (h.ctx.trans x)).trans (h.user x), fun x => (k.engine (h.ctx.trans x)).trans (h.engine x),
    fun x => (k.root (by rw [h.root x]; exact x)).trans (h.root x)⟩

/-- Receiving the objects `us` with contents `C`. -/
structure Recv (C : Uid → Content) (us : List Uid) (s s' : St) : Prop where
  frame : Frame s s'
  reg : ∀ v, v ∈ s'.reg ↔ v ∈ s.reg ∨ v ∈ us
  gIn : ∀ v ∈ us, s'.g v = C v
  gOut : ∀ v, v ∉ us → s'.g v = s.g v
  det : s'.det = s.det
  exp : ∀ v, v ∈ s'.expired ↔ v ∈ s.expired ∧ v ∉ us
  added : ∀ v, v ∈ s'.buf.added ↔ v ∈ s.buf.added ∨ (v ∈ us ∧ v ∉ s.reg)
  updated : ∀ v, v ∈ s'.buf.updated ↔ v ∈ s.buf.updated ∨ (v ∈ us ∧ v ∈ s.reg ∧ v ∉ s.buf.added)
  deleted : ∀ v, v ∈ s'.buf.deleted ↔ v ∈ s.buf.deleted ∧ ¬ (v ∈ us ∧ v ∉ s.reg)

theorem Recv.nil (C : Uid → Content) (s : St) : Recv C [] s s :=
  ⟨.refl s, by simp, by simp, by simp, rfl, by simp, by simp, by simp, by simp⟩

theorem Recv.trans (h : Recv C us a b) (k : Recv C ws b c) : Recv C (us ++ ws) a c := by
  refine ⟨h.frame.trans k.frame, ?_, ?_, ?_, k.det.trans h.det, ?_, ?_, ?_, ?_⟩
  · intro v; rw [k.reg, h.reg, List.mem_append]; tauto
  · intro v hv
    by_cases hw : v ∈ ws
    · exact k.gIn v hw
    · rw [k.gOut v hw]
      exact h.gIn v ((List.mem_append.1 hv).resolve_right hw)
  · intro v hv
    rw [List.mem_append, not_or] at hv
    rw [k.gOut v hv.2, h.gOut v hv.1]
  · intro v; rw [k.exp, h.exp, List.mem_append]; tauto
  · intro v; rw [k.added, h.added, h.reg, List.mem_append]; tauto
  · intro v; rw [k.updated, h.updated, h.added, h.reg, List.mem_append]; tauto
  · intro v; rw [k.deleted, h.deleted, h.reg, List.mem_append]; tauto

theorem buf_setBuf (s : St) (b : Buf) : (s.setBuf b).buf = b := by
  unfold St.setBuf St.buf
  cases h : s.ctx <;> simp

theorem frame_setBuf (s : St) (b : Buf) : Frame s (s.setBuf b) := by
  unfold St.setBuf
  cases h : s.ctx
  · exact ⟨by simp [h], rfl, by simp [h], by simp [h], fun _ => rfl⟩
  · exact ⟨by simp [h], rfl, by simp [h], by simp [h], fun _ => rfl⟩

theorem setBuf_fields (s : St) (b : Buf) : (s.setBuf b).reg = s.reg ∧ (s.setBuf b).g = s.g ∧ (s.setBuf b).det = s.det ∧ (s.setBuf b).expired = s.expired ∧ (s.setBuf b).root = s.root := by
  unfold St.setBuf
  cases h : s.ctx <;> simp

theorem store_root (s : St) (u : Uid) (c : Content) (h : s.root ≠ none) : (s.store u c).root = s.root := by
  unfold St.store
  dsimp only
  generalize (if u ∈ s.reg then _ else _ : Buf) = b
  rw [(setBuf_fields s b).2.2.2.2]
  cases hc : s.root with
  | none => exact absurd hc h
  | some x => rfl

/-- One object. -/
theorem receive_spec {u : Uid} (hd : u ∈ s.reg → u ∉ s.buf.deleted) (hl : u ∉ s.reg → s.g u ⊆ C u) : ∃ s', receive u (C u) s = (.ok (), s') ∧ Recv C [u] s s' := by
  unfold receive
  dsimp only
  by_cases hr : u ∈ s.reg
  · rw [if_pos (by exact hr)]
    have hb : ({ s with expired := del s.expired u, g := Function.update (Function.update s.g u ∅) u ((Function.update s.g u ∅) u ∪ C u) } : St).buf = s.buf := rfl
    show ∃ s', St.notifyUpdate { s with expired := del s.expired u, g := Function.update (Function.update s.g u ∅) u ((Function.update s.g u ∅) u ∪ C u) } u = (.ok (), s') ∧ Recv C [u] s s'
    generalize hs1 : ({ s with expired := del s.expired u, g := Function.update (Function.update s.g u ∅) u ((Function.update s.g u ∅) u ∪ C u) } : St) = s1 at hb ⊢
    rw [notifyUpdate_eq]
    rw [hb, if_neg (hd hr)]
    refine ⟨_, rfl, ?_⟩
    obtain ⟨f1, f2, f3, f4, f5⟩ := setBuf_fields s1 (s.buf.notifyUpdate u)
    have hg : ∀ v, s1.g v = if v = u then C u else s.g v := by
      intro v
      rw [← hs1]
      by_cases h : v = u
      · subst h; simp [Function.update_self]
      · simp [h]
    have hF : Frame s s1 := by rw [← hs1]; exact ⟨rfl, rfl, fun _ => rfl, fun _ => rfl, fun _ => rfl⟩
    have hbm : ∀ v, (v ∈ (s.buf.notifyUpdate u).added ↔ v ∈ s.buf.added) ∧ (v ∈ (s.buf.notifyUpdate u).updated ↔ v ∈ s.buf.updated ∨ (v = u ∧ u ∉ s.buf.added)) ∧
        (v ∈ (s.buf.notifyUpdate u).deleted ↔ v ∈ s.buf.deleted) := by
      intro v
      unfold Buf.notifyUpdate
      rw [if_neg (hd hr)]
      split
      · rename_i h
        simp only [List.mem_append, List.mem_cons, List.not_mem_nil, or_false]
        tauto
      · rename_i h
        refine ⟨Iff.rfl, ?_, Iff.rfl⟩
        constructor
        · exact Or.inl
        · rintro (k | ⟨rfl, k⟩)
          · exact k
          · by_contra hn; exact h ⟨k, hn⟩
    refine ⟨hF.trans (frame_setBuf _ _), ?_, ?_, ?_, ?_, ?_, ?_, ?_, ?_⟩
    · intro v; rw [f1, ← hs1]; simp only [List.mem_cons, List.not_mem_nil, or_false]
      constructor
      · exact Or.inl
      · rintro (h | rfl) <;> assumption
    · intro v hv; rw [f2, hg, List.mem_singleton.1 hv, if_pos rfl]
    · intro v hv; rw [f2, hg, if_neg (by simpa using hv)]
    · rw [f3, ← hs1]
    · intro v; rw [f4, ← hs1]; simp only [mem_del, List.mem_cons, List.not_mem_nil, or_false, ne_eq]
    · intro v; rw [buf_setBuf, (hbm v).1]; simp only [List.mem_singleton]
      constructor
      · exact Or.inl
      · rintro (k | ⟨rfl, k⟩)
        · exact k
        · exact absurd hr k
    · intro v; rw [buf_setBuf, (hbm v).2.1]; simp only [List.mem_singleton]
      constructor
      · rintro (k | ⟨rfl, k⟩)
        · exact Or.inl k
        · exact Or.inr ⟨rfl, hr, k⟩
      · rintro (k | ⟨rfl, _, k⟩)
        · exact Or.inl k
        · exact Or.inr ⟨rfl, k⟩
    · intro v; rw [buf_setBuf, (hbm v).2.2]; simp only [List.mem_singleton]
      constructor
      · intro k; exact ⟨k, fun ⟨e, x⟩ => x (e ▸ hr)⟩
      · exact And.left
  · rw [if_neg (by exact hr)]
    obtain ⟨r, hs⟩ := store_eq { s with expired := del s.expired u } u ∅
    have hroot := fun h => store_root { s with expired := del s.expired u } u ∅ h
    rw [hs] at hroot ⊢
    have hbs : ({ s with expired := del s.expired u } : St).buf = s.buf := rfl
    rw [hbs] at hroot ⊢
    generalize hb : s.buf.store s.reg u = b' at hroot ⊢
    obtain ⟨f1, f2, f3, f4, f5⟩ := setBuf_fields { s with expired := del s.expired u } b'
    have hF := frame_setBuf { s with expired := del s.expired u } b'
    have hB := buf_setBuf { s with expired := del s.expired u } b'
    generalize ({ s with expired := del s.expired u } : St).setBuf b' = s1 at *
    dsimp only at *
    have hbm : ∀ v, (v ∈ b'.added ↔ v ∈ s.buf.added ∨ v = u) ∧ (v ∈ b'.updated ↔ v ∈ s.buf.updated) ∧ (v ∈ b'.deleted ↔ v ∈ s.buf.deleted ∧ v ≠ u) := by
      intro v
      rw [← hb]
      unfold Buf.store
      rw [if_neg hr]
      exact ⟨mem_ins .., Iff.rfl, mem_del ..⟩
    rw [notifyUpdate_eq]
    have hb2 : ({ s1 with reg := ins s.reg u, root := r, g := Function.update (Function.update s.g u (s.g u ∪ ∅)) u (Function.update s.g u (s.g u ∪ ∅) u ∪ C u) } : St).buf = b' := by
      rw [← hB]; rfl
    generalize hs2 : ({ s1 with reg := ins s.reg u, root := r, g := Function.update (Function.update s.g u (s.g u ∪ ∅)) u (Function.update s.g u (s.g u ∪ ∅) u ∪ C u) } : St) = s2 at hb2
    rw [hb2]
    have hno : b'.notifyUpdate u = b' := by
      unfold Buf.notifyUpdate
      rw [if_neg (fun h => ((hbm u).2.2.1 h).2 rfl), if_neg (fun h => h.1 ((hbm u).1.2 (Or.inr rfl)))]
    rw [hno, if_neg (fun h => ((hbm u).2.2.1 h).2 rfl)]
    refine ⟨_, rfl, ?_⟩
    rw [← hb2, setBuf_self]
    have hg : ∀ v, s2.g v = if v = u then C u else s.g v := by
      intro v
      rw [← hs2]
      by_cases h : v = u
      · subst h
        simp only [Function.update_self, if_true]
        ext x
        have : x ∈ s.g v → x ∈ C v := fun k => hl hr k
        simp only [Finset.mem_union]
        constructor
        · rintro ((k | k) | k)
          · exact this k
          · simp at k
          · exact k
        · exact Or.inr
      · simp [h]
    refine ⟨?_, ?_, ?_, ?_, ?_, ?_, ?_, ?_, ?_⟩
    · rw [← hs2]
      exact ⟨hF.ctx, hF.db, hF.user, hF.engine, hroot⟩
    · intro v; rw [← hs2]; simp only [mem_ins, List.mem_singleton]
    · intro v hv; rw [hg, List.mem_singleton.1 hv, if_pos rfl]
    · intro v hv; rw [hg, if_neg (by simpa using hv)]
    · rw [← hs2]; exact f3
    · intro v; rw [← hs2]; simp only [f4, mem_del, List.mem_singleton, ne_eq]
    · intro v; rw [hb2, (hbm v).1]; simp only [List.mem_singleton]
      constructor
      · rintro (k | rfl)
        · exact Or.inl k
        · exact Or.inr ⟨rfl, hr⟩
      · rintro (k | ⟨k, _⟩)
        · exact Or.inl k
        · exact Or.inr k
    · intro v; rw [hb2, (hbm v).2.1]; simp only [List.mem_singleton]
      constructor
      · exact Or.inl
      · rintro (k | ⟨rfl, k, _⟩)
        · exact k
        · exact absurd k hr
    · intro v; rw [hb2, (hbm v).2.2]; simp only [List.mem_singleton]
      constructor
      · rintro ⟨k, h⟩; exact ⟨k, fun x => h x.1⟩
      · rintro ⟨k, h⟩; exact ⟨k, fun e => h ⟨e, e ▸ hr⟩⟩

/-- The objects of a list with gaps. -/
def objs (rs : List (Option Uid)) : List Uid := rs.filterMap id

/-- The documents of objects with contents `C`. -/
def optDocs (C : Uid → Content) (rs : List (Option Uid)) : List Doc := rs.map (fun o => o.map (fun u => (u, C u)))

/-- A list of objects. -/
theorem receiveAll_spec : ∀ (rs : List (Option Uid)) (s : St), (∀ u ∈ objs rs, u ∈ s.reg → u ∉ s.buf.deleted) → (∀ u ∈ objs rs, u ∉ s.reg → s.g u ⊆ C u) →
    ∃ s', receiveAll (optDocs C rs) s = (.ok rs, s') ∧ Recv C (objs rs) s s' := by
  intro us
  induction us with
  | nil => intro s _ _; exact ⟨s, rfl, .nil C s⟩
  | cons o us ih =>
    intro s hd hl
    cases o with
    | none =>
      obtain ⟨s2, h2, k2⟩ := ih s hd hl
      refine ⟨s2, ?_, k2⟩
      simp only [optDocs, List.map_cons, Option.map_none, receiveAll] at h2 ⊢
      rw [h2]
    | some u =>
    have ho : objs (some u :: us) = u :: objs us := rfl
    rw [ho] at hd hl ⊢
    obtain ⟨s1, h1, k1⟩ := receive_spec (C := C) (hd u (by simp)) (hl u (by simp))
    obtain ⟨s2, h2, k2⟩ := ih s1
      (by
        intro v hv hr hx
        rw [k1.deleted] at hx
        rw [k1.reg] at hr
        rcases hr with hr | hr
        · exact hd v (by simp [hv]) hr hx.1
        · by_cases hs : v ∈ s.reg
          · exact hd v (by simp [hv]) hs hx.1
          · exact hx.2 ⟨hr, hs⟩)
      (by
        intro v hv hr
        rw [k1.reg, not_or] at hr
        rw [k1.gOut v hr.2]
        exact hl v (by simp [hv]) hr.1)
    refine ⟨s2, ?_, k1.trans k2⟩
    simp only [optDocs, List.map_cons, Option.map_some, receiveAll, h1] at h2 ⊢
    rw [h2]

/-- Deleting the objects `us`. -/
structure Del (us : List Uid) (s s' : St) : Prop where
  frame : Frame s s'
  root : s'.root = s.root
  reg : s'.reg = s.reg
  g : s'.g = s.g
  det : s'.det = s.det
  exp : s'.expired = s.expired
  added : ∀ v, v ∈ s'.buf.added ↔ v ∈ s.buf.added ∧ v ∉ us
  updated : ∀ v, v ∈ s'.buf.updated ↔ v ∈ s.buf.updated ∧ (v ∉ us ∨ v ∈ s.buf.added)
  deleted : ∀ v, v ∈ s'.buf.deleted ↔ v ∈ s.buf.deleted ∨ (v ∈ us ∧ v ∉ s.buf.added)

theorem notifyAll_spec : ∀ (us : List Uid) (s : St), us.Nodup → ∃ s', notifyAll (us.map some) s = (.ok (), s') ∧ Del us s s' := by
  intro us
  induction us with
  | nil => intro s _; exact ⟨s, rfl, .refl s, rfl, rfl, rfl, rfl, rfl, by simp, by simp, by simp⟩
  | cons u us ih =>
    intro s hn
    rw [List.nodup_cons] at hn
    obtain ⟨s2, h2, k2⟩ := ih (s.notifyDelete u) hn.2
    refine ⟨s2, h2, ?_⟩
    rw [notifyDelete_eq] at k2
    obtain ⟨f1, f2, f3, f4, f5⟩ := setBuf_fields s (s.buf.notifyDelete u)
    have hbm : ∀ v, (v ∈ (s.buf.notifyDelete u).added ↔ v ∈ s.buf.added ∧ v ≠ u) ∧ (v ∈ (s.buf.notifyDelete u).updated ↔ v ∈ s.buf.updated ∧ (v ≠ u ∨ u ∈ s.buf.added)) ∧
        (v ∈ (s.buf.notifyDelete u).deleted ↔ v ∈ s.buf.deleted ∨ (v = u ∧ u ∉ s.buf.added)) := by
      intro v
      unfold Buf.notifyDelete
      split
      · rename_i h
        simp only [mem_del, h, not_true_eq_false, and_false, or_false, or_true, and_true, ne_eq, and_self]
      · rename_i h
        split
        · rename_i h'
          simp only [mem_del, mem_ins, h, not_false_eq_true, and_true, or_false, ne_eq]
          by_cases e : v = u
          · subst e; tauto
          · tauto
        · rename_i h'
          have e1 : v ∈ s.buf.added ↔ v ∈ s.buf.added ∧ v ≠ u := ⟨fun x => ⟨x, fun e => h (e ▸ x)⟩, And.left⟩
          have e2 : v ∈ s.buf.updated ↔ v ∈ s.buf.updated ∧ (v ≠ u ∨ u ∈ s.buf.added) := ⟨fun x => ⟨x, Or.inl fun e => h' (e ▸ x)⟩, And.left⟩
          split
          · refine ⟨e1, e2, ?_⟩
            simp only [List.mem_append, List.mem_singleton, h, not_false_eq_true, and_true]
          · rename_i h3
            refine ⟨e1, e2, ⟨Or.inl, ?_⟩⟩
            rintro (x | ⟨rfl, _⟩)
            · exact x
            · exact Decidable.not_not.1 h3
    refine ⟨(frame_setBuf s _).trans k2.frame, k2.root.trans f5, k2.reg.trans f1, k2.g.trans f2, k2.det.trans f3, k2.exp.trans f4, ?_, ?_, ?_⟩
    · intro v; rw [k2.added, buf_setBuf, (hbm v).1]; simp only [List.mem_cons]; tauto
    · intro v; rw [k2.updated, buf_setBuf, (hbm v).2.1, (hbm v).1]; simp only [List.mem_cons]
      by_cases hv : v = u
      · subst hv; simp [hn.1]
      · simp only [hv, ne_eq, not_false_eq_true, true_or, and_true, false_or]
    · intro v; rw [k2.deleted, buf_setBuf, (hbm v).2.2, (hbm v).1]; simp only [List.mem_cons]
      by_cases hv : v = u
      · subst hv; simp [hn.1]
      · simp [hv]

end Osp.Sync
