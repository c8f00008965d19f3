import Verif.Links.Spec
import Verif.Multi.Props
/-!
# Links after a reload: theorems (C102)
-/
namespace Osp.Links
open Osp.Sess
open Osp.Multi (Tidy loadStep_weak loadLoop_weak)

variable {R : Type} {dec : Code R} {inv : R → R}

theorem mem_elems (c : Content) (k : Nat) : k ∈ elems c ↔ k ∈ c := by
  unfold elems
  simp only [List.mem_filter, List.mem_range, decide_eq_true_eq, and_iff_right_iff_imp]
  intro h
  have : id k ≤ c.sup id := Finset.le_sup h
  exact Nat.lt_succ_of_le this

theorem mem_oneSided (a b : Content) (v : Uid) : v ∈ oneSided dec a b ↔ ∃ k r, k ∈ a ∧ k ∉ b ∧ dec k = some (r, v) := by
  unfold oneSided
  simp only [List.mem_filterMap, mem_elems, Finset.mem_sdiff, Option.map_eq_some_iff]
  constructor
  · rintro ⟨k, ⟨h1, h2⟩, ⟨r, v'⟩, h3, rfl⟩
    exact ⟨k, r, h1, h2, h3⟩
  · rintro ⟨k, r, h1, h2, h3⟩
    exact ⟨k, ⟨h1, h2⟩, (r, v), h3, rfl⟩

theorem has_congr {a b : Content} {v : Uid} (h : v ∉ linkDiff dec a b) (r : R) : Has dec a r v ↔ Has dec b r v := by
  unfold linkDiff at h
  rw [List.mem_append, mem_oneSided, mem_oneSided] at h
  constructor
  · rintro ⟨k, hk, e⟩
    by_contra hc
    exact h (.inr ⟨k, r, hk, fun hb => hc ⟨k, hb, e⟩, e⟩)
  · rintro ⟨k, hk, e⟩
    by_contra hc
    exact h (.inl ⟨k, r, hk, fun hb => hc ⟨k, hb, e⟩, e⟩)

/-! ### what a load lets expire -/

theorem loadStep_expires {P : Params} {s : St} (hroot : s.root ≠ none) (ht : Tidy s) (hc : s.ctx = .engine) (he : s.engine = .empty) (uids missing : List Uid) {u : Uid} (hm : u ∈ missing)
    (hu : u ∈ s.reg) (hr : s.root ≠ some u) {v : Uid} (hv : v ∈ P.diff (s.g u) (s.stored u)) (hvu : v ∉ uids) (hp : v ∉ s.user.uids) (hvr : v ∈ s.reg) :
    v ∈ (St.loadStep P uids missing u s).2.expired := by
  have hdel : u ∉ s.engine.deleted := by rw [he]; simp [Buf.empty]
  unfold St.loadStep
  rw [if_neg (by simpa using hm)]
  rcases loadByIri_spec hroot hc (ht u) hdel with ⟨hst, hl⟩ | ⟨hst, e, hed, hl⟩
  · rw [hst] at hv
    simp only [hl, hu, if_true, St.afterLoad, Option.isSome_none, Bool.false_eq_true, if_false, true_and, hr]
    obtain ⟨e, hdt⟩ := deleteTriples_engine (P := P) (s := (s.expire ((P.diff (s.g u) ∅).filter (· ∉ uids))).2) hc (u := u) hu
    rw [if_pos (show u ∈ (s.expire ((P.diff (s.g u) ∅).filter (· ∉ uids))).2.reg from hu), hdt]
    show v ∈ (s.expire ((P.diff (s.g u) ∅).filter (· ∉ uids))).2.expired
    rw [mem_expire]
    exact ⟨.inr ⟨by simp [hv, hvu], hp⟩, hvr⟩
  · simp only [hl, hu, if_true, St.afterLoad, reduceCtorEq, false_and, if_false, hr, Option.isSome_some, Function.update_self]
    rw [mem_expire]
    refine ⟨.inr ⟨by simp [hv, hvu], hp⟩, ?_⟩
    show v ∈ ins s.reg u
    rw [mem_ins]
    exact .inl hvr

theorem loadLoop_expires {P : Params} (uids missing : List Uid) : ∀ (us : List Uid) (s s' : St) (xs : List (Option Uid)), s.root ≠ none → Tidy s → s.ctx = .user → (∀ u ∈ us, u ∈ missing) → (∀ u ∈ us, u ∈ uids) →
    St.loadLoop P uids missing us s = (.ok xs, s') → ∀ u ∈ us, u ∈ s.reg → s.root ≠ some u → ∀ v, v ∈ P.diff (s.g u) (s.stored u) → v ∉ uids → v ∉ s.user.uids → v ∈ s.reg → v ∈ s'.expired := by
  intro us
  induction us with
  | nil => intro s s' xs _ _ _ _ _ _ u hu; cases hu
  | cons x us ih =>
    intro s s' xs hroot ht hc hm hin hload u hu hur hrr v hv hvu hp hvr
    have hstep : s.inEngine (St.loadStep P uids missing x) = ((St.loadStep P uids missing x { s with engine := .empty, ctx := .engine }).1,
        { (St.loadStep P uids missing x { s with engine := .empty, ctx := .engine }).2 with ctx := .user }) := by
      unfold St.inEngine
      simp only [hc, ne_eq, reduceCtorEq, not_false_eq_true, if_true]
    obtain ⟨t, b1, b2, b3, b4, b5, b6, b7, b8, b9⟩ := loadStep_weak (P := P) (s := { s with engine := .empty, ctx := .engine }) hroot ht rfl rfl uids missing (hm x List.mem_cons_self)
    unfold St.loadLoop at hload
    rw [hstep, b1] at hload
    dsimp only at hload
    have hvx : v ≠ x := fun e => hvu (e ▸ hin x List.mem_cons_self)
    have hroot1 : ({ t with ctx := Ctx.user } : St).root ≠ none := by
      show t.root ≠ none
      rw [b4]; exact hroot
    cases hl : St.loadLoop P uids missing us { t with ctx := .user } with
    | mk r1 s1 =>
      rw [hl] at hload
      cases r1 with
      | error e => cases hload
      | ok ys =>
        have hs1 : s1 = s' := by
          dsimp only at hload
          exact (Prod.mk.inj hload).2
        subst hs1
        by_cases hux : u = x
        · subst hux
          have h1 := loadStep_expires (P := P) (s := { s with engine := .empty, ctx := .engine }) hroot ht rfl rfl uids missing (hm u List.mem_cons_self) hur hrr hv hvu hp hvr
          rw [b1] at h1
          obtain ⟨ys', s2, d1, _, _, _, _, _, _, d8⟩ := loadLoop_weak (P := P) uids missing us { t with ctx := .user } hroot1 b6 rfl (fun w hw hn => absurd (hm w (List.mem_cons_of_mem _ hw)) hn)
          rw [d1] at hl
          cases hl
          refine (d8 v (Or.inl (fun h => hvu (hin v (List.mem_cons_of_mem _ h))))).2.2 h1 ?_
          exact (b9 v hvx).1.2 hvr
        · obtain ⟨c1, c2, c3⟩ := b9 u hux
          refine ih { t with ctx := .user } s1 ys hroot1 b6 rfl (fun w hw => hm w (List.mem_cons_of_mem _ hw)) (fun w hw => hin w (List.mem_cons_of_mem _ hw)) hl u ?_ (c1.2 hur) ?_ v ?_ hvu ?_ ?_
          · exact (List.mem_cons.1 hu).resolve_left hux
          · show t.root ≠ _
            rw [b4]; exact hrr
          · show v ∈ P.diff (t.g u) (St.stored { t with ctx := .user } u)
            rw [c2, show St.stored { t with ctx := .user } u = s.stored u from stored_eq (s := { s with engine := .empty, ctx := .engine }) (s' := { t with ctx := .user }) b4 b3 u]
            exact hv
          · show v ∉ t.user.uids
            rw [b2]; exact hp
          · exact (b9 v hvx).1.2 hvr

/-! ### one call -/

/-- Proof device; nothing in /repo: what a call that looks at objects does: it reloads some of them and lets others expire. -/
structure Turn (P : Params) (us : List Uid) (s s' : St) : Prop where
  user : s'.user = s.user
  db : s'.db = s.db
  root : s'.root = s.root
  ctx : s'.ctx = .user
  tidy : Tidy s'
  there : ∀ u ∈ us, u ∈ s.reg
  loaded : ∀ u ∈ us, (u ∈ s'.reg ↔ s.stored u ≠ ∅) ∧ s'.g u = s.stored u
  others : ∀ v, v ∉ us → (v ∈ s'.reg ↔ v ∈ s.reg) ∧ s'.g v = s.g v ∧ (v ∈ s.expired → v ∈ s.reg → v ∈ s'.expired)
  marked : ∀ u ∈ us, Plain s u → ∀ v, v ∈ P.diff (s.g u) (s.stored u) → v ∉ us → v ∉ s.user.uids → v ∈ s.reg → v ∈ s'.expired

theorem turn_load {P : Params} {s : St} (hroot : s.root ≠ none) (ht : Tidy s) (hc : s.ctx = .user) {us : List Uid} (hu : ∀ u ∈ us, u ∈ s.reg ∧ u ∈ s.expired) :
    ∃ xs s', s.load P us = (.ok xs, s') ∧ Turn P us s s' := by
  unfold St.load
  rw [if_neg hroot]
  have hmm : ∀ u ∈ us, u ∈ us.filter (fun u => u ∉ s.reg ∨ u ∈ us.filter (· ∈ s.expired)) := by
    intro u h
    simp only [List.mem_filter, decide_eq_true_eq]
    exact ⟨h, .inr ⟨h, (hu u h).2⟩⟩
  obtain ⟨xs, s', d1, d2, d3, d4, d5, d6, d7, d8⟩ := loadLoop_weak (P := P) us (us.filter (fun u => u ∉ s.reg ∨ u ∈ us.filter (· ∈ s.expired))) us
    { s with expired := s.expired.filter (· ∉ us.filter (· ∈ s.expired)) } hroot ht hc (fun u h hn => absurd (hmm u h) hn)
  dsimp only
  refine ⟨xs, s', d1, d2, d3, d4, d5, d6, fun u h => (hu u h).1, fun u h => d7 u h (hmm u h), ?_, ?_⟩
  · intro v hv
    obtain ⟨e1, e2, e3⟩ := d8 v (.inl hv)
    refine ⟨e1, e2, fun h k => e3 ?_ k⟩
    simp [h, hv]
  · intro u h hr v hv hvu hp hvr
    exact loadLoop_expires us _ us { s with expired := s.expired.filter (· ∉ us.filter (· ∈ s.expired)) } s' xs hroot ht hc hmm (fun _ h => h) d1 u h (hu u h).1 hr v hv hvu hp hvr

theorem turn_expire {P : Params} {s : St} (ht : Tidy s) (hc : s.ctx = .user) (us : List Uid) : Turn P [] s (s.expire us).2 :=
  ⟨rfl, rfl, rfl, hc, ht, fun _ h => (nomatch h), fun _ h => (nomatch h), fun v _ => ⟨Iff.rfl, rfl, fun h k => (mem_expire s us v).2 ⟨.inl h, k⟩⟩, fun _ h => (nomatch h)⟩

theorem turn_refresh {P : Params} {s : St} (hroot : s.root ≠ none) (ht : Tidy s) (hc : s.ctx = .user) (us : List Uid) :
    ∃ es s', s.refresh P us = (.ok (), s') ∧ Turn P es s s' ∧ ∀ u, u ∈ es ↔ u ∈ us ∧ u ∈ s.reg ∧ u ∉ s.user.uids := by
  unfold St.refresh
  by_cases hn : us = []
  · subst hn
    rw [if_pos rfl]
    exact ⟨[], s, rfl, ⟨rfl, rfl, rfl, hc, ht, fun _ h => (nomatch h), fun _ h => (nomatch h), fun v _ => ⟨Iff.rfl, rfl, fun h _ => h⟩, fun _ h => (nomatch h)⟩, by simp⟩
  · rw [if_neg hn]
    have hes : ∀ u ∈ (s.expire us).1, u ∈ (s.expire us).2.reg ∧ u ∈ (s.expire us).2.expired := by
      intro u h
      obtain ⟨h1, h2, h3⟩ := (mem_expire_fst s us u).1 h
      exact ⟨h3, (mem_expire s us u).2 ⟨.inr ⟨h1, h2⟩, h3⟩⟩
    obtain ⟨xs, s', l1, l2⟩ := turn_load (P := P) (s := (s.expire us).2) hroot ht hc hes
    have hpair : s.expire us = ((s.expire us).1, (s.expire us).2) := rfl
    rw [hpair]
    dsimp only
    rw [l1]
    refine ⟨(s.expire us).1, s', rfl, ⟨l2.user, l2.db, l2.root, l2.ctx, l2.tidy, l2.there, l2.loaded, fun v hv => ?_, l2.marked⟩, fun u => by rw [mem_expire_fst]; tauto⟩
    obtain ⟨a, b, c⟩ := l2.others v hv
    exact ⟨a, b, fun h k => c ((mem_expire s us v).2 ⟨.inl h, k⟩) k⟩

theorem turn_read {P : Params} {s : St} (hroot : s.root ≠ none) (ht : Tidy s) (hc : s.ctx = .user) (u : Uid) :
    ∃ es s', s.notifyRead P u = (.ok (), s') ∧ Turn P es s s' ∧ ∀ x, x ∈ es ↔ x = u ∧ u ∈ s.expired ∧ u ∈ s.reg ∧ u ∉ s.user.uids := by
  unfold St.notifyRead
  by_cases he : u ∈ s.expired
  · rw [if_pos he]
    obtain ⟨es, s', h1, h2, h3⟩ := turn_refresh (P := P) hroot ht hc [u]
    refine ⟨es, s', h1, h2, fun x => ?_⟩
    rw [h3, List.mem_singleton]
    constructor
    · rintro ⟨rfl, a, b⟩
      exact ⟨rfl, he, a, b⟩
    · rintro ⟨rfl, _, a, b⟩
      exact ⟨rfl, a, b⟩
  · rw [if_neg he]
    exact ⟨[], s, rfl, ⟨rfl, rfl, rfl, hc, ht, fun _ h => (nomatch h), fun _ h => (nomatch h), fun v _ => ⟨Iff.rfl, rfl, fun h _ => h⟩, fun _ h => (nomatch h)⟩, fun x => by simp [he]⟩

theorem turn_looks {P : Params} {s : St} (hroot : s.root ≠ none) (ht : Tidy s) (hc : s.ctx = .user) {o : Op} (ho : Looks s o) : ∃ es, Turn P es s (Sess.step P s o).2 := by
  cases o with
  | read u =>
    obtain ⟨es, s', h1, h2, _⟩ := turn_read (P := P) hroot ht hc u
    exact ⟨es, by show Turn P es s (s.notifyRead P u).2; rw [h1]; exact h2⟩
  | refresh us =>
    obtain ⟨es, s', h1, h2, _⟩ := turn_refresh (P := P) hroot ht hc us
    exact ⟨es, by show Turn P es s (s.refresh P us).2; rw [h1]; exact h2⟩
  | expire us => exact ⟨[], turn_expire ht hc us⟩
  | expireAll => exact ⟨[], turn_expire ht hc s.reg⟩
  | load us =>
    obtain ⟨xs, s', h1, h2⟩ := turn_load (P := P) hroot ht hc ho
    exact ⟨us, by show Turn P us s (s.load P us).2; rw [h1]; exact h2⟩
  | _ => cases ho

/-- **C102.** Reading an expired object (not the wrapper, not changed by the user) shows what is stored, and every other object (not changed by the user) is either expired now, so that it is loaded
before it is shown again, or the links between the object and it are the same as before. No other object is changed. -/
theorem read_marks (dec : Code R) {P : Params} {s : St} (hroot : s.root ≠ none) (ht : Tidy s) (hc : s.ctx = .user) {u : Uid} (hu : u ∈ s.reg) (he : u ∈ s.expired) (hp : u ∉ s.user.uids) (hr : Plain s u) :
    ∃ s', s.notifyRead (withLinks dec P) u = (.ok (), s') ∧ s'.g u = s.stored u ∧ (u ∈ s'.reg ↔ s.stored u ≠ ∅) ∧
      ∀ v, v ≠ u → s'.g v = s.g v ∧ (v ∈ s'.reg ↔ v ∈ s.reg) ∧ (v ∈ s.reg → v ∉ s.user.uids → v ∉ s'.expired → v ∉ s.expired ∧ ∀ r, Has dec (s'.g u) r v ↔ Has dec (s.g u) r v) := by
  obtain ⟨es, s', h1, h2, h3⟩ := turn_read (P := withLinks dec P) hroot ht hc u
  have hmem : u ∈ es := (h3 u).2 ⟨rfl, he, hu, hp⟩
  refine ⟨s', h1, (h2.loaded u hmem).2, (h2.loaded u hmem).1, fun v hv => ?_⟩
  have hve : v ∉ es := fun h => hv ((h3 v).1 h).1
  obtain ⟨a, b, c⟩ := h2.others v hve
  refine ⟨b, a, fun hvr hvp hvx => ⟨fun h => hvx (c h hvr), fun r => ?_⟩⟩
  rw [(h2.loaded u hmem).2]
  exact (has_congr (fun hd => hvx (h2.marked u hmem hr v hd hve hvp hvr)) r).symm

/-! ### histories -/

/-- Proof device; nothing in /repo: each object shows what it did at the start or what is stored now; those that show the old and are not expired have lost or gained no link. -/
structure Since (dec : Code R) (s0 s : St) : Prop where
  user : s.user = s0.user
  db : s.db = s0.db
  root : s.root = s0.root
  ctx : s.ctx = .user
  tidy : Tidy s
  reg : ∀ u ∈ s.reg, u ∈ s0.reg
  gone : ∀ u ∈ s0.reg, u ∉ s.reg → s0.stored u = ∅
  old : ∀ v, Settled s v → s.g v = s0.stored v ∨ (s.g v = s0.g v ∧ ∀ u ∈ s0.reg, Plain s0 u → ∀ r, Has dec (s.g u) r v ↔ Has dec (s0.g u) r v)

theorem since_turn {P : Params} {us : List Uid} {s0 s s' : St} (h : Since dec s0 s) (t : Turn (withLinks dec P) us s s') : Since dec s0 s' := by
  have hst : ∀ u, s.stored u = s0.stored u := stored_eq h.root h.db
  refine ⟨t.user.trans h.user, t.db.trans h.db, t.root.trans h.root, t.ctx, t.tidy, ?_, ?_, ?_⟩
  · intro u hu
    by_cases hm : u ∈ us
    · exact h.reg u (t.there u hm)
    · exact h.reg u ((t.others u hm).1.1 hu)
  · intro u hu hn
    by_cases hm : u ∈ us
    · by_contra hc
      exact hn ((t.loaded u hm).1.2 (by rw [hst]; exact hc))
    · exact h.gone u hu (fun hr => hn ((t.others u hm).1.2 hr))
  · rintro v ⟨hv1, hv2, hv3⟩
    by_cases hm : v ∈ us
    · exact .inl ((t.loaded v hm).2.trans (hst v))
    · obtain ⟨a, b, c⟩ := t.others v hm
      have hvr := a.1 hv1
      have hvp : v ∉ s.user.uids := by rw [← t.user]; exact hv3
      rcases h.old v ⟨hvr, fun he => hv2 (c he hvr), hvp⟩ with e | ⟨e, hl⟩
      · exact .inl (b.trans e)
      · refine .inr ⟨b.trans e, fun u hu hp r => ?_⟩
        by_cases hum : u ∈ us
        · rw [(t.loaded u hum).2, ← hl u hu hp r]
          refine (has_congr (fun hd => hv2 (t.marked u hum ?_ v hd hm hvp hvr)) r).symm
          unfold Plain
          rw [h.root]
          exact hp
        · rw [(t.others u hum).2.1]
          exact hl u hu hp r

theorem since_run {P : Params} {s0 : St} (hroot : s0.root ≠ none) : ∀ (ops : List Op) (s : St), Since dec s0 s → Looking (withLinks dec P) s ops → Since dec s0 (Sess.run (withLinks dec P) s ops)
  | [], _, h, _ => h
  | o :: os, s, h, hl => by
    obtain ⟨es, t⟩ := turn_looks (P := withLinks dec P) (by rw [h.root]; exact hroot) h.tidy h.ctx hl.1
    exact since_run hroot os _ (since_turn h t) hl.2

theorem since_start {s0 : St} (ht : Tidy s0) (hc : s0.ctx = .user) : Since dec s0 s0 :=
  ⟨rfl, rfl, rfl, hc, ht, fun _ h => h, fun _ h hn => absurd h hn, fun _ _ => .inr ⟨rfl, fun _ _ _ _ => Iff.rfl⟩⟩

/-- **C102.** A session whose objects agree about their links, and a database changed by others in any way (`s` is the session in front of the new database, whose objects agree too): however the user
reads, refreshes, expires and loads expired objects from then on, two objects that are not expired (not the wrapper, not changed by the user) agree about the links between them, although one may be shown
as it was before the change and the other as it is after it. And no such object has a link to an object that was deleted and is not there any more. -/
theorem links_agree_partial (dec : Code R) (inv : R → R) (P : Params) (s : St) (hroot : s.root ≠ none) (ht : Tidy s) (hc : s.ctx = .user) (hco : Coherent dec inv s) (hdb : Sound dec inv s) (ops : List Op)
    (hl : Looking (withLinks dec P) s ops) :
    let s' := Sess.run (withLinks dec P) s ops
    (∀ u v, Settled s' u → Settled s' v → Plain s' u → Plain s' v → Agree dec inv u v (s'.g u) (s'.g v)) ∧
    (∀ u v, Settled s' v → Plain s' u → Plain s' v → u ∈ s.reg → u ∉ s.user.uids → u ∉ s'.reg → ∀ r, ¬ Has dec (s'.g v) r u) := by
  intro s'
  have h : Since dec s s' := since_run hroot ops s (since_start ht hc) hl
  have key : ∀ u v, u ∈ s.reg → u ∉ s.user.uids → Settled s' v → Plain s' u → Plain s' v → s'.g v = s.g v → (∀ r, Has dec (s'.g u) r v ↔ Has dec (s.g u) r v) → Agree dec inv u v (s'.g u) (s'.g v) := by
    intro u v hu hup hv hpu hpv e hk r
    have hvr := h.reg v hv.1
    have hvp : v ∉ s.user.uids := by rw [← h.user]; exact hv.2.2
    unfold Plain at hpu hpv
    rw [h.root] at hpu hpv
    have ha := hco u v hu hvr hpu hpv hup hvp
    rw [e, hk, hk]
    exact ha r
  have swap : ∀ (u v : Uid) (cu cv : Content), Agree dec inv u v cu cv → Agree dec inv v u cv cu := fun _ _ _ _ ha r => ⟨(ha r).2, (ha r).1⟩
  constructor
  · intro u v hu hv hpu hpv
    have hup : u ∉ s.user.uids := by rw [← h.user]; exact hu.2.2
    have hvp : v ∉ s.user.uids := by rw [← h.user]; exact hv.2.2
    have hpu' : Plain s u := by unfold Plain at hpu ⊢; rw [← h.root]; exact hpu
    have hpv' : Plain s v := by unfold Plain at hpv ⊢; rw [← h.root]; exact hpv
    rcases h.old v hv with e | ⟨e, k⟩
    · rcases h.old u hu with e' | ⟨e', k'⟩
      · rw [e, e']
        exact hdb u v hpu' hpv'
      · exact swap _ _ _ _ (key v u (h.reg v hv.1) hvp hu hpv hpu e' (k' v (h.reg v hv.1) hpv'))
    · exact key u v (h.reg u hu.1) hup hv hpu hpv e (k u (h.reg u hu.1) hpu')
  · intro u v hv hpu hpv hu hup hn r hh
    have hpu' : Plain s u := by unfold Plain at hpu ⊢; rw [← h.root]; exact hpu
    have hpv' : Plain s v := by unfold Plain at hpv ⊢; rw [← h.root]; exact hpv
    have hg : s'.g u = ∅ := h.tidy u hn
    rcases h.old v hv with e | ⟨e, k⟩
    · rw [e] at hh
      obtain ⟨x, hx, _⟩ := ((hdb u v hpu' hpv' r).2).1 hh
      rw [h.gone u hu hn] at hx
      exact absurd hx (Finset.notMem_empty x)
    · have := key u v hu hup hv hpu hpv e (k u hu hpu') r
      obtain ⟨x, hx, _⟩ := this.2.1 hh
      rw [hg] at hx
      exact absurd hx (Finset.notMem_empty x)

/-- Proof device; nothing in /repo. -/
theorem reached_from {P : Params} : ∀ (hist : List Op) (s : St), Osp.Multi.J (fun _ _ => True) s → (∀ o ∈ hist, Osp.Multi.Proper o) → Osp.Multi.J (fun _ _ => True) (Sess.run P s hist)
  | [], _, h, _ => h
  | o :: os, _, h, hp => reached_from os _ (Osp.Multi.step_J h (fun _ => trivial) (hp o List.mem_cons_self) (.inl fun _ _ => trivial)).1 (fun x hx => hp x (List.mem_cons_of_mem _ hx))

/-- The premises about the session itself hold after every history: triples only of objects that are there, and no call is under way. The database in front of which the session is then put does not matter. -/
theorem reached (P : Params) (db db' : Uid → Content) (hist : List Op) (hp : ∀ o ∈ hist, Osp.Multi.Proper o) :
    Tidy { Sess.run P (St.opened db) hist with db := db' } ∧ ({ Sess.run P (St.opened db) hist with db := db' } : St).ctx = .user :=
  ⟨(reached_from hist _ (Osp.Multi.J.opened _ db) hp).tidy, (reached_from hist _ (Osp.Multi.J.opened _ db) hp).ctx⟩

/-- **C102**, for any history before and any one after the change of the database. -/
theorem changed_database_links_agree_partial (dec : Code R) (inv : R → R) (P : Params) (db db' : Uid → Content) (hist ops : List Op) (hp : ∀ o ∈ hist, Osp.Multi.Proper o)
    (s : St) (hs : s = { Sess.run (withLinks dec P) (St.opened db) hist with db := db' }) (hroot : s.root ≠ none) (hco : Coherent dec inv s) (hdb : Sound dec inv s) (hl : Looking (withLinks dec P) s ops) :
    let s' := Sess.run (withLinks dec P) s ops
    ∀ u v, Settled s' u → Settled s' v → Plain s' u → Plain s' v → Agree dec inv u v (s'.g u) (s'.g v) := by
  subst hs
  obtain ⟨h1, h2⟩ := reached (withLinks dec P) db db' hist hp
  exact (links_agree_partial dec inv P _ hroot h1 h2 hco hdb ops hl).1

end Osp.Links
