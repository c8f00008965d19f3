import Verif.Lazy.Props
/-!
# Iterations and the changes of the user (C104)
-/
namespace Osp.Lazy
open Osp.Sess
open Osp.Multi (J Tidy Trace)

/-! ### consuming at once -/

/-- Proof device; nothing in /repo: the results without the engine buffers. -/
def Res.core {α : Type} (r : Res α) : Res α := (r.1, { r.2 with engine := .empty })

theorem inEngine_ctx {α : Type} (s : St) (f : St → Res α) : (s.inEngine f).2.ctx = s.ctx := rfl

theorem drain_running {P : Params} (uids m : List Uid) : ∀ (left : List Uid) (s : St), s.ctx = .user →
    Res.core (drain P (left.length + 1) s ⟨uids, .running m left⟩) = Res.core (St.loadLoop P uids m left s)
  | [], s, hc => by
    unfold drain
    rw [next_end hc]
    rfl
  | u :: left, s, hc => by
    unfold drain St.loadLoop
    rw [next_cons]
    have hc' : (s.inEngine (St.loadStep P uids m u)).2.ctx = .user := hc
    generalize s.inEngine (St.loadStep P uids m u) = r at *
    obtain ⟨r1, r2⟩ := r
    cases r1 with
    | error e => rfl
    | ok x =>
      dsimp only
      have ih := drain_running (P := P) uids m left r2 hc'
      rw [List.length_cons]
      generalize drain P (left.length + 1) r2 ⟨uids, .running m left⟩ = d at *
      generalize St.loadLoop P uids m left r2 = l at *
      obtain ⟨d1, d2⟩ := d
      obtain ⟨l1, l2⟩ := l
      unfold Res.core at ih ⊢
      simp only [Prod.mk.injEq] at ih
      obtain ⟨e1, e2⟩ := ih
      subst e1
      cases d1 with
      | error e => simp only [Prod.mk.injEq, true_and]; exact e2
      | ok xs => simp only [Prod.mk.injEq, true_and]; exact e2

/-- **C104**. Consumed without interruption, an iteration gives the same objects, raises the same exception and leaves the same session as `load` consumed at once (C39, C40, C97): what the other claims say about `load`
holds for it. -/
theorem uninterrupted (P : Params) (s : St) (hc : s.ctx = .user) (uids : List Uid) :
    let d := drain P (uids.length + 1) s ⟨uids, .fresh⟩
    let l := s.load P uids
    d.1 = l.1 ∧ ({ d.2 with engine := .empty } : St) = { l.2 with engine := .empty } := by
  intro d l
  have h : Res.core d = Res.core l := by
    by_cases hroot : s.root = none
    · have hl : l = (.error .runtimeError, s) := by show s.load P uids = _; unfold St.load; rw [if_pos hroot]
      have hd : d = (.error .runtimeError, { s with engine := .empty }) := by
        show drain P (uids.length + 1) s ⟨uids, .fresh⟩ = _
        unfold drain
        rw [next_fresh_none hc hroot]
      rw [hl, hd]
      rfl
    · have hl : l = St.loadLoop P uids (missingAt s uids) uids (begun s uids) := by show s.load P uids = _; unfold St.load; rw [if_neg hroot]; rfl
      have hd : d = drain P (uids.length + 1) (begun s uids) ⟨uids, .running (missingAt s uids) uids⟩ := by
        show drain P (uids.length + 1) s ⟨uids, .fresh⟩ = _
        unfold drain
        rw [next_fresh hroot]
      rw [hl, hd]
      exact drain_running uids _ uids (begun s uids) hc
  unfold Res.core at h
  simp only [Prod.mk.injEq] at h
  exact h

/-! ### a user who keeps away from what is still to be visited -/

/-- How one `next` moves an iteration on. -/
theorem next_phase {P : Params} {s : St} (h : JT s) (g : Gen) (hg : ∀ m l, g.phase = .running m l → s.root ≠ none) {m l : List Uid} (hk : (next P s g).g.phase = .running m l) :
    (∃ u, g.phase = .running m (u :: l)) ∨ (g.phase = .fresh ∧ m = missingAt s g.uids ∧ ∀ v ∈ l, v ∈ g.uids) := by
  have hr : ∀ (s : St) (uids m' l' : List Uid), JT s → s.root ≠ none → (next P s ⟨uids, .running m' l'⟩).g.phase = .running m l → ∃ u, m' = m ∧ l' = u :: l := by
    intro s uids m' l' h hroot hk
    cases l' with
    | nil => rw [next_end h.ctx] at hk; simp at hk
    | cons u left =>
      by_cases hm : u ∈ m'
      · obtain ⟨s', a1, _⟩ := next_missing (P := P) h hroot uids m' left hm
        rw [a1] at hk
        simp only [Phase.running.injEq] at hk
        exact ⟨u, hk.1, by rw [hk.2]⟩
      · rw [next_present h uids m' left hm] at hk
        by_cases hur : u ∈ s.reg
        · rw [if_pos hur] at hk
          simp only [Phase.running.injEq] at hk
          exact ⟨u, hk.1, by rw [hk.2]⟩
        · rw [if_neg hur] at hk
          simp at hk
  obtain ⟨uids, phase⟩ := g
  cases phase with
  | fresh =>
    right
    by_cases hroot : s.root = none
    · rw [next_fresh_none h.ctx hroot] at hk; simp at hk
    · rw [next_fresh hroot] at hk
      obtain ⟨u, e1, e2⟩ := hr _ _ _ _ (jt_begun h uids) hroot hk
      refine ⟨rfl, e1.symm, fun v hv => ?_⟩
      show v ∈ uids
      rw [e2]
      exact List.mem_cons_of_mem _ hv
  | running m' l' =>
    left
    obtain ⟨u, e1, e2⟩ := hr _ _ _ _ h (hg m' l' rfl) hk
    exact ⟨u, by rw [e1, e2]⟩
  | done => rw [next_done h.ctx] at hk; simp at hk

/-- Proof device; nothing in /repo: nothing that waits to be reloaded has pending changes. -/
def Apart (y : Sys) : Prop := ∀ u, Waiting y u → ¬ Pending y.s u

theorem apart_step {P : Params} {y : Sys} (hI : I y) (h : Apart y) {e : Event} (hc : Careful1 y e) : Apart (y.step P e) := by
  cases e with
  | call o =>
    intro u hw hp
    have hw' : Waiting y u := hw
    rcases (step_user (P := P) hI.jt o).2 u (pending_uids.1 hp) with k | k
    · exact h u hw' (pending_uids.2 k)
    · exact hc u k hw'
  | opens uids =>
    rintro u ⟨i, m, l, a, b, c⟩ hp
    have a' : (Function.update y.gens y.count ⟨uids, .fresh⟩ i).phase = .running m l := a
    by_cases hi : i = y.count
    · subst hi; rw [Function.update_self] at a'; simp at a'
    · rw [Function.update_of_ne hi] at a'
      exact h u ⟨i, m, l, a', b, c⟩ hp
  | next j =>
    obtain ⟨_, a2, _⟩ := next_all (P := P) hI.jt (y.gens j) (hI.rooted j)
    rintro u ⟨i, m, l, a, b, c⟩ hp
    have hp' : Pending y.s u := by
      rw [pending_uids, ← a2]
      exact pending_uids.1 hp
    have a' : (Function.update y.gens j (Lazy.next P y.s (y.gens j)).g i).phase = .running m l := a
    by_cases hi : i = j
    · subst hi
      rw [Function.update_self] at a'
      rcases next_phase hI.jt _ (hI.rooted i) a' with ⟨w, k⟩ | ⟨k1, k2, k3⟩
      · exact h u ⟨i, m, w :: l, k, List.mem_cons_of_mem _ b, c⟩ hp'
      · rw [k2] at c
        exact hc k1 u (k3 u b) hp' (mem_missingAt.1 c).2
    · rw [Function.update_of_ne hi] at a'
      exact h u ⟨i, m, l, a', b, c⟩ hp'

theorem apart_run {P : Params} : ∀ (h : List Event) {y : Sys}, I y → Apart y → (∀ e ∈ h, Proper e) → Careful P y h → I (run P y h) ∧ Apart (run P y h)
  | [], _, hI, ha, _, _ => ⟨hI, ha⟩
  | e :: h, _, hI, ha, hp, hc => apart_run h (hI.step (hp e List.mem_cons_self)) (apart_step hI ha hc.1) (fun e' he => hp e' (List.mem_cons_of_mem _ he)) hc.2

/-- **C104**, the part that holds: as long as the user does not change objects that a running iteration will still reload, and begins no iteration over objects deleted without a commit, no step of any iteration touches an object
with pending changes: it stays registered (or removed) and shows what the user made of it. What is missing: the same without the first condition, see `lost_change` and `turn`. -/
theorem changes_survive_partial (P : Params) (db : Uid → Content) (h : List Event) (i : Nat) (hp : ∀ e ∈ h, Proper e) (hc : Careful P (.start db) (h ++ [.next i])) (v : Uid)
    (hv : Pending (run P (.start db) h).s v) :
    let s := (run P (.start db) h).s
    let s' := (run P (.start db) (h ++ [.next i])).s
    (v ∈ s'.reg ↔ v ∈ s.reg) ∧ s'.g v = s.g v ∧ Pending s' v := by
  intro s s'
  have split : ∀ (h : List Event) (y : Sys), Careful P y (h ++ [.next i]) → Careful P y h ∧ Careful1 (run P y h) (.next i) := by
    intro h
    induction h with
    | nil => exact fun y k => ⟨trivial, k.1⟩
    | cons e h ih => exact fun y k => ⟨⟨k.1, (ih _ k.2).1⟩, (ih _ k.2).2⟩
  obtain ⟨hc1, hc2⟩ := split h _ hc
  have ha0 : Apart (.start db) := by
    rintro u ⟨j, m, l, a, _⟩
    simp [Sys.start] at a
  obtain ⟨hI, ha⟩ := apart_run (P := P) h (I.start db) ha0 hp hc1
  have hs' : s' = (Lazy.next P (run P (.start db) h).s ((run P (.start db) h).gens i)).s := by
    show (run P (.start db) (h ++ [.next i])).s = _
    rw [run_append]
    rfl
  rw [hs']
  have hu := (next_all (P := P) hI.jt ((run P (.start db) h).gens i) (hI.rooted i)).2.1
  refine and_assoc.1 ⟨?_, by rw [pending_uids, hu]; exact pending_uids.1 hv⟩
  have key : ∀ (t : St) (uids m l : List Uid), JT t → t.root ≠ none → (∀ u ∈ l, u ∈ m → u ≠ v) → (v ∈ (Lazy.next P t ⟨uids, .running m l⟩).s.reg ↔ v ∈ t.reg) ∧ (Lazy.next P t ⟨uids, .running m l⟩).s.g v = t.g v := by
    intro t uids m l ht hroot hne
    cases l with
    | nil => rw [next_end ht.ctx]; exact ⟨Iff.rfl, rfl⟩
    | cons u left =>
      by_cases hm : u ∈ m
      · obtain ⟨t', a1, _, _, _, _, _, _, a8⟩ := next_missing (P := P) ht hroot uids m left hm
        rw [a1]
        exact a8 v (Ne.symm (hne u List.mem_cons_self hm))
      · rw [next_present ht uids m left hm]
        split <;> exact ⟨Iff.rfl, rfl⟩
  show (v ∈ (Lazy.next P (run P (.start db) h).s ((run P (.start db) h).gens i)).s.reg ↔ v ∈ (run P (.start db) h).s.reg) ∧ (Lazy.next P (run P (.start db) h).s ((run P (.start db) h).gens i)).s.g v = (run P (.start db) h).s.g v
  generalize hy : run P (.start db) h = y at *
  cases hph : (y.gens i).phase with
  | fresh =>
    have hg : y.gens i = ⟨(y.gens i).uids, .fresh⟩ := by rw [← hph]
    by_cases hroot : y.s.root = none
    · rw [hg, next_fresh_none hI.jt.ctx hroot]
      exact ⟨Iff.rfl, rfl⟩
    · rw [hg, next_fresh hroot]
      refine key (begun y.s (y.gens i).uids) _ _ _ (jt_begun hI.jt _) hroot fun u hu hm => ?_
      rintro rfl
      exact hc2 hph u hu hv (mem_missingAt.1 hm).2
  | running m l =>
    have hg : y.gens i = ⟨(y.gens i).uids, .running m l⟩ := by rw [← hph]
    rw [hg]
    refine key y.s _ m l hI.jt (hI.rooted i m l hph) fun u hu hm => ?_
    rintro rfl
    exact ha u ⟨i, m, l, hph, hu, hm⟩ hv
  | done =>
    have hg : y.gens i = ⟨(y.gens i).uids, .done⟩ := by rw [← hph]
    rw [hg, next_done hI.jt.ctx]
    exact ⟨Iff.rfl, rfl⟩

/-! ### what beginning an iteration does to the objects that are not visited yet -/

theorem mem_expired_del {P : Params} {s : St} (u : Uid) : (s.deleteTriples P u).2.expired = s.expired := by
  unfold St.deleteTriples
  split
  · rfl
  · dsimp only
    rw [notifyDelete_eq]
    unfold St.setBuf
    split <;> rfl

theorem expired_loadByIri {s : St} (u v : Uid) (h : v ∉ s.expired) : v ∉ (s.loadByIri u).2.expired := by
  unfold St.loadByIri
  dsimp only
  split
  · exact h
  · have hd : v ∉ del s.expired u := by rw [mem_del]; tauto
    generalize ht : (if u ∈ s.reg then _ else _ : St) = t
    have he : t.expired = del s.expired u := by
      rw [← ht]
      split
      · rfl
      · unfold St.store
        dsimp only
        unfold St.setBuf
        split <;> rfl
    rw [notifyUpdate_eq]
    unfold St.setBuf
    split
    all_goals
      rename_i heq
      simp only [Prod.mk.injEq] at heq
      obtain ⟨_, h2⟩ := heq
      rw [← h2]
      split <;> (show v ∉ t.expired; rw [he]; exact hd)

theorem expired_loadStep {P : Params} {s : St} (uids missing : List Uid) (u v : Uid) (hv : v ∈ uids) (h : v ∉ s.expired) : v ∉ (St.loadStep P uids missing u s).2.expired := by
  unfold St.loadStep
  split
  · split <;> exact h
  · dsimp only
    have h1 := expired_loadByIri u v h
    generalize s.loadByIri u = r at *
    obtain ⟨r1, r2⟩ := r
    cases r1 with
    | error e => exact h1
    | ok new =>
      dsimp only
      unfold St.afterLoad
      generalize (if u ∈ s.reg then some (s.g u) else none) = old
      cases old with
      | none => exact h1
      | some o =>
        dsimp only
        generalize hw : (if r2.root = some u then r2 else (r2.expire ((P.diff o (if new.isSome then r2.g u else ∅)).filter (· ∉ uids))).2) = w
        have h2 : v ∉ w.expired := by
          rw [← hw]
          split
          · exact h1
          · intro k
            have := ((mem_expire _ _ _).1 k).1
            simp only [List.mem_filter, decide_eq_true_eq] at this
            have h1' : v ∉ r2.expired := h1
            tauto
        split
        · have := mem_expired_del (P := P) (s := w) u
          generalize w.deleteTriples P u = d at *
          obtain ⟨d1, d2⟩ := d
          cases d1 <;> (dsimp only at this ⊢; rw [this]; exact h2)
        · exact h2

/-- Finding (C104): the first step of an iteration takes the marks of all the objects it was asked for, not only of the one it gives. Until the iteration reaches it (or for good, if the iteration is given up), reading such an object
no longer reloads it: the read leaves the session as it is, the object shows its old content. -/
theorem marks_taken (P : Params) (db : Uid → Content) (h : List Event) (hp : ∀ e ∈ h, Proper e) (i : Nat) (uids : List Uid) (hf : (run P (.start db) h).gens i = ⟨uids, .fresh⟩)
    (hroot : (run P (.start db) h).s.root ≠ none) (u : Uid) (hu : u ∈ uids) :
    let s := (run P (.start db) (h ++ [.next i])).s
    u ∉ s.expired ∧ Sess.step P s (.read u) = (.ok (), s) := by
  intro s
  have hI := I.hist (P := P) h (I.start db) hp
  have he : u ∉ s.expired := by
    have hs : s = (Lazy.next P (run P (.start db) h).s ((run P (.start db) h).gens i)).s := by
      show (run P (.start db) (h ++ [.next i])).s = _
      rw [run_append]
      rfl
    rw [hs, hf, next_fresh hroot]
    have hb : u ∉ (begun (run P (.start db) h).s uids).expired := by
      unfold begun
      simp only [List.mem_filter, decide_eq_true_eq]
      tauto
    cases uids with
    | nil => simp at hu
    | cons w ws =>
      rw [next_cons, inEngine_user (s := begun (run P (.start db) h).s (w :: ws)) hI.jt.ctx]
      have := expired_loadStep (P := P) (s := { begun (run P (.start db) h).s (w :: ws) with engine := .empty, ctx := .engine }) (w :: ws) (missingAt (run P (.start db) h).s (w :: ws)) w u hu hb
      generalize St.loadStep P (w :: ws) _ w _ = r at *
      obtain ⟨r1, r2⟩ := r
      cases r1 <;> exact this
  refine ⟨he, ?_⟩
  show s.notifyRead P u = _
  unfold St.notifyRead
  rw [if_neg he]

end Osp.Lazy
